import Verif.Browser.Lemmas
/-
# C207–C211: the browser
-/

namespace Verif.Browser

section
variable {U N : Type} [DecidableEq N] (parse : String → U) (str : U → String)

/-- A session of examples: addresses are texts. -/
abbrev world0 : World String Nat := start id "a" false

/-! ### C207 -/

/-- Whatever is pressed among what can be pressed, and whenever the loads end and however: the history
    is the one of the trail, the page one is at and the text in the address field too, and there is a
    live button *back* (*forward*) if and only if a page lies behind (ahead). -/
theorem C207_history_is_the_trail (first : U) (dev : Bool) (es : List (Event U N))
    (hl : es.length < usizeMax) (hb : ByButtons parse str (start str first dev) es) :
    ∃ w b, run parse str (start str first dev) es = some w ∧
      b = es.foldl (Bar.after parse str) ⟨⟨[], { url := first }, []⟩, str first⟩ ∧
      w.state.history = b.trail.entries ∧ w.state.currentUrl = some b.trail.here ∧
      w.state.locationInput = b.text ∧
      (w.state.canGoBack = true ↔ b.trail.behind ≠ []) ∧
      (w.state.canGoForward = true ↔ b.trail.ahead ≠ []) := by
  obtain ⟨w, hr, hs⟩ := run_says (parse := parse) (str := str) es (start_says (N := N) first dev)
    (by show 1 + _ ≤ _; omega) hb
  refine ⟨w, _, hr, rfl, hs.history, hs.current, hs.text, ?_, ?_⟩
  · rw [State.canGoBack, hs.index, decide_eq_true_iff, ← List.length_pos_iff]
  · rw [State.canGoForward, hs.index, hs.history, decide_eq_true_iff, Trail.entries_length,
      ← List.length_pos_iff]
    omega

/-- Going back and forward again brings one to where one was, with the same pages behind and ahead. -/
theorem C207_back_and_forward (first : U) (dev : Bool) (es : List (Event U N))
    (hl : es.length + 2 < usizeMax) (hb : ByButtons parse str (start str first dev) es)
    (w : World U N) (hr : run parse str (start str first dev) es = some w)
    (hc : w.state.canGoBack = true) :
    ∃ w1 w2, step parse str w (.user .goBack) = some w1 ∧
      step parse str w1 (.user .goForward) = some w2 ∧
      w2.state.history = w.state.history ∧ w2.state.currentUrl = w.state.currentUrl ∧
      w1.state.history = w.state.history ∧ w1.state.canGoForward = true := by
  obtain ⟨w', hr', hs⟩ := run_says (parse := parse) (str := str) es (start_says (N := N) first dev)
    (by show 1 + _ ≤ _; omega) hb
  rw [hr] at hr'
  obtain rfl := Option.some.inj hr'
  generalize hbar : es.foldl (Bar.after parse str) ⟨⟨[], { url := first }, []⟩, str first⟩ = b at hs
  have hlen : w.state.history.length ≤ 1 + es.length := by
    rw [hs.history, ← hbar]
    have : ∀ (es : List (Event U N)) (b : Bar U),
        (es.foldl (Bar.after parse str) b).trail.entries.length ≤ b.trail.entries.length + es.length := by
      intro es
      induction es with
      | nil => intro b; simp
      | cons e es ih =>
        intro b
        have h1 := ih (b.after parse str e)
        have h2 := after_length (parse := parse) (str := str) b e
        simp only [List.foldl_cons, List.length_cons]
        omega
    exact Nat.le_trans (this es _) (by simp [Trail.entries])
  obtain ⟨w1, h1, hs1⟩ := step_says (parse := parse) (str := str) (.user .goBack) hs (by omega) hc
  have hne : b.trail.behind ≠ [] := by
    rw [State.canGoBack, hs.index, decide_eq_true_iff] at hc
    exact List.length_pos_iff.mp hc
  obtain ⟨⟨bs, h, as⟩, x⟩ := b
  cases bs with
  | nil => exact absurd rfl hne
  | cons c cs =>
    simp only [Bar.after, Trail.back] at hs1
    have e1 : w1.state.history = w.state.history := by
      rw [hs1.history, hs.history]; simp [Trail.entries]
    have hf : w1.state.canGoForward = true := by
      rw [State.canGoForward, hs1.index, hs1.history, decide_eq_true_iff, Trail.entries_length]
      simp only [List.length_cons]
      omega
    obtain ⟨w2, h2, hs2⟩ := step_says (parse := parse) (str := str) (.user .goForward) hs1
      (by rw [e1]; omega) hf
    simp only [Bar.after, Trail.forward] at hs2
    exact ⟨w1, w2, h1, h2, by rw [hs2.history, hs.history], by rw [hs2.current, hs.current], e1, hf⟩

/-- Not empty: a visit, its arrival, a step back, a visit from there: the page ahead is forgotten. -/
example : run id id world0 [.user (.navigate { url := "b" }), .arrives true, .user .goBack,
      .arrives true, .user (.updateLocation "c"), .user .navigateLocation, .arrives false] =
    some
      { state :=
          { history := [{ url := "a" }, { url := "c" }]
            currentIndex := 1
            loadingOk := false
            locationInput := "c" }
        shown := { url := "a" } } := by decide +kernel

example : ByButtons id id world0 [.user (.navigate { url := "b" }), .arrives true, .user .goBack] := by
  refine ⟨rfl, fun w h => ?_⟩
  obtain rfl := Option.some.inj h
  refine ⟨List.cons_ne_nil _ _, fun w h => ?_⟩
  obtain rfl := Option.some.inj h
  refine ⟨?_, fun _ _ => trivial⟩
  show onScreen _ _ = true
  decide +kernel

/-! ### C208 -/

/-- Meant: nothing that can be pressed makes the browser crash. Proved for the buttons of the screen;
    what is missing is the keyboard (below). -/
theorem C208_no_crash_partial (first : U) (dev : Bool) (es : List (Event U N))
    (hl : es.length < usizeMax) (hb : ByButtons parse str (start str first dev) es) :
    run parse str (start str first dev) es ≠ none := by
  obtain ⟨w, _, hr, _⟩ := C207_history_is_the_trail parse str first dev es hl hb
  rw [hr]
  exact Option.some_ne_none w

/-- False of the keyboard: Alt and the left arrow, pressed when no page lies behind, crash the browser,
    in each session that did not go anywhere else. -/
theorem C208_alt_left_fails (first : U) (dev : Bool) :
    byKey (Action.goBack : Action U N) = true ∧
    run parse str (start (N := N) str first dev) [.user .goBack] = none := by
  refine ⟨rfl, ?_⟩
  simp [run, step, start, reduce, reduceReload, State.currentUrl, dec, usizeMax]

/-- False while a page is being loaded, too: nothing is seen then, and the crash comes with the page. -/
theorem C208_alt_left_while_loading_fails (first : U) (dev fetched : Bool) :
    (run parse str (start (N := N) str first dev) [.user .reload, .user .goBack]).isSome = true ∧
    run parse str (start (N := N) str first dev)
      [.user .reload, .user .goBack, .arrives fetched] = none := by
  constructor <;>
    simp [run, step, start, reduce, reduceReload, State.currentUrl, dec, usizeMax, loadLocation]

/-! ### C209 -/

/-- Meant: once nothing is being loaded, the page on the screen is the one of the entry the history is
    at, or the notice that it could not be loaded. Proved if nobody goes elsewhere while a page is being
    loaded; what is missing is a visit in a hurry (below). -/
theorem C209_shows_where_one_is_partial (first : U) (dev : Bool) (es : List (Event U N))
    (hf : ∀ e ∈ es, NoFake e) (hp : Patient parse str (start str first dev) es)
    (w : World U N) (hr : run parse str (start str first dev) es = some w) (hs : w.pending = []) :
    w.view = none ∨ (w.view = w.state.currentUrl ∧ w.state.currentUrl.isSome = true) := by
  have key : ∀ (es : List (Event U N)) (w0 : World U N), Steady w0 → (∀ e ∈ es, NoFake e) →
      Patient parse str w0 es → run parse str w0 es = some w → Steady w := by
    intro es
    induction es with
    | nil => intro w0 h _ _ hr; obtain rfl := Option.some.inj hr; exact h
    | cons e es ih =>
      intro w0 h hf hp hr
      simp only [run] at hr
      cases he : step parse str w0 e with
      | none => rw [he] at hr; cases hr
      | some w1 =>
        rw [he] at hr
        exact ih w1 (step_steady h (hf e (List.mem_cons_self ..)) hp.1 he)
          (fun e' h' => hf e' (List.mem_cons_of_mem _ h')) (hp.2 _ he) hr
  have hst : Steady w := key es (start str first dev) ⟨rfl, (nomatch ·), fun _ _ => rfl⟩ hf hp hr
  have hone := hst.one
  unfold OneLoad at hone
  cases hw : w.state.status with
  | loading => rw [hw, hs] at hone; simp at hone
  | loaded =>
    unfold World.view
    cases hk : w.state.loadingOk with
    | false => exact .inl rfl
    | true => rw [hst.loaded hw hk]; exact .inr ⟨rfl, rfl⟩

/-- False of somebody in a hurry: a visit made while another page is being loaded is in the history and
    in the address field, but it is the other page that is on the screen, and nothing is being loaded. -/
theorem C209_visit_in_a_hurry_fails :
    ∃ w, run id id world0 [.user (.navigate { url := "b" }), .user (.navigate { url := "c" }),
        .arrives true] = some w ∧
      ByButtons id id world0 [.user (.navigate { url := "b" }), .user (.navigate { url := "c" }),
        .arrives true] ∧
      w.pending = [] ∧ w.state.currentUrl = some { url := "c" } ∧ w.state.locationInput = "c" ∧
      w.view = some { url := "b" } := by
  refine ⟨{ state :=
              { history := [{ url := "a" }, { url := "b" }, { url := "c" }]
                currentIndex := 2
                locationInput := "c" }
            shown := { url := "b" } }, by decide +kernel, ?_, rfl, rfl, rfl, rfl⟩
  refine ⟨rfl, fun w h => ?_⟩
  obtain rfl := Option.some.inj h
  refine ⟨rfl, fun w h => ?_⟩
  obtain rfl := Option.some.inj h
  exact ⟨List.cons_ne_nil _ _, fun _ _ => trivial⟩

/-- Whatever was done before, in a hurry or not: once nothing is being loaded, loading again shows the
    page of the entry the history is at, if it can be had. -/
theorem C209_reload_shows_where_one_is (first : U) (dev : Bool) (es : List (Event U N))
    (hl : es.length < usizeMax) (hb : ByButtons parse str (start str first dev) es)
    (hf : ∀ e ∈ es, NoFake e)
    (w : World U N) (hr : run parse str (start str first dev) es = some w) (hs : w.pending = [])
    (n : Nav U) (hn : w.state.currentUrl = some n) (ha : n.action ≠ .other) :
    ∃ w', run parse str w [.user .reload, .arrives true] = some w' ∧ w'.pending = [] ∧
      w'.view = some n ∧ w'.state.currentUrl = some n ∧ w'.state.locationInput = str n.url ∧
      w'.state.history = w.state.history := by
  have hone : OneLoad w := by
    have key : ∀ (es : List (Event U N)) (w0 : World U N), OneLoad w0 → (∀ e ∈ es, NoFake e) →
        run parse str w0 es = some w → OneLoad w := by
      intro es
      induction es with
      | nil => intro w0 h _ hr; obtain rfl := Option.some.inj hr; exact h
      | cons e es ih =>
        intro w0 h hf hr
        simp only [run] at hr
        cases he : step parse str w0 e with
        | none => rw [he] at hr; cases hr
        | some w1 =>
          rw [he] at hr
          exact ih w1 (step_one h (hf e (List.mem_cons_self ..)) he)
            (fun e' h' => hf e' (List.mem_cons_of_mem _ h')) hr
    exact key es (start str first dev) rfl hf hr
  have hst : w.state.status = .loaded := by
    unfold OneLoad at hone
    cases hst : w.state.status with
    | loading => rw [hst, hs] at hone; simp at hone
    | loaded => rfl
  have hcur : ∀ s : State U N, s.history = w.state.history → s.currentIndex = w.state.currentIndex →
      s.currentUrl = some n := by
    intro s h1 h2
    unfold State.currentUrl at *
    rw [h1, h2, hn]
  have h1 : step parse str w (.user .reload)
      = some { w with state := { w.state with status := .loading }, pending := [n] } := by
    simp [step, reduce, reduceReload, hst, hn, hs]
  have hload : loadLocation w.shown n true = (n, true) := by
    unfold loadLocation
    cases hna : n.action with
    | other => exact absurd hna ha
    | publicOpen => rfl
    | publicModify => rfl
  refine ⟨{ state := { w.state with
              status := .loaded
              loadingOk := true
              locationInput := str n.url }
            shown := n }, ?_, rfl, rfl, hcur _ rfl rfl, rfl, rfl⟩
  simp only [run, h1]
  simp [step, hload, reduce, hcur { w.state with status := .loading } rfl rfl]

/-! ### C210 -/

/-- Whatever is pressed, from the screen or by key: there is never more than one page being loaded, and
    it is said that one is being loaded exactly while there is one. -/
theorem C210_one_load_at_a_time (first : U) (dev : Bool) (es : List (Event U N))
    (hf : ∀ e ∈ es, NoFake e)
    (w : World U N) (hr : run parse str (start str first dev) es = some w) :
    w.pending.length ≤ 1 ∧ (w.state.status = .loading ↔ w.pending.length = 1) := by
  have key : ∀ (es : List (Event U N)) (w0 : World U N), OneLoad w0 → (∀ e ∈ es, NoFake e) →
      run parse str w0 es = some w → OneLoad w := by
    intro es
    induction es with
    | nil => intro w0 h _ hr; obtain rfl := Option.some.inj hr; exact h
    | cons e es ih =>
      intro w0 h hf hr
      simp only [run] at hr
      cases he : step parse str w0 e with
      | none => rw [he] at hr; cases hr
      | some w1 =>
        rw [he] at hr
        exact ih w1 (step_one h (hf e (List.mem_cons_self ..)) he)
          (fun e' h' => hf e' (List.mem_cons_of_mem _ h')) hr
  have hone := key es (start str first dev) rfl hf hr
  unfold OneLoad at hone
  cases hst : w.state.status with
  | loading => rw [hst] at hone; exact ⟨Nat.le_of_eq hone, by simp [hone]⟩
  | loaded => rw [hst] at hone; simp [hone]

/-- False of a page that does not arrive: nothing that is pressed until it does starts another load, so
    that it cannot be left. -/
theorem C210_slow_page_can_be_left_false (as : List (Action U N)) (hf : ∀ a ∈ as, ∀ ok, a ≠ .loaded ok)
    (w w' : World U N) (hw : w.state.status = .loading)
    (hr : run parse str w (as.map .user) = some w') :
    w'.pending = w.pending ∧ w'.shown = w.shown ∧ w'.state.status = .loading := by
  induction as generalizing w with
  | nil => obtain rfl := Option.some.inj hr; exact ⟨rfl, rfl, hw⟩
  | cons a as ih =>
    simp only [List.map_cons, run, step] at hr
    cases ha : reduce parse str w.state a with
    | none => rw [ha] at hr; cases hr
    | some p =>
      obtain ⟨s, t⟩ := p
      rw [ha] at hr
      obtain ⟨_, hh⟩ := reduce_status (hf a (List.mem_cons_self ..)) ha
      rcases hh with ⟨h1, rfl, _⟩ | ⟨h1, _⟩
      · have := ih (fun a' h' => hf a' (List.mem_cons_of_mem _ h')) _ (h1.trans hw) hr
        simpa using this
      · rw [hw] at h1; cases h1

example : ∃ w, run id id world0 [.user .reload] = some w ∧ w.state.status = .loading ∧
    w.pending = [{ url := "a" }] := ⟨_, rfl, rfl, rfl⟩

example : ∃ w, run id id world0 ([.navigate { url := "b" }, .goBack, .reload].map .user) = some w ∧
    w.pending.length = 1 := ⟨_, rfl, rfl⟩

end

/-! ### C211 -/

section
variable {N : Type} [DecidableEq N]

theorem shownNodes_append (a b : List (Line N)) :
    shownNodes (a ++ b) = shownNodes a ++ shownNodes b := List.filterMap_append

/-- What a node shows of itself and of the nodes below it, given that all it lies in is open. -/
def shownOf (expanded : List N) (es : List (Entry N)) : List (N × Nat) :=
  (es.filter fun e => e.above.all (decide <| · ∈ expanded) && !e.blank).map
    fun e => (e.node, e.above.length)

theorem shownOf_append (expanded : List N) (a b : List (Entry N)) :
    shownOf expanded (a ++ b) = shownOf expanded a ++ shownOf expanded b := by
  simp [shownOf]

mutual
theorem above_prefix (above : List N) : ∀ d : Dom N, ∀ e ∈ entries above d, above <+: e.above
  | .doctype n => by simp [entries, Entry.above]
  | .text n b => by simp [entries, Entry.above]
  | .comment n => by simp [entries, Entry.above]
  | .element n kids => by
    intro e he
    simp only [entries, List.mem_cons] at he
    rcases he with rfl | he
    · exact List.prefix_refl _
    · exact (List.prefix_append above [n]).trans (aboveAll_prefix (above ++ [n]) kids e he)
theorem aboveAll_prefix (above : List N) :
    ∀ ds : List (Dom N), ∀ e ∈ entriesAll above ds, above <+: e.above
  | [] => by simp [entriesAll]
  | d :: ds => by
    intro e he
    simp only [entriesAll, List.mem_append] at he
    rcases he with he | he
    · exact above_prefix above d e he
    · exact aboveAll_prefix above ds e he
end

theorem shownOf_closed (expanded : List N) {n : N} (hn : n ∉ expanded) {above : List N}
    (hm : n ∈ above) (es : List (Entry N)) (h : ∀ e ∈ es, above <+: e.above) :
    shownOf expanded es = [] := by
  unfold shownOf
  rw [List.map_eq_nil_iff, List.filter_eq_nil_iff]
  intro e he hx
  have := (h e he).subset hm
  simp only [Bool.and_eq_true, List.all_eq_true, decide_eq_true_eq] at hx
  exact hn (hx.1 n this)

theorem shownOf_self (expanded above : List N) (ha : ∀ n ∈ above, n ∈ expanded) (n : N) :
    shownOf expanded [Entry.mk n above false] = [(n, above.length)] := by
  have h : above.all (decide <| · ∈ expanded) = true := by
    rw [List.all_eq_true]
    intro m hm
    exact decide_eq_true (ha m hm)
  simp only [shownOf, List.filter_cons, Entry.above, Entry.blank, Entry.node, h]
  rfl

mutual
theorem lines_shown (expanded above : List N) (ha : ∀ n ∈ above, n ∈ expanded) :
    ∀ d : Dom N, shownNodes (lines expanded above.length d) = shownOf expanded (entries above d)
  | .doctype n => by
    rw [lines, entries, shownOf_self expanded above ha]; rfl
  | .text n b => by
    cases b
    · rw [lines, entries, shownOf_self expanded above ha]; rfl
    · simp [lines, shownNodes, entries, shownOf, Entry.blank]
  | .comment n => by
    rw [lines, entries, shownOf_self expanded above ha]; rfl
  | .element n kids => by
    rw [lines, entries]
    show _ = shownOf expanded ([_] ++ _)
    rw [shownOf_append, shownOf_self expanded above ha]
    by_cases hn : n ∈ expanded
    · rw [if_pos hn]
      have ih := linesAll_shown expanded (above ++ [n]) (by
        intro m hm
        rcases List.mem_append.mp hm with h | h
        · exact ha m h
        · rw [List.mem_singleton.mp h]; exact hn) kids
      rw [List.length_append] at ih
      show shownNodes ([_] ++ (_ ++ [_])) = _
      rw [shownNodes_append, shownNodes_append]
      simp only [List.length_singleton] at ih
      rw [ih]
      simp [shownNodes]
    · rw [if_neg hn, shownOf_closed expanded hn (above := above ++ [n]) (by simp) _
        (aboveAll_prefix _ kids)]
      rfl
theorem linesAll_shown (expanded above : List N) (ha : ∀ n ∈ above, n ∈ expanded) :
    ∀ ds : List (Dom N),
      shownNodes (linesAll expanded above.length ds) = shownOf expanded (entriesAll above ds)
  | [] => rfl
  | d :: ds => by
    rw [linesAll, entriesAll, shownNodes_append, shownOf_append, lines_shown expanded above ha d,
      linesAll_shown expanded above ha ds]
end

/-- The inspector shows, in the order of the document, exactly those nodes that lie in open elements
    only and are no white space, each moved in by the number of elements it lies in. -/
theorem C211_shows_what_lies_in_open_elements (expanded : List N) (document : List (Dom N)) :
    shownNodes (inspector expanded document) =
      ((entriesAll [] document).filter fun e =>
        e.above.all (decide <| · ∈ expanded) && !e.blank).map fun e => (e.node, e.above.length) :=
  linesAll_shown expanded [] (by simp) document

theorem mem_setAdd {a n : N} {s : List N} : a ∈ setAdd n s ↔ a ∈ s ∨ a = n := by
  unfold setAdd
  split
  · constructor
    · exact .inl
    · rintro (h | rfl)
      · exact h
      · assumption
  · simp

/-- A node is open according to what was done to that node, and to nothing else. -/
theorem C211_open_by_its_own_clicks (n : N) (as : List (InspectAction N)) (i : Inspect N) :
    decide (n ∈ (as.foldl Inspect.apply i).expanded) = opened n (decide (n ∈ i.expanded)) as := by
  induction as generalizing i with
  | nil => rfl
  | cons a as ih =>
    rw [List.foldl_cons, ih]
    cases a with
    | expand m =>
      rw [opened]
      congr 1
      by_cases hm : m ∈ i.expanded
      · have e : i.apply (.expand m) = { i with expanded := i.expanded.filter (· ≠ m) } := if_pos hm
        rw [e]
        by_cases h : m = n
        · subst h; simp [hm]
        · simp [h, Ne.symm h]
      · have e : i.apply (.expand m) = { i with expanded := setAdd m i.expanded } := if_neg hm
        rw [e]
        by_cases h : m = n
        · subst h; simp [hm, mem_setAdd]
        · simp [mem_setAdd, h, Ne.symm h]
    | select m kids =>
      rw [opened]
      congr 1
      cases kids
      · simp [Inspect.apply]
      · by_cases h : m = n
        · subst h; simp [Inspect.apply, mem_setAdd]
        · simp [Inspect.apply, mem_setAdd, h, Ne.symm h]
    | changeFilter f => rfl

/-- False of the node chosen: it outlives the document it belongs to. Whatever was chosen stays chosen
    (and open) when another page is visited and shown. -/
theorem C211_choice_ends_with_the_document_false {U : Type} (parse : String → U) (str : U → String)
    (first : U) (n : N) (to : Nav U) (hto : to.action ≠ .other) :
    ∃ w, run parse str (start str first true)
        [.user (.inspector (.select n true)), .user (.navigate to), .arrives true] = some w ∧
      w.view = some to ∧ w.state.inspect.selected = some n ∧ n ∈ w.state.inspect.expanded := by
  have hload : loadLocation (Nav.mk first .publicOpen) to true = (to, true) := by
    unfold loadLocation
    cases hna : to.action with
    | other => exact absurd hna hto
    | publicOpen => rfl
    | publicModify => rfl
  refine ⟨{ state :=
              { developerMode := true
                history := [{ url := first }, to]
                currentIndex := 1
                inspect := { expanded := [n], selected := some n }
                locationInput := str to.url }
            shown := to }, ?_, rfl, rfl, by simp⟩
  simp [run, step, start, reduce, reduceNavigate, reduceReload, State.currentUrl, Inspect.apply,
    setAdd, inc, usizeMax, hload]

example : shownNodes (inspector [1] [.doctype 0, .element 1 [.text 2 true, .element 3 [.text 4 false],
    .comment 5]]) = [(0, 0), (1, 0), (3, 1), (5, 1)] := by decide +kernel

end

end Verif.Browser
