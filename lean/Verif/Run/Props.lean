import Verif.Run.Lemmas
/-!
# Running: properties

C39 batches of inputs, C90 what a window shows, C91 the media of a window.
-/
namespace Verif.Run

/-! ## C39: batches -/

/-- With one output for all inputs, the output is saved only after every input was loaded; it is saved once, as the last
thing, with the pages of all inputs in order; the run succeeds only if that was done. -/
theorem C39_concat {w : World} {o : Opts} {inputs : List String} {output : String} {tr : List Ev} {ok : Bool}
    (hb : o.batch = .concat) (h : runBatch w o inputs output = (tr, ok)) :
    ((∀ e ∈ tr, e.isLoad) ∧ ok = false) ∨
    ∃ evs ps, tr = evs ++ [.put output ps true ok] ∧ All w o inputs evs ps := by
  unfold runBatch at h
  rw [hb] at h
  simp only at h
  split at h
  · cases h; exact Or.inl ⟨by simp, rfl⟩
  · cases hc : concatLoop w o [] [] inputs with
    | mk tr1 r1 =>
      obtain ⟨e1, h1, l1, x1⟩ := concatLoop_spec inputs hc
      rw [hc] at h
      cases r1 with
      | none => cases h; exact Or.inl ⟨by rw [h1]; simpa using l1, rfl⟩
      | some ps =>
        simp only [save] at h
        split at h
        · cases h
          obtain ⟨ps', h2, h3⟩ := x1 ps rfl
          simp only [List.nil_append] at h1 h2
          subst h1 h2
          exact Or.inr ⟨_, _, rfl, h3⟩
        · cases h; exact Or.inl ⟨by rw [h1]; simpa using l1, rfl⟩

theorem all_loaded {w : World} {o : Opts} {us : List String} {evs : List Ev} {ps : List Page} (h : All w o us evs ps) :
    ∀ u ∈ us, ∃ d, Ev.load u (some d) ∈ evs := by
  induction h with
  | nil => intro u hu; cases hu
  | cons h1 _ ih =>
    intro u hu
    rcases List.mem_cons.1 hu with rfl | hu
    · cases h1 with
      | paged _ _ _ => exact ⟨_, List.mem_append_left _ List.mem_cons_self⟩
      | single _ => exact ⟨_, List.mem_append_left _ List.mem_cons_self⟩
    · obtain ⟨d, hd⟩ := ih u hu
      exact ⟨d, List.mem_append_right _ hd⟩

/-- In particular, anything that was saved was saved after all inputs were loaded. -/
theorem C39_concat_all_loaded {w : World} {o : Opts} {inputs : List String} {output : String} {tr : List Ev} {ok : Bool}
    (hb : o.batch = .concat) (h : runBatch w o inputs output = (tr, ok)) {url : String} {ps : List Page} {c b : Bool}
    (hp : .put url ps c b ∈ tr) : url = output ∧ ∀ u ∈ inputs, ∃ d, Ev.load u (some d) ∈ tr := by
  rcases C39_concat hb h with ⟨hl, _⟩ | ⟨evs, qs, rfl, ha⟩
  · exact absurd (hl _ hp) (by simp [Ev.isLoad])
  · refine ⟨?_, fun u hu => ?_⟩
    · rcases List.mem_append.1 hp with hp | hp
      · exact absurd (all_loads ha _ hp) (by simp [Ev.isLoad])
      · simp at hp; exact hp.1
    · obtain ⟨d, hd⟩ := all_loaded ha u hu
      exact ⟨d, List.mem_append_left _ hd⟩

/-- With separate outputs, the inputs are loaded and saved one after the other up to the first failure, after which
nothing more is saved; the run succeeds if and only if there was none. -/
theorem C39_separate {w : World} {o : Opts} {inputs : List String} {output : String} {tr : List Ev} {ok : Bool}
    (hb : o.batch = .separate) (h : runBatch w o inputs output = (tr, ok)) :
    ∃ rest evs tail, tr = evs ++ tail ∧ Saved w o inputs rest evs ∧ (∀ u ps c, .put u ps c true ∉ tail) ∧
      ((ok = true ∧ rest = [] ∧ tail = []) ∨ (ok = false ∧ rest ≠ [])) := by
  unfold runBatch at h
  rw [hb] at h
  obtain ⟨rest, evs, tail, h1, h2⟩ := separateLoop_spec inputs h
  exact ⟨rest, evs, tail, by simpa using h1, h2⟩

/-- So each input before the first failure (`done`) has its own output, if the names of the outputs differ. -/
theorem C39_separate_outputs_partial {w : World} {o : Opts} {inputs : List String} {output : String} {tr : List Ev} {ok : Bool}
    (hb : o.batch = .separate) (hn : (inputs.map w.name).Nodup) (h : runBatch w o inputs output = (tr, ok)) :
    ∃ done rest, inputs = done ++ rest ∧ (ok = true → rest = []) ∧
      (∀ u ∈ done, ∃ evs ps, One w o u evs ps ∧ (∀ e ∈ evs, e ∈ tr) ∧ stored tr (w.name u) = some ps) ∧
      ∀ u ∈ rest, stored tr (w.name u) = none := by
  obtain ⟨rest, evs, tail, rfl, hs, ht, hok⟩ := C39_separate hb h
  have hst : ∀ url, stored (evs ++ tail) url = (savedAs evs url).getLast? := by
    intro url
    show (savedAs (evs ++ tail) url).getLast? = _
    rw [savedAs_append, savedAs_none ht, List.append_nil]
  have key : ∀ {us rest : List String} {evs : List Ev}, Saved w o us rest evs → (us.map w.name).Nodup →
      ∃ done, us = done ++ rest ∧ (∀ u ∈ done, ∃ es ps, One w o u es ps ∧ (∀ e ∈ es, e ∈ evs) ∧
        savedAs evs (w.name u) = [ps]) ∧ ∀ url, (∀ u ∈ done, w.name u ≠ url) → savedAs evs url = [] := by
    intro us rest evs hs
    induction hs with
    | @stop us => intro _; exact ⟨[], rfl, by simp, fun _ _ => rfl⟩
    | @cons u us rest evs ps tr h1 h2 h3 ih =>
      intro hn
      simp only [List.map_cons, List.nodup_cons] at hn
      obtain ⟨done, hd, h4, h5⟩ := ih hn.2
      have step : ∀ url, savedAs (evs ++ (.put (w.name u) ps us.isEmpty true :: tr)) url =
          (if w.name u = url then [ps] else []) ++ savedAs tr url := by
        intro url
        rw [savedAs_append, savedAs_loads (one_loads h1)]
        simp only [savedAs, List.nil_append, List.filterMap_cons]
        by_cases hu : w.name u = url
        · simp [hu]
        · simp [hu]
      have hsub : ∀ v ∈ done, v ∈ us := fun v hv => by rw [hd]; exact List.mem_append_left _ hv
      have hdiff : ∀ v ∈ us, w.name v ≠ w.name u := fun v hv e => hn.1 (e ▸ List.mem_map_of_mem hv)
      refine ⟨u :: done, by rw [hd]; rfl, ?_, ?_⟩
      · intro v hv
        rcases List.mem_cons.1 hv with rfl | hv
        · refine ⟨evs, ps, h1, fun e he => List.mem_append_left _ he, ?_⟩
          rw [step, if_pos rfl, saved_other h3 hdiff]
          rfl
        · obtain ⟨es, qs, h6, h7, h8⟩ := h4 v hv
          refine ⟨es, qs, h6, fun e he => List.mem_append_right _ (List.mem_cons_of_mem _ (h7 e he)), ?_⟩
          rw [step, if_neg (fun e => hdiff v (hsub v hv) e.symm), h8]
          rfl
      · intro url hurl
        rw [step, if_neg (hurl u List.mem_cons_self), h5 url fun v hv => hurl v (List.mem_cons_of_mem _ hv)]
        rfl
  obtain ⟨done, hd, h4, h5⟩ := key hs hn
  refine ⟨done, rest, hd, ?_, ?_, ?_⟩
  · intro h
    rcases hok with ⟨_, h', _⟩ | ⟨h', _⟩
    · exact h'
    · rw [h] at h'; cases h'
  · intro u hu
    obtain ⟨es, ps, h6, h7, h8⟩ := h4 u hu
    exact ⟨es, ps, h6, fun e he => List.mem_append_left _ (h7 e he), by rw [hst, h8]; rfl⟩
  · intro u hu
    rw [hst, h5]
    · rfl
    · intro v hv e
      rw [hd, List.map_append, List.nodup_append] at hn
      exact hn.2.2 _ (List.mem_map_of_mem hv) _ (List.mem_map_of_mem hu) e

/-- The connection is to be closed with the last request of a run that succeeds and with no other one. -/
theorem C39_close {w : World} {o : Opts} {inputs : List String} {output : String} {tr : List Ev}
    (hn : inputs ≠ []) (h : runBatch w o inputs output = (tr, true)) :
    ∃ evs url ps, tr = evs ++ [.put url ps true true] ∧ ∀ v qs b, .put v qs true b ∉ evs := by
  cases hb : o.batch with
  | concat =>
    rcases C39_concat hb h with ⟨_, h'⟩ | ⟨evs, ps, rfl, ha⟩
    · cases h'
    · refine ⟨evs, _, _, rfl, fun v qs b hm => ?_⟩
      exact all_loads ha _ hm
  | separate =>
    obtain ⟨rest, evs, tail, rfl, hs, _, ⟨_, rfl, rfl⟩ | ⟨h', _⟩⟩ := C39_separate hb h
    · rw [List.append_nil]
      clear h hb
      have key : ∀ {us rest : List String} {evs : List Ev}, Saved w o us rest evs → rest = [] → us ≠ [] →
          ∃ es url ps, evs = es ++ [.put url ps true true] ∧ ∀ v qs b, .put v qs true b ∉ es := by
        intro us rest evs hs
        induction hs with
        | stop => intro h1 h2; exact absurd h1 h2
        | @cons u us rest evs ps tr h1 h2 h3 ih =>
          intro hr _
          subst hr
          have nl : ∀ v qs b, .put v qs true b ∉ evs := fun v qs b hm => one_loads h1 _ hm
          cases us with
          | nil =>
            cases h3
            exact ⟨evs, _, _, rfl, nl⟩
          | cons v us =>
            obtain ⟨es, url, qs, rfl, h5⟩ := ih rfl (by simp)
            refine ⟨evs ++ (.put (w.name u) ps false true :: es), url, qs, by simp, ?_⟩
            intro a b c hm
            rcases List.mem_append.1 hm with hm | hm
            · exact nl a b c hm
            · rcases List.mem_cons.1 hm with hm | hm
              · cases hm
              · exact h5 a b c hm
      exact key hs rfl hn
    · cases h'

/-- A world in which the third document cannot be loaded. -/
def world : World where
  load := fun tr u => if u = "c" then none else some tr.length
  put := fun _ _ _ => true
  print := fun d _ _ => [d, d]
  render := fun d => d
  create := true
  encode := fun _ => true
  name := fun u => "out/" ++ u

def opts (b : Batch) : Opts := { batch := b, flow := .auto, pdf := true, header := some "h", footer := none }

example : runBatch world (opts .separate) ["a", "b", "c", "d"] "out" =
    ([.load "a" (some 0), .load "h" (some 1), .put "out/a" [0, 0] false true, .load "b" (some 3), .load "h" (some 4),
      .put "out/b" [3, 3] false true, .load "c" none], false) ∧ (["a", "b", "c", "d"].map world.name).Nodup := by
  decide +kernel

example : runBatch world (opts .concat) ["a", "b"] "out" =
    ([.load "a" (some 0), .load "h" (some 1), .load "b" (some 2), .load "h" (some 3), .put "out" [0, 0, 2, 2] true true],
      true) ∧ (runBatch world (opts .concat) ["a", "c"] "out").2 = false := by decide +kernel

/-- Inputs of the same name in different directories overwrite each other's output. -/
theorem C39_separate_outputs_fails : ¬ ∀ (w : World) (o : Opts) (inputs : List String) (output : String) (tr : List Ev),
    o.batch = .separate → runBatch w o inputs output = (tr, true) →
    ∀ u ∈ inputs, ∃ d, .load u (some d) ∈ tr ∧ stored tr (w.name u) = some [w.render d] := by
  intro h
  have h1 : runBatch { world with name := fun _ => "out/x.png" } { opts .separate with flow := .continuous } ["a/x", "b/x"] "out"
      = ([.load "a/x" (some 0), .put "out/x.png" [0] false true, .load "b/x" (some 2), .put "out/x.png" [2] true true], true) := by
    decide +kernel
  obtain ⟨d, hd, hs⟩ := h _ _ _ _ _ rfl h1 "a/x" List.mem_cons_self
  have h2 : stored [.load "a/x" (some 0), .put "out/x.png" [0] false true, .load "b/x" (some 2), .put "out/x.png" [2] true true]
      "out/x.png" = some [2] := by decide +kernel
  have h3 : d = 0 := by simpa using hd
  have h4 : some [2] = some [d] := h2.symm.trans hs
  rw [h3] at h4
  exact absurd h4 (by decide)

/-! ## C90: what a window shows -/

/-- The cache, if there is one, fits. -/
def Fresh {R : Type} (render : Doc → Media → R) (w : Window R) : Prop :=
  ∀ r, w.cache = some r → ∃ d, w.doc = some d ∧ r = render d w.media

theorem fresh_step {R : Type} (render : Doc → Media → R) (w : Window R) (op : Op) (h : Fresh render w) :
    Fresh render (step render w op) := by
  cases op with
  | loaded d =>
    cases d with
    | none => exact h
    | some d => intro r hr; cases hr
  | changeMedia m => intro r hr; cases hr
  | changeViewport x y =>
    simp only [step, Media.changeViewport]
    split
    · next h1 =>
      split at h1
      · cases h1
      · cases h1; intro r hr; cases hr
    · next h1 =>
      split at h1
      · cases h1; exact h
      · cases h1
  | ensureRender =>
    unfold step ensureRender
    cases hc : w.cache with
    | some r => exact h
    | none =>
      cases hd : w.doc with
      | none => exact h
      | some d =>
        intro r hr
        cases hr
        exact ⟨d, rfl, rfl⟩

/-- After any sequence of loading, resizing, changing the media and showing, what a window shows is its current document
in its current media. -/
theorem C90_current {R : Type} (render : Doc → Media → R) (m : Media) (ops : List Op) (w' : Window R) (r : R)
    (h : ensureRender render (ops.foldl (step render) { media := m }) = some (w', r)) :
    ∃ d, (ops.foldl (step render) { media := m }).doc = some d ∧
      r = render d (ops.foldl (step render) { media := m }).media := by
  have fresh : ∀ (ops : List Op) (w : Window R), Fresh render w → Fresh render (ops.foldl (step render) w) := by
    intro ops
    induction ops with
    | nil => exact fun w h => h
    | cons op ops ih => exact fun w h => ih _ (fresh_step render w op h)
  have hf := fresh ops { media := m } (fun r hr => by cases hr)
  generalize ops.foldl (step render) { media := m } = w at h hf
  unfold ensureRender at h
  cases hc : w.cache with
  | some r' =>
    rw [hc] at h
    cases h
    exact hf _ hc
  | none =>
    rw [hc] at h
    cases hd : w.doc with
    | none => rw [hd] at h; cases h
    | some d => rw [hd] at h; cases h; exact ⟨d, rfl, rfl⟩

theorem step_doc {R : Type} (render : Doc → Media → R) (w : Window R) (op : Op) :
    (step render w op).doc = match op with
      | .loaded (some d) => some d
      | _ => w.doc := by
  cases op with
  | loaded d => cases d <;> rfl
  | changeMedia m => rfl
  | changeViewport x y =>
    simp only [step]
    split <;> rfl
  | ensureRender =>
    unfold step ensureRender
    cases w.cache with
    | some r => rfl
    | none => cases hd : w.doc <;> simp [hd]

/-- The current document is the last one that was loaded. -/
theorem C90_document {R : Type} (render : Doc → Media → R) (w : Window R) (ops : List Op) (d : Doc) (rest : List Op)
    (hr : ∀ op ∈ rest, ∀ d', op ≠ .loaded (some d')) :
    ((ops ++ .loaded (some d) :: rest).foldl (step render) w).doc = some d := by
  rw [List.foldl_append, List.foldl_cons]
  have : ∀ (w : Window R), w.doc = some d → (rest.foldl (step render) w).doc = some d := by
    induction rest with
    | nil => exact fun w h => h
    | cons op rest ih =>
      intro w hw
      refine ih (fun o ho => hr o (List.mem_cons_of_mem _ ho)) _ ?_
      rw [step_doc]
      have := hr op List.mem_cons_self
      cases op with
      | loaded d' =>
        cases d' with
        | none => exact hw
        | some d' => exact absurd rfl (this d')
      | _ => exact hw
  exact this _ (step_doc render _ _)

/-- After `changeViewport` the media have that size, and so has what is shown. -/
theorem C90_viewport {R : Type} (render : Doc → Media → R) (w : Window R) (x y : Int) :
    (step render w (.changeViewport x y)).media.width = x ∧ (step render w (.changeViewport x y)).media.height = y := by
  simp only [step, Media.changeViewport]
  split
  · next h => split at h <;> cases h; exact ⟨rfl, rfl⟩
  · next h =>
    split at h
    · next he => cases h; exact he
    · cases h

/-- Showing, resizing, showing again: the second picture has the new size. -/
example : ensureRender (R := Nat × Int) (fun d m => (d, m.width))
    ([.loaded (some 1), .ensureRender, .changeViewport 5 6, .ensureRender, .loaded none].foldl
      (step fun d m => (d, m.width)) { media := .forRender 3 4 }) =
    some ({ media := { (Media.forRender 5 6) with }, doc := some 1, cache := some (1, 5) }, (1, 5)) := by rfl

/-- A window without a document cannot be shown: the program aborts. -/
theorem C90_empty_window_fails : ¬ ∀ (ops : List Op), (ensureRender (R := Nat) (fun d _ => d)
    (ops.foldl (step fun d _ => d) { media := .forRender 3 4 })).isSome = true := by
  intro h
  exact absurd (h []) (by decide)

/-! ## C91: the media of a window -/

/-- The device is as large as the viewport in a window that was made for rendering. -/
theorem C91_device {R : Type} (render : Doc → Media → R) (x y : Int) (ops : List Op)
    (ho : ∀ m, .changeMedia m ∈ ops → m.deviceWidth = m.width ∧ m.deviceHeight = m.height) :
    let m := (ops.foldl (step render) { media := .forRender x y }).media
    m.deviceWidth = m.width ∧ m.deviceHeight = m.height := by
  have : ∀ (w : Window R), (w.media.deviceWidth = w.media.width ∧ w.media.deviceHeight = w.media.height) →
      (ops.foldl (step render) w).media.deviceWidth = (ops.foldl (step render) w).media.width ∧
      (ops.foldl (step render) w).media.deviceHeight = (ops.foldl (step render) w).media.height := by
    induction ops with
    | nil => exact fun w h => h
    | cons op ops ih =>
      intro w hw
      refine ih (fun m hm => ho m (List.mem_cons_of_mem _ hm)) _ ?_
      cases op with
      | loaded d => cases d <;> exact hw
      | changeMedia m => exact ho m List.mem_cons_self
      | changeViewport x y =>
        simp only [step, Media.changeViewport]
        split
        · next h => split at h <;> cases h; exact ⟨rfl, rfl⟩
        · next h =>
          split at h
          · cases h; exact hw
          · cases h
      | ensureRender =>
        unfold step ensureRender
        cases w.cache with
        | some r => exact hw
        | none => cases hd : w.doc <;> exact hw
  exact this _ ⟨rfl, rfl⟩

/-- The orientation of a window is portrait even if it is wider than high. -/
theorem C91_orientation_fails : ¬ ∀ (x y : Int), (Media.forRender x y).orientation = .landscape ↔ x > y := by
  intro h
  exact absurd ((h 800 600).2 (by decide)) (by decide)

/-- Resizing does not change it either. -/
theorem C91_resize_orientation_fails (m : Media) (x y : Int) : (m.changeViewport x y).1.orientation = m.orientation := by
  unfold Media.changeViewport
  split <;> rfl

end Verif.Run
