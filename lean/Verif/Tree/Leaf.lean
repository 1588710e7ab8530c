import Verif.Tree.Flow
/-
Text, comments, elements without content and elements that hold text only.
-/
namespace Verif.Tree
open Verif.Html (Str Attr Content)
open Spec

/-! ### Token by token -/

/-- The tokens are taken one by one, and after each of them the tokenizer is asked for what the
mark says. -/
def Runs (d : Nat) : St → List Mark → St → Prop
  | s, [], s' => s = s'
  | s, (t, a) :: ms, s' => ∃ s1, feed d s t = .ok s1 ∧ s1.lexer = a ∧ Runs d s1 ms s'

theorem Runs.append {d : Nat} : ∀ {l : List Mark} {s s1 s2 : St} {r : List Mark},
    Runs d s l s1 → Runs d s1 r s2 → Runs d s (l ++ r) s2 := by
  intro l
  induction l with
  | nil => intro s s1 s2 r h1 h2; cases h1; exact h2
  | cons m l ih =>
    obtain ⟨t, a⟩ := m
    rintro s s1 s2 r ⟨x, h1, h2, h3⟩ h4
    exact ⟨x, h1, h2, ih h3 h4⟩

theorem Runs.one {d : Nat} {s s1 : St} {t : Tok} {a : Option Content}
    (h1 : run d none { s with lexer := none } t = .ok s1) (h2 : s1.lexer = a) :
    Runs d s [(t, a)] s1 := ⟨s1, h1, h2, rfl⟩

theorem run_skip {d : Nat} {s : St} {t : Tok} (ht : t ≠ .char '\n') :
    run (d + 1) none s t = run (d + 1) none { s with skipLf := false } t := by
  have key : ∀ s : St, run (d + 1) none s t =
      if forHtml { s with skipLf := false } t then
        run d (some s.mode) { s with skipLf := false } t
      else foreign (recAt d) { s with skipLf := false } t := by
    intro s
    show acceptStep _ _ _ = _
    unfold acceptStep
    rw [if_neg (by simp [ht])]
    rfl
  rw [key, key]

theorem Runs.skip {d : Nat} {s s' : St} {ms : List Mark} (hne : ms ≠ [])
    (hh : ∀ m, ms.head? = some m → m.1 ≠ .char '\n')
    (hr : Runs (d + 1) { s with skipLf := false } ms s') : Runs (d + 1) s ms s' := by
  cases ms with
  | nil => exact absurd rfl hne
  | cons m ms =>
    obtain ⟨t, a⟩ := m
    obtain ⟨x, h1, h2, h3⟩ := hr
    refine ⟨x, ?_, h2, h3⟩
    rw [feed, run_skip (hh _ rfl)]
    exact h1

/-! ### Text -/

theorem addText_nil (acc : List Tree) : addText acc [] = acc := rfl

theorem addText_cons (acc : List Tree) (c : Char) (d : Str) :
    addText acc (c :: d) = addText (addText acc [c]) d := by
  cases d with
  | nil => rfl
  | cons e d =>
    rcases List.eq_nil_or_concat acc with rfl | ⟨r, t, rfl⟩
    · simp [addText]
    · cases t <;> simp [addText]

theorem addText_append (acc : List Tree) (d e : Str) :
    addText acc (d ++ e) = addText (addText acc d) e := by
  induction d generalizing acc with
  | nil => rfl
  | cons c d ih => rw [List.cons_append, addText_cons, ih, ← addText_cons]

/-- The top element gets more content. -/
theorem Good.fill {s s' : St} {f : Frame} {fs : List Frame} {D l : List Tree}
    (g : Good s (f :: fs) D) (hs : Stk s' ({ f with done := l } :: fs) D)
    (h1 : s'.entries = s.entries) (h2 : s'.after = s.after) (h3 : s'.form = s.form)
    (h4 : s'.head = s.head) (h5 : s'.skipLf = s.skipLf) (h6 : s'.mode = s.mode) :
    Good s' ({ f with done := l } :: fs) D := by
  refine ⟨⟨hs, ?_, ?_, ?_⟩, g.path, ?_, by rw [h4]; exact g.head, by rw [h5]; exact g.skip, ?_⟩
  · rw [h1, g.entries, entriesOf_cons, entriesOf_cons]
    rfl
  · rw [h2, h1]
    exact g.after
  · rw [h3, g.form, List.find?_cons, List.find?_cons]
    split <;> rename_i e
    · simp only [e]
      rfl
    · simp only [e]
  · intro x hx
    cases hx with
    | head => exact g.html f (by simp)
    | tail _ hx => exact g.html x (List.mem_cons_of_mem _ hx)
  · rw [h6, ← g.mode, hs.stack, g.stack]
    rfl

theorem Good.framesetOk {s : St} {fs : List Frame} {D : List Tree} (g : Good s fs D) (b : Bool) :
    Good { s with framesetOk := b } fs D :=
  ⟨⟨g.toStk.congr rfl rfl rfl rfl rfl, g.entries, g.after, g.form⟩, g.path, g.html, g.head, g.skip,
    g.mode⟩

theorem char_flow {s : St} {f : Frame} {fs : List Frame} {D : List Tree} (g : Good s (f :: fs) D)
    (hf : f.name ∉ holders) {c : Char} (hc : c ≠ '\x00') (d : Nat) :
    ∃ s', run (d + 3) none s (.char c) = .ok s' ∧ s'.lexer = s.lexer ∧
      Good s' ({ f with done := addText f.done [c] } :: fs) D := by
  obtain ⟨d', -, hrun⟩ := g.inBody hf d (t := .char c) rfl
  obtain ⟨da, ki, pa, ne, h1, h2⟩ := g.toStk.char c
  have hg := g.fill h2 rfl rfl rfl rfl rfl rfl
  rw [hrun, inBody, if_neg hc, reconstruct_eq g.toCore]
  simp only [ok_bind, h1]
  split
  · exact ⟨_, rfl, rfl, hg⟩
  · exact ⟨_, rfl, rfl, hg.framesetOk false⟩

theorem chars_flow : ∀ (x : Str) {s : St} {f : Frame} {fs : List Frame} {D : List Tree} (d : Nat),
    Good s (f :: fs) D → f.name ∉ holders → (∀ c ∈ x, c ≠ '\x00') →
    ∃ s', Runs (d + 3) s (chars x) s' ∧ Good s' ({ f with done := addText f.done x } :: fs) D := by
  intro x
  induction x with
  | nil => intro s f fs D d g _ _; exact ⟨s, rfl, g⟩
  | cons c x ih =>
    intro s f fs D d g hf hx
    obtain ⟨s1, h1, h2, h3⟩ := char_flow (g.lexer none) hf (hx c (by simp)) d
    obtain ⟨s2, h4, h5⟩ := ih d h3 hf (fun c hc => hx c (by simp [hc]))
    refine ⟨s2, ⟨s1, h1, h2, h4⟩, ?_⟩
    rw [addText_cons]
    exact h5

theorem comment_flow {s : St} {f : Frame} {fs : List Frame} {D : List Tree} (g : Good s (f :: fs) D)
    (hf : f.name ∉ holders) (x : Str) (d : Nat) :
    ∃ s', run (d + 3) none s (.comment x) = .ok s' ∧ s'.lexer = s.lexer ∧
      Good s' (f.add (.comment x) :: fs) D := by
  obtain ⟨d', -, hrun⟩ := g.inBody hf d (t := .comment x) rfl
  obtain ⟨h1, h2⟩ := g.toStk.comment x
  rw [hrun]
  exact ⟨_, h1, rfl, g.fill h2 rfl rfl rfl rfl rfl rfl⟩

/-! ### Elements without content -/

/-- The state after an element without content. -/
def voided (s : St) (p : Nat) (n : Str) (as : List Attr) : St :=
  { opened s p .html n as with stack := s.stack }

theorem insertVoid_eq {s : St} {f : Frame} {fs : List Frame} {D : List Tree} (g : Stk s (f :: fs) D)
    (n : Str) {as : List Attr} (hd : distinct as = true) :
    insertVoid s n as = .ok (voided s f.el.id n as) := by
  rw [insertVoid, insertHtml_eq g n hd]
  rfl

theorem Stk.voided {s : St} {f : Frame} {fs : List Frame} {D : List Tree} (g : Stk s (f :: fs) D)
    (n : Str) (as : List Attr) :
    Stk (voided s f.el.id n as) (f.add (.elem .html n (plain as) []) :: fs) D :=
  (g.opened .html n as).closed

theorem void_flow {s : St} {f : Frame} {fs : List Frame} {D : List Tree} (g : Good s (f :: fs) D)
    (hf : f.name ∉ holders) {n : Str} {as : List Attr} {self : Bool} (hd : distinct as = true)
    (ha : Allowed (around (f :: fs)) n) (hn : n ∈ emptyOnes) (d : Nat) :
    ∃ s', run (d + 4) none s (.opens n as self) = .ok s' ∧ s'.lexer = s.lexer ∧
      Good s' (f.add (.elem .html n (plain as) []) :: fs) D := by
  have hft : flowTok (.opens n as self) = true := by
    have : ∀ n ∈ emptyOnes, isOne n tableParts = false := by decide
    simp [flowTok, this n hn]
  obtain ⟨d', hle, hrun⟩ := g.inBody hf (d + 1) hft
  obtain ⟨k, rfl⟩ : ∃ k, d' = k + 1 := ⟨d' - 1, by omega⟩
  rw [hrun]
  show ∃ s', bodyOpens (recAt (k + 1)) s n as self = .ok s' ∧ _
  have hins := insertVoid_eq g.toStk n hd
  have hg : Good (voided s f.el.id n as) (f.add (.elem .html n (plain as) []) :: fs) D :=
    g.fill (g.toStk.voided n as) rfl rfl rfl rfl rfl rfl
  have hrec := reconstruct_eq g.toCore
  unfold bodyOpens
  have key : ∀ n ∈ emptyOnes, bodyStart n ∈ [BodyStart.inHead, .void, .input, .param, .hr] ∧
      (bodyStart n = .inHead → n ∈ [nm! "base", nm! "basefont", nm! "bgsound", nm! "link", nm! "meta"]) ∧
      (bodyStart n = .input → n = nm! "input") ∧ (bodyStart n = .hr → n ∈ blocks) := by decide
  obtain ⟨k1, k2, k3, k4⟩ := key n hn
  cases hk : bodyStart n <;> rw [hk] at k1 k2 k3 k4 <;> first | (exact absurd k1 (by decide)) | skip
  · refine ⟨voided s f.el.id n as, ?_, rfl, hg⟩
    show inHead (recAt k) s (.opens n as self) = _
    have h1 : ∀ n ∈ [nm! "base", nm! "basefont", nm! "bgsound", nm! "link", nm! "meta"],
      n ≠ nm! "html" := by decide
    rw [inHead, if_neg (h1 n (k2 rfl)), if_pos (by simpa [isOne] using k2 rfl)]
    exact hins
  · simp only [hrec, ok_bind, hins]
    exact ⟨_, rfl, rfl, hg.framesetOk false⟩
  · simp only [inScope_false g (ha.input (k3 rfl)), ok_bind, Bool.false_eq_true, if_false, hrec, hins]
    split
    · exact ⟨_, rfl, rfl, hg⟩
    · exact ⟨_, rfl, rfl, hg.framesetOk false⟩
  · simp only [hins]
    exact ⟨_, rfl, rfl, hg⟩
  · simp only [endP_eq g (ha.block (k4 rfl)), ok_bind, hins]
    exact ⟨_, rfl, rfl, hg.framesetOk false⟩

/-! ### Elements that hold text only -/

/-- The state in such an element. -/
def rawState (s : St) (p : Nat) (n : Str) (as : List Attr) (b k : Bool) : St :=
  { opened s p .html n as with
    lexer := some (content n), orig := s.mode, mode := .text, framesetOk := b, skipLf := k }

theorem raw_opens {s : St} {f : Frame} {fs : List Frame} {D : List Tree} (g : Good s (f :: fs) D)
    (hf : f.name ∉ holders) {n : Str} {as : List Attr} (hd : distinct as = true)
    (ha : Allowed (around (f :: fs)) n) (hn : n ∈ textOnes) (d : Nat) :
    ∃ b k, run (d + 4) none s (.opens n as false) = .ok (rawState s f.el.id n as b k) ∧
      (k = true → n = nm! "textarea") := by
  have hft : flowTok (.opens n as false) = true := by
    have : ∀ n ∈ textOnes, isOne n tableParts = false := by decide
    simp [flowTok, this n hn]
  obtain ⟨d', hle, hrun⟩ := g.inBody hf (d + 1) hft
  obtain ⟨k, rfl⟩ : ∃ k, d' = k + 1 := ⟨d' - 1, by omega⟩
  rw [hrun]
  show ∃ b c, bodyOpens (recAt (k + 1)) s n as false = .ok _ ∧ _
  have hins := insertHtml_eq g.toStk n hd
  have hrec := reconstruct_eq g.toCore
  have hrawF := insertHtml_eq (g.framesetOk false).toStk n hd
  have noskip : s.skipLf = false := g.skip
  have hst : ∀ b, ({ opened s f.el.id .html n as with lexer := some (content n), orig := s.mode, mode := .text, framesetOk := b } : St) =
      rawState s f.el.id n as b false := by
    intro b
    unfold rawState
    rw [← noskip]
    rfl
  unfold bodyOpens
  simp only [textOnes, List.mem_cons, List.not_mem_nil, or_false] at hn
  rcases hn with rfl | rfl | rfl | rfl | rfl | rfl | rfl | rfl
  · refine ⟨s.framesetOk, false, ?_, by simp⟩
    rw [show bodyStart (nm! "title") = .inHead by decide, ← hst]
    show (do let s ← insertHtml s (nm! "title") as; _) = _
    rw [hins]
    rfl
  · refine ⟨s.framesetOk, false, ?_, by simp⟩
    rw [show bodyStart (nm! "style") = .inHead by decide, ← hst]
    show (do let s ← insertHtml s (nm! "style") as; _) = _
    rw [hins]
    rfl
  · refine ⟨s.framesetOk, false, ?_, by simp⟩
    rw [show bodyStart (nm! "script") = .inHead by decide, ← hst]
    show (do let s ← insertHtml s (nm! "script") as; _) = _
    rw [hins]
    rfl
  · refine ⟨s.framesetOk, false, ?_, by simp⟩
    rw [show bodyStart (nm! "noframes") = .inHead by decide, ← hst]
    show (do let s ← insertHtml s (nm! "noframes") as; _) = _
    rw [hins]
    rfl
  · refine ⟨false, true, ?_, by simp⟩
    rw [show bodyStart (nm! "textarea") = .textarea by decide]
    simp only [hins]
    rfl
  · refine ⟨false, false, ?_, by simp⟩
    rw [show bodyStart (nm! "iframe") = .iframe by decide, ← hst]
    simp only [parseRaw, hrawF]
    rfl
  · refine ⟨s.framesetOk, false, ?_, by simp⟩
    rw [show bodyStart (nm! "noembed") = .noembed by decide, ← hst]
    simp only [parseRaw, hins]
    rfl
  · refine ⟨false, false, ?_, by simp⟩
    rw [show bodyStart (nm! "xmp") = .xmp by decide, ← hst]
    simp only [endP_eq g (ha.block (by decide)), ok_bind, hrec, parseRaw, hrawF]
    rfl

/-- Text in such an element. -/
theorem raw_chars : ∀ (x : Str) {s : St} {F : Frame} {fs : List Frame} {D : List Tree} (d : Nat),
    Stk s (F :: fs) D → F.el.q.ns = .html → s.mode = .text → s.skipLf = false →
    (∀ c ∈ x, c ≠ '\x00') → ∃ da ki pa ne le,
      Runs (d + 2) s (chars x)
        { s with data := da, kids := ki, parent := pa, next := ne, lexer := le } ∧
      Stk { s with data := da, kids := ki, parent := pa, next := ne, lexer := le }
        ({ F with done := addText F.done x } :: fs) D := by
  intro x
  induction x with
  | nil => intro s F fs D d g _ _ _ _; exact ⟨s.data, s.kids, s.parent, s.next, s.lexer, rfl, g⟩
  | cons c x ih =>
    intro s F fs D d g hq hm hk hx
    have g' : Stk { s with lexer := none } (F :: fs) D := g.congr rfl rfl rfl rfl rfl
    obtain ⟨da, ki, pa, ne, h1, h2⟩ := g'.char c
    obtain ⟨da', ki', pa', ne', le', h3, h4⟩ := ih d h2 hq hm hk (fun c hc => hx c (by simp [hc]))
    refine ⟨da', ki', pa', ne', le', ⟨{ s with data := da, kids := ki, parent := pa, next := ne, lexer := none }, ?_, rfl, h3⟩, ?_⟩
    · rw [feed, run_none' (show ({ s with lexer := none } : St).skipLf = false from hk)
        (forHtml_top (s := { s with lexer := none }) g.stack hq _)]
      show handle (recAt d) s.mode _ _ = _
      rw [congrArg (handle (recAt d)) hm]
      show insertChar _ (if c = '\x00' then _ else c) = _
      rw [if_neg (hx c (by simp))]
      exact h1
    · rw [addText_cons]
      exact h4

/-- The end tag of such an element. -/
theorem raw_closes {s : St} {F : Frame} {fs : List Frame} {D : List Tree} (g : Stk s (F :: fs) D)
    (hq : F.el.q.ns = .html) (hm : s.mode = .text) (hk : s.skipLf = false) (n : Str) (d : Nat) :
    run (d + 2) none { s with lexer := none } (.closes n [] false) =
      .ok { s with lexer := none, stack := s.stack.tail, mode := s.orig } := by
  rw [run_none' (show ({ s with lexer := none } : St).skipLf = false from hk)
        (forHtml_top (s := { s with lexer := none }) g.stack hq _)]
  show handle (recAt d) s.mode _ _ = _
  rw [congrArg (handle (recAt d)) hm]
  show (do let s ← pop _; _) = _
  rw [pop_eq (g.congr (s' := { s with lexer := none }) rfl rfl rfl rfl rfl)]
  rfl

theorem raw_flow {s : St} {f : Frame} {fs : List Frame} {D : List Tree} (g : Good s (f :: fs) D)
    (hf : f.name ∉ holders) {n : Str} {as : List Attr} {x : Str} (hd : distinct as = true)
    (ha : Allowed (around (f :: fs)) n) (hn : n ∈ textOnes) (hx : ∀ c ∈ x, c ≠ '\x00')
    (hnf : n = nm! "textarea" → x.head? ≠ some '\n') (d : Nat) :
    ∃ s', Runs (d + 4) s (Node.marks (.raw n as x)) s' ∧
      Good s' (f.add (.elem .html n (plain as) (addText [] x)) :: fs) D := by
  obtain ⟨b, k, h1, h2⟩ := raw_opens (g.lexer none) hf hd ha hn d
  have hS : Stk { rawState s f.el.id n as b k with skipLf := false }
      (newFrame s n as :: f :: fs) D := (g.toStk.opened .html n as).congr rfl rfl rfl rfl rfl
  obtain ⟨da, ki, pa, ne, le, h3, h4⟩ := raw_chars x (d + 2) hS rfl rfl rfl hx
  have h5 := raw_closes h4 rfl rfl rfl n (d + 2)
  have hrest := h3.append (Runs.one (a := none) h5 rfl)
  have hskip : ∀ s', Runs (d + 4) { rawState s f.el.id n as b k with skipLf := false }
      (chars x ++ [calm (.closes n [] false)]) s' →
      Runs (d + 4) (rawState s f.el.id n as b k) (chars x ++ [calm (.closes n [] false)]) s' := by
    intro s' hrest
    cases k with
    | false => exact hrest
    | true =>
      refine Runs.skip (by simp) ?_ hrest
      intro m hm
      cases x with
      | nil =>
        simp only [chars, List.map_nil, List.nil_append, List.head?_cons, Option.some.injEq] at hm
        subst hm
        simp [calm]
      | cons c x =>
        simp only [chars, List.map_cons, List.cons_append, List.head?_cons, Option.some.injEq] at hm
        subst hm
        simp only [calm, ne_eq, Tok.char.injEq]
        rintro rfl
        exact hnf (h2 rfl) rfl
  refine ⟨_, ⟨_, h1, rfl, hskip _ hrest⟩, ?_⟩
  have h6 := h4.closed
  refine Good.fill g (l := f.done ++ [.elem .html n (plain as) (addText [] x)])
    ?_ ?_ ?_ ?_ ?_ ?_ ?_
  · exact h6.congr rfl rfl rfl rfl rfl
  · rfl
  · rfl
  · rfl
  · rfl
  · exact g.skip.symm
  · rfl

end Verif.Tree
