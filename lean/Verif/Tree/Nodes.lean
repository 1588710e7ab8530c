import Verif.Tree.Draw
/-
White space in tables, and the content of an element as a whole.
-/
namespace Verif.Tree
open Verif.Html (Str Attr Content)
open Spec

/-! ### Characters that wait -/

/-- White space in a table is kept until the next other token. -/
structure Waits (s : St) (f : Frame) (fs : List Frame) (D : List Tree) : Prop where
  mode : s.mode = .inTableText
  blank : ∀ c ∈ s.pending, blank c = true
  was : ∃ l, Good { s with mode := s.orig } ({ f with done := l } :: fs) D ∧
    f.done = addText l s.pending

def Near (s : St) (f : Frame) (fs : List Frame) (D : List Tree) : Prop :=
  Good s (f :: fs) D ∨ Waits s f fs D ∧ f.name ∈ holders

theorem Waits.lexer {s : St} {f : Frame} {fs : List Frame} {D : List Tree} (g : Waits s f fs D)
    (l : Option Content) : Waits { s with lexer := l } f fs D := by
  obtain ⟨h1, h2, x, h3, h4⟩ := g
  exact ⟨h1, h2, x, h3.lexer l, h4⟩

theorem Near.lexer {s : St} {f : Frame} {fs : List Frame} {D : List Tree} (g : Near s f fs D)
    (l : Option Content) : Near { s with lexer := l } f fs D := by
  rcases g with g | ⟨g, h⟩
  · exact Or.inl (g.lexer l)
  · exact Or.inr ⟨g.lexer l, h⟩

theorem insertChars_eq : ∀ (x : Str) {s : St} {f : Frame} {fs : List Frame} {D : List Tree},
    Stk s (f :: fs) D → ∃ da ki pa ne,
      insertChars s x = .ok { s with data := da, kids := ki, parent := pa, next := ne } ∧
      Stk { s with data := da, kids := ki, parent := pa, next := ne }
        ({ f with done := addText f.done x } :: fs) D := by
  intro x
  induction x with
  | nil => intro s f fs D g; exact ⟨s.data, s.kids, s.parent, s.next, rfl, g⟩
  | cons c x ih =>
    intro s f fs D g
    obtain ⟨da, ki, pa, ne, h1, h2⟩ := g.char c
    obtain ⟨da', ki', pa', ne', h3, h4⟩ := ih h2
    refine ⟨da', ki', pa', ne', ?_, ?_⟩
    · rw [insertChars, h1]
      exact h3
    · rw [addText_cons]
      exact h4

theorem Waits.flush {s : St} {f : Frame} {fs : List Frame} {D : List Tree} (g : Waits s f fs D)
    {t : Tok} (ht : ∀ c, t ≠ .char c) :
    ∃ s1, Good s1 (f :: fs) D ∧ s1.lexer = s.lexer ∧
      ∀ d, run (d + 2) none s t = run d none s1 t := by
  obtain ⟨hm, hb, l, hg, hl⟩ := g
  have hs : Stk s ({ f with done := l } :: fs) D := hg.toStk.congr rfl rfl rfl rfl rfl
  obtain ⟨da, ki, pa, ne, h1, h2⟩ := insertChars_eq s.pending hs
  refine ⟨{ s with data := da, kids := ki, parent := pa, next := ne, mode := s.orig }, ?_, rfl, ?_⟩
  · have := hg.fill (l := addText l s.pending) (s' := { s with data := da, kids := ki, parent := pa, next := ne, mode := s.orig })
      (h2.congr rfl rfl rfl rfl rfl) rfl rfl rfl rfl rfl rfl
    rw [← hl] at this
    exact this
  · intro d
    rw [run_none' (show s.skipLf = false from hg.skip)
      (forHtml_top hs.stack (hg.html _ (by simp)) _), hm]
    have hany : s.pending.any (!blankCr ·) = false := by
      rw [List.any_eq_false]
      intro c hc
      simp [blankCr, hb c hc]
    show inTableText (recAt d) s t = _
    cases t <;> first
      | (exact absurd rfl (ht _))
      | (simp only [inTableText, hany, Bool.false_eq_true, if_false, h1, ok_bind]
         rfl)

/-- Before any token but a character, nothing waits. -/
theorem Near.ready {s : St} {f : Frame} {fs : List Frame} {D : List Tree} (g : Near s f fs D)
    {t : Tok} (ht : ∀ c, t ≠ .char c) (k : Nat)
    {P : M St → Prop} (hP : ∀ s1 d, Good s1 (f :: fs) D → s1.lexer = s.lexer → k ≤ d →
      P (run d none s1 t)) : P (run (k + 2) none s t) := by
  rcases g with g | ⟨g, -⟩
  · exact hP s (k + 2) g rfl (by omega)
  · obtain ⟨s1, h1, h2, h3⟩ := g.flush ht
    rw [h3]
    exact hP s1 k h1 h2 (Nat.le_refl _)

theorem Near.flow {s : St} {f : Frame} {fs : List Frame} {D : List Tree} (g : Near s f fs D)
    (hf : f.name ∉ holders) : Good s (f :: fs) D := by
  rcases g with g | ⟨-, h⟩
  · exact g
  · exact absurd h hf

def tableTextParents : List Str :=
  [nm! "table", nm! "tbody", nm! "template_", nm! "tfoot", nm! "thead", nm! "tr"]

theorem char_table {s : St} {f : Frame} {fs : List Frame} {D : List Tree} (g : Near s f fs D)
    (hf : f.name ∈ holders) {c : Char} (hc : blank c = true) (d : Nat) :
    ∃ s', run (d + 5) none s (.char c) = .ok s' ∧ s'.lexer = s.lexer ∧
      Near s' { f with done := addText f.done [c] } fs D := by
  have hc0 : c ≠ '\x00' := by rintro rfl; cases hc
  rcases g with g | ⟨g, hfh⟩
  · -- the first character
    have begin_ : f.name ≠ nm! "colgroup" → ∀ k, Tree.inTable (recAt (k + 2)) s (.char c) =
        .ok { s with pending := [c], orig := s.mode, mode := .inTableText } := by
      intro hcg k
      have hcur : current s = .ok f.el := by rw [current, g.stack]; rfl
      have h1 : ∀ n ∈ holders, n ≠ nm! "colgroup" → tableTextParents.contains n = true := by decide
      have h2 : f.el.q.isIn tableTextParents = true := by rw [g.q, isIn_h]; exact h1 _ hf hcg
      unfold tableTextParents at h2
      rw [Tree.inTable, hcur]
      simp only [ok_bind]
      rw [if_pos h2]
      show Tree.run (k + 2) none { s with pending := [], orig := s.mode, mode := .inTableText } (.char c) = _
      rw [run_none' (s := { s with pending := [], orig := s.mode, mode := .inTableText }) g.skip
        (forHtml_top (s := { s with pending := [], orig := s.mode, mode := .inTableText }) g.stack
          (g.html f (by simp)) _)]
      show (if c = '\x00' then _ else _) = _
      rw [if_neg hc0]
      rfl
    have wait : f.name ≠ nm! "colgroup" →
        Near { s with pending := [c], orig := s.mode, mode := .inTableText }
          { f with done := addText f.done [c] } fs D := by
      intro hcg
      refine Or.inr ⟨⟨rfl, ?_, f.done, ?_, rfl⟩, hf⟩
      · intro x hx
        rw [List.mem_singleton.mp hx]
        exact hc
      · exact ⟨⟨g.toStk.congr rfl rfl rfl rfl rfl, g.entries, g.after, g.form⟩, g.path, g.html, g.head,
          g.skip, g.mode⟩
    rw [g.run (d + 3)]
    by_cases hcg : f.name = nm! "colgroup"
    · rw [g.mode'.2 .inColumnGroup (by rw [hcg]; decide)]
      obtain ⟨da, ki, pa, ne, h1, h2⟩ := g.toStk.char c
      refine ⟨_, ?_, ?_, Or.inl (g.fill h2 rfl rfl rfl rfl rfl rfl)⟩
      · show (if blankCr c then insertChar s c else _) = _
        rw [if_pos (by simp [blankCr, hc])]
        exact h1
      · rfl
    · simp only [holders, List.mem_cons, List.not_mem_nil, or_false] at hf
      rcases hf with e | e | e | e | e | e
      · rw [g.mode'.2 .inTable (by rw [e]; decide)]
        exact ⟨_, begin_ hcg (d + 1), rfl, wait hcg⟩
      · exact absurd e hcg
      · rw [g.mode'.2 .inTableBody (by rw [e]; decide)]
        exact ⟨_, begin_ hcg d, rfl, wait hcg⟩
      · rw [g.mode'.2 .inTableBody (by rw [e]; decide)]
        exact ⟨_, begin_ hcg d, rfl, wait hcg⟩
      · rw [g.mode'.2 .inTableBody (by rw [e]; decide)]
        exact ⟨_, begin_ hcg d, rfl, wait hcg⟩
      · rw [g.mode'.2 .inRow (by rw [e]; decide)]
        exact ⟨_, begin_ hcg d, rfl, wait hcg⟩
  · -- one more
    obtain ⟨hm, hb, l, hg, hl⟩ := g
    refine ⟨{ s with pending := s.pending ++ [c] }, ?_, rfl, Or.inr ⟨⟨hm, ?_, l, ?_, ?_⟩, hfh⟩⟩
    · rw [run_none' (d := d + 3) (show s.skipLf = false from hg.skip)
        (forHtml_top hg.stack (hg.html _ (by simp)) _), congrArg (handle (recAt (d + 3))) hm]
      show (if c = '\x00' then _ else _) = _
      rw [if_neg hc0]
    · intro x hx
      rcases List.mem_append.mp hx with hx | hx
      · exact hb x hx
      · rw [List.mem_singleton.mp hx]
        exact hc
    · exact ⟨⟨hg.toStk.congr rfl rfl rfl rfl rfl, hg.entries, hg.after, hg.form⟩, hg.path, hg.html, hg.head,
        hg.skip, hg.mode⟩
    · show addText f.done [c] = _
      rw [hl, ← addText_append]

theorem chars_table : ∀ (x : Str) {s : St} {f : Frame} {fs : List Frame} {D : List Tree} (d : Nat),
    Near s f fs D → f.name ∈ holders → (∀ c ∈ x, blank c = true) →
    ∃ s', Runs (d + 5) s (chars x) s' ∧ Near s' { f with done := addText f.done x } fs D := by
  intro x
  induction x with
  | nil => intro s f fs D d g _ _; exact ⟨s, rfl, g⟩
  | cons c x ih =>
    intro s f fs D d g hf hx
    obtain ⟨s1, h1, h2, h3⟩ := char_table (g.lexer none) hf (hx c (by simp)) d
    obtain ⟨s2, h4, h5⟩ := ih d h3 hf (fun c hc => hx c (by simp [hc]))
    refine ⟨s2, ⟨s1, h1, h2, h4⟩, ?_⟩
    rw [addText_cons]
    exact h5

theorem comment_table {s : St} {f : Frame} {fs : List Frame} {D : List Tree} (g : Good s (f :: fs) D)
    (hf : f.name ∈ holders) (x : Str) (d : Nat) :
    ∃ s', run (d + 3) none s (.comment x) = .ok s' ∧ s'.lexer = s.lexer ∧
      Good s' (f.add (.comment x) :: fs) D := by
  obtain ⟨h1, h2⟩ := g.toStk.comment x
  have h3 := g.fill h2 rfl rfl rfl rfl rfl rfl
  rw [g.run (d + 1)]
  refine out h3 ?_ rfl
  simp only [holders, List.mem_cons, List.not_mem_nil, or_false] at hf
  rcases hf with e | e | e | e | e | e
  · rw [g.mode'.2 .inTable (by rw [e]; decide)]; exact h1
  · rw [g.mode'.2 .inColumnGroup (by rw [e]; decide)]; exact h1
  · rw [g.mode'.2 .inTableBody (by rw [e]; decide)]; exact h1
  · rw [g.mode'.2 .inTableBody (by rw [e]; decide)]; exact h1
  · rw [g.mode'.2 .inTableBody (by rw [e]; decide)]; exact h1
  · rw [g.mode'.2 .inRow (by rw [e]; decide)]; exact h1

theorem col_table {s : St} {f : Frame} {fs : List Frame} {D : List Tree} (g : Good s (f :: fs) D)
    (hf : f.name = nm! "colgroup") {as : List Attr} {self : Bool} (hd : distinct as = true) (d : Nat) :
    ∃ s', run (d + 2) none s (.opens (nm! "col") as self) = .ok s' ∧ s'.lexer = s.lexer ∧
      Good s' (f.add (.elem .html (nm! "col") (plain as) []) :: fs) D := by
  have h3 : Good (voided s f.el.id (nm! "col") as) (f.add (.elem .html (nm! "col") (plain as) []) :: fs) D :=
    g.fill (g.toStk.voided _ as) rfl rfl rfl rfl rfl rfl
  rw [g.run d]
  refine out h3 ?_ rfl
  rw [g.mode'.2 .inColumnGroup (by rw [hf]; decide)]
  exact insertVoid_eq g.toStk _ hd

/-! ### The content of an element -/

theorem noFeed_spec {n : Str} {ks : List Node} (hk : noFeed n ks = true)
    (hn : n ∈ [nm! "pre", nm! "listing"]) : ∀ m, (allMarks ks ++ [calm (.closes n [] false)]).head? = some m →
    m.1 ≠ .char '\n' := by
  intro m hm
  simp only [noFeed, List.contains_iff_mem.mpr hn, Bool.true_and, Bool.not_eq_true',
    decide_eq_false_iff_not] at hk
  cases hms : allMarks ks with
  | nil =>
    rw [hms] at hm
    simp only [List.nil_append, List.head?_cons, Option.some.injEq] at hm
    subst hm
    simp [calm]
  | cons x r =>
    rw [hms] at hm hk
    simp only [List.cons_append, List.head?_cons, Option.map_some, Option.some.injEq] at hm hk
    subst hm
    exact hk

/-- An element outside of the parts of tables has a parent outside of them. -/
theorem flow_parent {m n : Str} {r : List Str} (ha : Allowed (m :: r) n) (hp : n ∉ parts)
    (hc : n ≠ nm! "col") : m ∉ holders := by
  intro hm
  obtain ⟨ks, h1, h2⟩ := lookup_holders m hm
  have h3 := h2 n (ha.child ks h1)
  have : ∀ k ∈ [nm! "caption", nm! "colgroup", nm! "thead", nm! "tbody", nm! "tfoot", nm! "tr",
        nm! "td", nm! "th", nm! "col"], k ∈ parts ∨ k = nm! "col" := by decide
  rcases this n h3 with h | h
  · exact hp h
  · exact hc h

mutual
theorem node_ok : ∀ (x : Node) {s : St} {f : Frame} {fs : List Frame} {D : List Tree} (d : Nat),
    x.fits (around (f :: fs)) = true → Near s f fs D →
    ∃ s', Runs (d + 8) s x.marks s' ∧ Near s' { f with done := x.trees f.done } fs D
  | .text x, s, f, fs, D, d, hx, g => by
    simp only [Node.fits, textAllowed, List.all_eq_true, Bool.and_eq_true, bne_iff_ne] at hx
    rw [Node.marks, Node.trees]
    by_cases hf : f.name ∈ holders
    · refine chars_table x (d + 3) g hf fun c hc => ?_
      obtain ⟨ks, h1, -⟩ := lookup_holders f.name hf
      have := (hx c hc).2
      rw [show (around (f :: fs)).headD [] = f.name from rfl, h1] at this
      simp only [Option.isNone_some, Bool.false_or, Bool.or_eq_true, beq_iff_eq] at this
      simp only [blank, Bool.or_eq_true, beq_iff_eq]
      rcases this with ((h | h) | h) | h <;> simp [h]
    · obtain ⟨s', h1, h2⟩ := chars_flow x (d + 5) (g.flow hf) hf fun c hc => (hx c hc).1
      exact ⟨s', h1, Or.inl h2⟩
  | .comment x, s, f, fs, D, d, hx, g => by
    rw [Node.marks, Node.trees]
    have : ∃ s', run (d + 8) none { s with lexer := none } (.comment x) = .ok s' ∧ s'.lexer = none ∧
        Good s' (f.add (.comment x) :: fs) D := by
      refine (g.lexer none).ready (by simp) (d + 6)
        (P := fun m => ∃ s', m = .ok s' ∧ s'.lexer = none ∧ Good s' (f.add (.comment x) :: fs) D) ?_
      intro s1 e hg hl hle
      obtain ⟨e, rfl⟩ : ∃ k, e = k + 3 := ⟨e - 3, by omega⟩
      obtain ⟨s', h1, h2, h3⟩ : ∃ s', run (e + 3) none s1 (.comment x) = .ok s' ∧ s'.lexer = s1.lexer ∧
          Good s' (f.add (.comment x) :: fs) D := by
        by_cases hf : f.name ∈ holders
        · exact comment_table hg hf x e
        · exact comment_flow hg hf x e
      exact ⟨s', h1, by rw [h2, hl], h3⟩
    obtain ⟨s', h1, h2, h3⟩ := this
    exact ⟨s', Runs.one h1 h2, Or.inl h3⟩
  | .void n as self, s, f, fs, D, d, hx, g => by
    simp only [Node.fits, Bool.and_eq_true, Bool.or_eq_true, beq_iff_eq, List.contains_iff_mem] at hx
    obtain ⟨⟨h0, ha⟩, hd⟩ := hx
    have ha := allowed_iff ha
    rw [Node.marks, Node.trees]
    have : ∃ s', run (d + 8) none { s with lexer := none } (.opens n as self) = .ok s' ∧ s'.lexer = none ∧
        Good s' (f.add (.elem .html n (plain as) []) :: fs) D := by
      refine (g.lexer none).ready (by simp) (d + 6)
        (P := fun m => ∃ s', m = .ok s' ∧ s'.lexer = none ∧
          Good s' (f.add (.elem .html n (plain as) []) :: fs) D) ?_
      intro s1 e hg hl hle
      obtain ⟨e, rfl⟩ : ∃ k, e = k + 4 := ⟨e - 4, by omega⟩
      obtain ⟨s', h1, h2, h3⟩ : ∃ s', run (e + 4) none s1 (.opens n as self) = .ok s' ∧ s'.lexer = s1.lexer ∧
          Good s' (f.add (.elem .html n (plain as) []) :: fs) D := by
        rcases h0 with h0 | ⟨rfl, hf⟩
        · have hne : ∀ n ∈ emptyOnes, n ∉ parts ∧ n ≠ nm! "col" := by decide
          exact void_flow hg (flow_parent ha (hne n h0).1 (hne n h0).2) hd ha h0 e
        · exact col_table hg hf hd (e + 2)
      exact ⟨s', h1, by rw [h2, hl], h3⟩
    obtain ⟨s', h1, h2, h3⟩ := this
    exact ⟨s', Runs.one h1 h2, Or.inl h3⟩
  | .raw n as x, s, f, fs, D, d, hx, g => by
    simp only [Node.fits, Bool.and_eq_true, List.contains_iff_mem, List.all_eq_true, bne_iff_ne,
      Bool.not_eq_true', Bool.and_eq_false_iff, beq_eq_false_iff_ne] at hx
    obtain ⟨⟨⟨⟨h0, ha⟩, hd⟩, hx⟩, hnf⟩ := hx
    have ha := allowed_iff ha
    rw [Node.trees]
    have hne : ∀ n ∈ textOnes, n ∉ parts ∧ n ≠ nm! "col" := by decide
    have hf := flow_parent ha (hne n h0).1 (hne n h0).2
    obtain ⟨s', h1, h2⟩ := raw_flow (g.flow hf) hf hd ha h0 hx (fun e => by
      rcases hnf with h | h
      · exact absurd e h
      · exact h) (d + 4)
    exact ⟨s', h1, Or.inl h2⟩
  | .elem n as ks, s, f, fs, D, d, hx, g => by
    simp only [Node.fits, Bool.and_eq_true, Bool.not_eq_true', List.contains_eq_mem,
      decide_eq_false_iff_not] at hx
    obtain ⟨⟨⟨⟨⟨⟨he, hr⟩, hb⟩, ha⟩, hd⟩, hk⟩, hks⟩ := hx
    have ha := allowed_iff ha
    rw [Node.trees, Node.marks]
    have hel : Elem n := ⟨he, hr, hb⟩
    have hcol : n ≠ nm! "col" := by rintro rfl; exact hb (by decide)
    have hopen : ∃ s1, run (d + 8) none { s with lexer := none } (.opens n as false) = .ok s1 ∧
        s1.lexer = none ∧ ∃ i, Good { s1 with skipLf := false } (⟨⟨i, h n⟩, as, []⟩ :: f :: fs) D ∧
        (s1.skipLf = true → n ∈ [nm! "pre", nm! "listing"]) := by
      refine (g.lexer none).ready (by simp) (d + 6)
        (P := fun m => ∃ s1, m = .ok s1 ∧
        s1.lexer = none ∧ ∃ i, Good { s1 with skipLf := false } (⟨⟨i, h n⟩, as, []⟩ :: f :: fs) D ∧
        (s1.skipLf = true → n ∈ [nm! "pre", nm! "listing"])) ?_
      intro s1 e hg hl hle
      obtain ⟨e, rfl⟩ : ∃ k, e = k + 3 := ⟨e - 3, by omega⟩
      obtain ⟨s2, h1, h2⟩ : ∃ s2, run (e + 3) none s1 (.opens n as false) = .ok s2 ∧
          Entered s1 s2 n as (f :: fs) D := by
        by_cases hp : n ∈ parts
        · obtain ⟨s2, h1, h2, h3⟩ := opens_part hg hd ha hp (e + 1)
          exact ⟨s2, h1, entered h2 h3⟩
        · exact opens_flow hg (flow_parent ha hp hcol) hd ha hel hp e
      exact ⟨s2, h1, by rw [h2.lexer, hl], s1.next, h2.good, h2.feed⟩
    obtain ⟨s1, h1, h2, i, h3, h4⟩ := hopen
    obtain ⟨s2, h5, h6⟩ := nodes_ok ks (f := ⟨⟨i, h n⟩, as, []⟩) (fs := f :: fs) d hks (Or.inl h3)
    have hclose : ∃ s3, run (d + 8) none { s2 with lexer := none } (.closes n [] false) = .ok s3 ∧
        s3.lexer = none ∧ Good s3 (f.add (.elem .html n (plain as) (allTrees [] ks)) :: fs) D := by
      refine (h6.lexer none).ready (by simp) (d + 6)
        (P := fun m => ∃ s3, m = .ok s3 ∧ s3.lexer = none ∧
          Good s3 (f.add (.elem .html n (plain as) (allTrees [] ks)) :: fs) D) ?_
      intro s2' e hg hl hle
      obtain ⟨e, rfl⟩ : ∃ k, e = k + 3 := ⟨e - 3, by omega⟩
      obtain ⟨s3, k1, k2, k3⟩ : ∃ s3, run (e + 3) none s2' (.closes n [] false) = .ok s3 ∧
          s3.lexer = s2'.lexer ∧ Good s3 (f.add (.elem .html n (plain as) (allTrees [] ks)) :: fs) D := by
        by_cases hp : n ∈ nm! "table" :: parts
        · exact closes_part hg hp (e + 1)
        · rw [List.mem_cons, not_or] at hp
          exact closes_flow hg hel hp.2 hp.1 ha e
      exact ⟨s3, k1, by rw [k2, hl], k3⟩
    obtain ⟨s3, k1, k2, k3⟩ := hclose
    refine ⟨s3, ⟨s1, h1, h2, ?_⟩, Or.inl k3⟩
    have hrest := h5.append (Runs.one k1 k2)
    by_cases hsk : s1.skipLf = true
    · exact Runs.skip (by simp) (noFeed_spec hk (h4 hsk)) hrest
    · have : { s1 with skipLf := false } = s1 := by
        have hk : s1.skipLf = false := by simpa using hsk
        cases s1; simp only at hk; subst hk; rfl
      rw [this] at hrest
      exact hrest
  | .drawing as ks, s, f, fs, D, d, hx, g => by
    simp only [Node.fits, Bool.and_eq_true, List.all_eq_true] at hx
    obtain ⟨⟨⟨ha, hd⟩, hs⟩, hks⟩ := hx
    have hf := flow_parent (allowed_iff ha) (by decide) (by decide)
    rw [Node.trees]
    obtain ⟨s', h1, h2⟩ := drawing_ok (g.flow hf) hf hd hs hks (d + 5)
    exact ⟨s', h1, Or.inl h2⟩

theorem nodes_ok : ∀ (xs : List Node) {s : St} {f : Frame} {fs : List Frame} {D : List Tree} (d : Nat),
    allFit (around (f :: fs)) xs = true → Near s f fs D →
    ∃ s', Runs (d + 8) s (allMarks xs) s' ∧ Near s' { f with done := allTrees f.done xs } fs D
  | [], s, f, fs, D, d, _, g => by
    rw [allMarks, allTrees]
    exact ⟨s, rfl, g⟩
  | x :: xs, s, f, fs, D, d, hx, g => by
    rw [allFit, Bool.and_eq_true] at hx
    rw [allMarks, allTrees]
    obtain ⟨s1, h1, h2⟩ := node_ok x d hx.1 g
    obtain ⟨s2, h3, h4⟩ := nodes_ok xs (f := { f with done := x.trees f.done }) d hx.2 h2
    exact ⟨s2, h1.append h3, h4⟩
end

end Verif.Tree
