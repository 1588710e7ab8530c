import Verif.Tree.Tables
/-
Drawings.
-/
namespace Verif.Tree
open Verif.Html (Str Attr Content toLower isUpper)
open Spec

/-! ### Names -/

theorem toLower_small {n : Str} (h : small n = true) : n.map toLower = n := by
  unfold small at h
  rw [List.all_eq_true] at h
  have : n.map toLower = n.map id := by
    apply List.map_congr_left
    intro c hc
    have := h c hc
    unfold toLower isUpper
    rw [if_neg]
    · rfl
    · simp at this ⊢
      omega
  rw [this, List.map_id]

theorem find_lookup (n : Str) : ∀ table : List Str,
    table.find? (fun t => t.map toLower == n) = (table.map fun t => (t.map toLower, t)).lookup n := by
  intro table
  induction table with
  | nil => rfl
  | cons t r ih =>
    rw [List.map_cons, List.lookup, List.find?_cons, ih]
    by_cases h : t.map toLower = n
    · simp [h]
    · have h' : (n == t.map toLower) = false := by simpa using fun e => h e.symm
      have h2 : (t.map toLower == n) = false := by simpa using h
      rw [h', h2]

theorem lookup_none {α : Type} {n : Str} : ∀ {l : List (Str × α)}, n ∉ l.map (·.1) → l.lookup n = none := by
  intro l
  induction l with
  | nil => intro _; rfl
  | cons p l ih =>
    obtain ⟨k, v⟩ := p
    intro h
    rw [List.map_cons, List.mem_cons, not_or] at h
    rw [List.lookup]
    have : (n == k) = false := by simpa using h.1
    rw [this]
    exact ih h.2

theorem cased_eq {table : List Str} {caps : List (Str × Str)}
    (h1 : ∀ t ∈ table, ((table.map fun t => (t.map toLower, t)).lookup (t.map toLower)).getD (t.map toLower) =
      (caps.lookup (t.map toLower)).getD (t.map toLower))
    (h2 : ∀ p ∈ caps, p.1 ∈ table.map fun t => t.map toLower) {n : Str} (hn : small n = true) :
    cased table n = (caps.lookup n).getD n := by
  have e : cased table n = ((table.map fun t => (t.map toLower, t)).lookup n).getD n := by
    unfold cased eqCi
    rw [toLower_small hn, find_lookup]
  rw [e]
  by_cases hm : n ∈ table.map fun t => t.map toLower
  · obtain ⟨t, ht, rfl⟩ := List.mem_map.mp hm
    exact h1 t ht
  · rw [lookup_none, lookup_none]
    · intro hc
      obtain ⟨p, hp, rfl⟩ := List.mem_map.mp hc
      exact hm (h2 p hp)
    · rw [List.map_map]
      exact hm

theorem cased_name {n : Str} (hn : small n = true) : cased svgTags n = svgName n :=
  cased_eq (by decide +kernel) (by decide +kernel) hn

theorem cased_attrs {as : List Attr} (h : ∀ a ∈ as, small a.name = true) :
    casedAttrs as = as.map svgAttr := by
  unfold casedAttrs
  apply List.map_congr_left
  intro a ha
  unfold svgAttr
  rw [cased_eq (table := svgAttrs) (caps := svgKeys) (by decide +kernel) (by decide +kernel) (h a ha)]

/-- Other than by the case of its letters, a name is not changed. -/
theorem svgName_ci {n : Str} (hn : small n = true) : eqCi (svgName n) n = true := by
  unfold eqCi
  rw [beq_iff_eq, toLower_small hn, ← cased_name hn, cased]
  cases hf : svgTags.find? (eqCi · n) with
  | none => exact toLower_small hn
  | some t =>
    have := List.find?_some hf
    rw [eqCi, beq_iff_eq, toLower_small hn] at this
    exact this

/-- HTML does not begin inside of this. -/
def Inner (f : Frame) : Prop := f.el.q.ns = .svg ∧ f.el.q.name ∉ specialSvg

theorem svgName_inner {n : Str} (hn : small n = true) (hs : n ∉ notShapes) : svgName n ∉ specialSvg := by
  intro h
  have h1 := svgName_ci hn
  unfold eqCi at h1
  rw [beq_iff_eq, toLower_small hn] at h1
  have : ∀ x ∈ specialSvg, x.map toLower ∈ notShapes := by decide +kernel
  exact hs (h1 ▸ this _ h)

theorem forHtml_inner {s : St} {f : Frame} {st : List El} (h1 : s.stack = f.el :: st) (hf : Inner f)
    {t : Tok} (ht : t ≠ .eof) : forHtml s t = false := by
  have hm : mathText f.el = false := by simp [mathText, hf.1]
  have hh : htmlPoint s f.el = false := by
    have h2 : f.el.q ≠ ⟨.math, nm! "annotation-xml"⟩ := by
      intro e
      have := hf.1
      rw [e] at this
      cases this
    simp [htmlPoint, h2, hf.2]
  have h2 : f.el.q ≠ ⟨.math, nm! "annotation-xml"⟩ := by
    intro e
    have := hf.1
    rw [e] at this
    cases this
  rw [forHtml, h1]
  cases t <;> simp [hf.1, hm, hh, h2] at ht ⊢

/-! ### Parts of a drawing -/

/-- All but the tree and the stack is as before. -/
structure Kept (s s' : St) : Prop where
  entries : s'.entries = s.entries
  after : s'.after = s.after
  form : s'.form = s.form
  head : s'.head = s.head
  skipLf : s'.skipLf = s.skipLf
  mode : s'.mode = s.mode

theorem Kept.trans {a b c : St} (h : Kept a b) (k : Kept b c) : Kept a c :=
  ⟨k.entries.trans h.entries, k.after.trans h.after, k.form.trans h.form, k.head.trans h.head,
    k.skipLf.trans h.skipLf, k.mode.trans h.mode⟩

theorem Kept.refl (s : St) : Kept s s := ⟨rfl, rfl, rfl, rfl, rfl, rfl⟩

theorem run_inner {s : St} {f : Frame} {fs : List Frame} {D : List Tree} (h : Stk s (f :: fs) D)
    (hf : Inner f) (hk : s.skipLf = false) {t : Tok} (ht : t ≠ .eof) (d : Nat) :
    run (d + 1) none s t = foreign (recAt d) s t := by
  have hs : { s with skipLf := false } = s := by cases s; simp only at hk; subst hk; rfl
  show acceptStep (recAt d) s t = _
  rw [acceptStep, if_neg (by simp [hk])]
  show (if forHtml { s with skipLf := false } t then _ else foreign _ { s with skipLf := false } t) = _
  rw [hs, forHtml_inner h.stack hf ht]
  rfl

theorem Stk.lexer {s : St} {fs : List Frame} {D : List Tree} (h : Stk s fs D) (l : Option Content) :
    Stk { s with lexer := l } fs D := h.congr rfl rfl rfl rfl rfl

theorem shape_char {s : St} {f : Frame} {fs : List Frame} {D : List Tree} (h : Stk s (f :: fs) D)
    (hf : Inner f) (hk : s.skipLf = false) {c : Char} (hc : c ≠ '\x00') (d : Nat) :
    ∃ s', run (d + 1) none s (.char c) = .ok s' ∧ s'.lexer = s.lexer ∧ Kept s s' ∧
      Stk s' ({ f with done := addText f.done [c] } :: fs) D := by
  rw [run_inner h hf hk (by simp)]
  obtain ⟨da, ki, pa, ne, h1, h2⟩ := h.char c
  rw [foreign, if_neg hc, h1]
  split
  · exact ⟨_, rfl, rfl, ⟨rfl, rfl, rfl, rfl, rfl, rfl⟩, h2⟩
  · exact ⟨_, rfl, rfl, ⟨rfl, rfl, rfl, rfl, rfl, rfl⟩, h2.congr rfl rfl rfl rfl rfl⟩

theorem shape_chars : ∀ (x : Str) {s : St} {f : Frame} {fs : List Frame} {D : List Tree} (d : Nat),
    Stk s (f :: fs) D → Inner f → s.skipLf = false → (∀ c ∈ x, c ≠ '\x00') →
    ∃ s', Runs (d + 1) s (chars x) s' ∧ Kept s s' ∧
      Stk s' ({ f with done := addText f.done x } :: fs) D := by
  intro x
  induction x with
  | nil => intro s f fs D d h _ _ _; exact ⟨s, rfl, Kept.refl s, h⟩
  | cons c x ih =>
    intro s f fs D d h hf hk hx
    obtain ⟨s1, h1, h2, h3, h4⟩ := shape_char (h.lexer none) hf hk (hx c (by simp)) d
    obtain ⟨s2, h5, h6, h7⟩ := ih (s := s1) (f := { f with done := addText f.done [c] }) d h4 hf
      (by rw [h3.skipLf]; exact hk) (fun c hc => hx c (by simp [hc]))
    refine ⟨s2, ⟨s1, h1, h2, h5⟩, ⟨h6.entries.trans h3.entries, h6.after.trans h3.after,
      h6.form.trans h3.form, h6.head.trans h3.head, h6.skipLf.trans h3.skipLf,
      h6.mode.trans h3.mode⟩, ?_⟩
    rw [addText_cons]
    exact h7

/-- The frame of an element of a drawing. -/
def shapeFrame (s : St) (n : Str) (as : List Attr) : Frame :=
  ⟨⟨s.next, ⟨.svg, svgName n⟩⟩, as.map svgAttr, []⟩

theorem shape_opens {s : St} {f : Frame} {fs : List Frame} {D : List Tree} (h : Stk s (f :: fs) D)
    (hf : Inner f) (hk : s.skipLf = false) {n : Str} {as : List Attr} (hn : small n = true)
    (hs : n ∉ notShapes) (ha : shapeAttrs as = true) (self : Bool) (d : Nat) :
    run (d + 1) none s (.opens n as self) =
      let s1 := opened s f.el.id .svg (svgName n) (as.map svgAttr)
      if self then .ok { s1 with stack := s1.stack.tail } else .ok s1 := by
  rw [run_inner h hf hk (by simp), foreign]
  simp only [shapeAttrs, Bool.and_eq_true, List.all_eq_true, Bool.not_eq_true'] at ha
  have hb : isOne n breakouts = false := by
    have : ∀ x ∈ breakouts, x ∈ notShapes := by decide +kernel
    simp only [isOne, List.contains_eq_mem, decide_eq_false_iff_not]
    exact fun hm => hs (this n hm)
  have hany : (as.any fun a => isOne a.name [nm! "color", nm! "face", nm! "size"]) = false := by
    rw [List.any_eq_false]
    intro a ha'
    rw [isOne, (ha.2 a ha').2]
    simp
  rw [if_neg (by simp [hb, hany])]
  have hcur : current s = .ok f.el := by rw [current, h.stack]; rfl
  rw [hcur]
  simp only [ok_bind, hf.1, if_true, cased_name hn, cased_attrs (fun a ha' => (ha.2 a ha').1),
    insert_eq h .svg (svgName n) ha.1]
  cases self with
  | false => rfl
  | true => exact pop_eq (h.opened .svg (svgName n) (as.map svgAttr))

theorem shape_closes {s : St} {f g : Frame} {fs : List Frame} {D : List Tree}
    (h : Stk s (f :: g :: fs) D) (hf : Inner f) (hk : s.skipLf = false) {n : Str}
    (hn : small n = true) (hs : n ∉ notShapes) (hq : f.el.q.name = svgName n) (d : Nat) :
    ∃ s', run (d + 1) none s (.closes n [] false) = .ok s' ∧ s'.lexer = s.lexer ∧ Kept s s' ∧
      Stk s' (g.add f.tree :: fs) D := by
  rw [run_inner h hf hk (by simp), foreign]
  have hb : isOne n [nm! "br", nm! "p"] = false := by
    have : ∀ x ∈ [nm! "br", nm! "p"], x ∈ notShapes := by decide +kernel
    simp only [isOne, List.contains_eq_mem, decide_eq_false_iff_not]
    exact fun hm => hs (this n hm)
  have hcur : current s = .ok f.el := by rw [current, h.stack]; rfl
  have hns : f.el.q ≠ Tree.h (nm! "script") := by
    intro e
    have := hf.1
    rw [e] at this
    cases this
  rw [if_neg (by simp [hb]), hcur]
  simp only [ok_bind]
  rw [if_neg hns]
  have e1 : foreignEnd (recAt d) s (.closes n [] false) n s.stack =
      .ok { s with stack := s.stack.tail } := by
    have hst : s.stack = f.el :: (g :: fs).map Frame.el := h.stack
    conv => lhs; rw [hst]
    rw [foreignEnd, if_pos (by rw [hq]; exact svgName_ci hn), hst]
    simp
  rw [e1]
  exact ⟨_, rfl, rfl, ⟨rfl, rfl, rfl, rfl, rfl, rfl⟩, h.closed⟩

mutual
theorem shape_ok : ∀ (x : Shape) {s : St} {f : Frame} {fs : List Frame} {D : List Tree} (d : Nat),
    x.fits = true → Stk s (f :: fs) D → Inner f → s.skipLf = false →
    ∃ s', Runs (d + 1) s x.marks s' ∧ Kept s s' ∧ Stk s' ({ f with done := x.trees f.done } :: fs) D
  | .text x, s, f, fs, D, d, hx, h, hf, hk => by
    simp only [Shape.fits, List.all_eq_true, bne_iff_ne] at hx
    rw [Shape.marks, Shape.trees]
    exact shape_chars x d h hf hk hx
  | .comment x, s, f, fs, D, d, _, h, hf, hk => by
    rw [Shape.marks, Shape.trees]
    obtain ⟨h1, h2⟩ := (h.lexer none).comment x
    refine ⟨_, Runs.one (d := d + 1) (s1 := added { s with lexer := none } f.el.id (.comment x)) ?_ rfl, ?_, h2⟩
    · rw [run_inner (h.lexer none) hf hk (by simp), foreign]
      exact h1
    · exact ⟨rfl, rfl, rfl, rfl, rfl, rfl⟩
  | .lone n as, s, f, fs, D, d, hx, h, hf, hk => by
    simp only [Shape.fits, Bool.and_eq_true, Bool.not_eq_true', List.contains_eq_mem,
      decide_eq_false_iff_not] at hx
    obtain ⟨⟨hn, hs⟩, ha⟩ := hx
    rw [Shape.marks, Shape.trees]
    have h1 := shape_opens (h.lexer none) hf hk hn hs ha true d
    have h2 := ((h.lexer none).opened .svg (svgName n) (as.map svgAttr)).closed
    refine ⟨_, Runs.one h1 rfl, ⟨rfl, rfl, rfl, rfl, rfl, rfl⟩, h2⟩
  | .elem n as ks, s, f, fs, D, d, hx, h, hf, hk => by
    simp only [Shape.fits, Bool.and_eq_true, Bool.not_eq_true', List.contains_eq_mem,
      decide_eq_false_iff_not] at hx
    obtain ⟨⟨⟨hn, hs⟩, ha⟩, hks⟩ := hx
    rw [Shape.marks, Shape.trees]
    have h1 := shape_opens (h.lexer none) hf hk hn hs ha false d
    have h2 := (h.lexer none).opened .svg (svgName n) (as.map svgAttr)
    have hi : Inner ⟨⟨s.next, ⟨.svg, svgName n⟩⟩, as.map svgAttr, []⟩ := ⟨rfl, svgName_inner hn hs⟩
    obtain ⟨s2, h3, h4, h5⟩ := shapes_ok ks d hks h2 hi hk
    have hi2 : Inner ⟨⟨s.next, ⟨.svg, svgName n⟩⟩, as.map svgAttr, shapeTrees [] ks⟩ := hi
    obtain ⟨s3, k1, k2, k3, k4⟩ := shape_closes (h5.lexer none) hi2
      (show s2.skipLf = false by rw [h4.skipLf]; exact hk) hn hs rfl d
    refine ⟨s3, ⟨_, h1, rfl, h3.append (Runs.one k1 k2)⟩, ?_, k4⟩
    exact ⟨k3.entries.trans h4.entries, k3.after.trans h4.after, k3.form.trans h4.form,
      k3.head.trans h4.head, k3.skipLf.trans h4.skipLf, k3.mode.trans h4.mode⟩
theorem shapes_ok : ∀ (xs : List Shape) {s : St} {f : Frame} {fs : List Frame} {D : List Tree} (d : Nat),
    shapesFit xs = true → Stk s (f :: fs) D → Inner f → s.skipLf = false →
    ∃ s', Runs (d + 1) s (shapeMarks xs) s' ∧ Kept s s' ∧
      Stk s' ({ f with done := shapeTrees f.done xs } :: fs) D
  | [], s, f, fs, D, d, _, h, _, _ => by
    rw [shapeMarks, shapeTrees]
    exact ⟨s, rfl, Kept.refl s, h⟩
  | x :: xs, s, f, fs, D, d, hx, h, hf, hk => by
    rw [shapesFit, Bool.and_eq_true] at hx
    rw [shapeMarks, shapeTrees]
    obtain ⟨s1, h1, h2, h3⟩ := shape_ok x d hx.1 h hf hk
    obtain ⟨s2, h4, h5, h6⟩ := shapes_ok xs (f := { f with done := x.trees f.done }) d hx.2 h3 hf
      (by rw [h2.skipLf]; exact hk)
    exact ⟨s2, h1.append h4, h2.trans h5, h6⟩
end

/-- A drawing in the page. -/
theorem drawing_ok {s : St} {f : Frame} {fs : List Frame} {D : List Tree} (g : Good s (f :: fs) D)
    (hf : f.name ∉ holders) {as : List Attr} {ks : List Shape}
    (hd : distinct (as.map svgAttr) = true) (ha : ∀ a ∈ as, small a.name = true)
    (hks : shapesFit ks = true) (d : Nat) :
    ∃ s', Runs (d + 3) s (Node.drawing as ks).marks s' ∧
      Good s' (f.add (.elem .svg (nm! "svg") (plain (as.map svgAttr)) (shapeTrees [] ks)) :: fs) D := by
  rw [Node.marks]
  have g0 := g.lexer none
  obtain ⟨d', -, hrun⟩ := g0.inBody hf d (t := .opens (nm! "svg") as false) (by rfl)
  have h1 : run (d + 3) none { s with lexer := none } (.opens (nm! "svg") as false) =
      .ok (opened { s with lexer := none } f.el.id .svg (nm! "svg") (as.map svgAttr)) := by
    rw [hrun]
    show bodyOpens (recAt d') { s with lexer := none } (nm! "svg") as false = _
    unfold bodyOpens
    rw [show bodyStart (nm! "svg") = .svg from by decide +kernel]
    simp only [reconstruct_eq g0.toCore, ok_bind, cased_attrs ha,
      insert_eq g0.toStk .svg (nm! "svg") hd]
    rfl
  have h2 := g0.toStk.opened .svg (nm! "svg") (as.map svgAttr)
  have hi : Inner ⟨⟨s.next, ⟨.svg, nm! "svg"⟩⟩, as.map svgAttr, []⟩ :=
    ⟨rfl, show nm! "svg" ∉ specialSvg by decide⟩
  obtain ⟨s2, h3, h4, h5⟩ := shapes_ok ks (d + 2) hks h2 hi g.skip
  have hi2 : Inner ⟨⟨s.next, ⟨.svg, nm! "svg"⟩⟩, as.map svgAttr, shapeTrees [] ks⟩ := hi
  obtain ⟨s3, k1, k2, k3, k4⟩ := shape_closes (h5.lexer none) hi2
    (show s2.skipLf = false by rw [h4.skipLf]; exact g.skip) (n := nm! "svg") (by decide +kernel)
    (by decide +kernel) (show nm! "svg" = svgName (nm! "svg") by decide +kernel) (d + 2)
  refine ⟨s3, ⟨_, h1, rfl, h3.append (Runs.one k1 k2)⟩, ?_⟩
  exact g.fill k4 (k3.entries.trans h4.entries) (k3.after.trans h4.after) (k3.form.trans h4.form)
    (k3.head.trans h4.head) (k3.skipLf.trans h4.skipLf) (k3.mode.trans h4.mode)

end Verif.Tree
