import Verif.Svg.Spec
import Verif.Transform.Lemmas

/-!
# Drawings: attributes (C182)
-/

namespace Verif.Svg
open Verif.Values Verif.Short Verif.Transform Spec Verif.Transform.Spec

theorem dropWs_gaps (n : Nat) (l : List Tok) : dropWs (gaps n ++ l) = dropWs l := by
  induction n with
  | zero => rfl
  | succ n ih => simpa [gaps, List.replicate_succ, dropWs] using ih

theorem dropWs_gaps' (n : Nat) : dropWs (gaps n) = [] := by
  have := dropWs_gaps n []
  rw [List.append_nil] at this
  rw [this]; rfl

theorem dropWs_cons {t : Tok} (h : t ≠ .ws) (l : List Tok) : dropWs (t :: l) = t :: dropWs l := by
  cases t <;> first | rfl | exact absurd rfl h

theorem withPx_gaps (n : Nat) (t : Tok) (l : List Tok) :
    withPx (gaps n ++ t :: l) = gaps n ++ withPx (t :: l) := by
  induction n with
  | zero => rfl
  | succ n ih =>
    have : gaps (n + 1) = .ws :: gaps n := by simp [gaps, List.replicate_succ]
    rw [this]
    cases n with
    | zero => cases l <;> rfl
    | succ n =>
      have e : gaps (n + 1) = .ws :: gaps n := by simp [gaps, List.replicate_succ]
      rw [e] at ih ⊢
      simp only [List.cons_append] at ih ⊢
      rw [withPx.eq_def]
      simp only
      rw [ih]

/-- White space behind a text: the unit becomes a word. -/
theorem withPx_behind (t : Tok) (n : Nat) :
    dropWs (withPx (t :: gaps (n + 1))) = dropWs [t, .ident "px".toList] := by
  have e : ∀ n, dropWs (withPx (gaps (n + 1))) = [.ident "px".toList] := fun n => by
    induction n with
    | zero => rfl
    | succ n ih =>
      have : gaps (n + 2) = .ws :: gaps (n + 1) := by simp [gaps, List.replicate_succ]
      rw [this]
      have e : gaps (n + 1) = .ws :: gaps n := by simp [gaps, List.replicate_succ]
      rw [e] at ih ⊢
      rw [withPx.eq_def]
      simpa [dropWs] using ih
  have h := e n
  have e2 : gaps (n + 1) = .ws :: gaps n := by simp [gaps, List.replicate_succ]
  rw [e2] at h ⊢
  rw [withPx.eq_def]
  simp only
  by_cases ht : t = .ws
  · subst ht; simpa [dropWs] using h
  · rw [dropWs_cons ht, dropWs_cons ht, h]; rfl

theorem px_mem : ("px", AbsUnit.px, (96 : Rat)) ∈ absTable := by decide +kernel

theorem lit_px (n : Lit) (r : List Tok) :
    parsePL (.dim (n.text ++ "px".toList) :: r) = (some (.length (.abs n.value .px)), r) := by
  simp only [parsePL, parsePercent, parseLength_abs n px_mem (Cased.refl _) r]

theorem pixels_px (v : Rat) : pixels v .px = v := by
  simp only [pixels]

/-- The pixels of an absolute length. -/
theorem pixels_abs {k : String} {u : AbsUnit} {per : Rat} (h : (k, u, per) ∈ absTable) (v : Rat) :
    pixels v u = v * 96 / per := by
  have : ∀ x ∈ absTable, ∀ v : Rat, pixels v x.2.1 = v * 96 / x.2.2 := by
    simp only [absTable, List.mem_cons, List.not_mem_nil, or_false, forall_eq_or_imp, forall_eq,
      pixels]
    refine ⟨?_, ?_, ?_, ?_, ?_, ?_, ?_⟩ <;> intro v <;> grind
  exact this _ h v

/-- **C182 (in part).** A number in `x`, `y`, `cx`, `cy`, `r` or `stroke-width` is so many user units,
and a percentage, with any white space around it, that part of the size it refers to.  Not for numbers
followed by white space and for lengths with a unit, see below. -/
theorem C182_length_partial (w : Rat) (i j : Nat) (n : Lit) :
    (lengthAttr (gaps i ++ [.number n.text])).map (resolve · w) = some n.value ∧
    (lengthAttr (gaps i ++ .percent (n.text ++ ['%']) :: gaps j)).map (resolve · w) =
      some (w * n.value / 100) := by
  constructor
  · simp only [lengthAttr, presented]
    rw [withPx_gaps, dropWs_gaps]
    simp only [withPx, dropWs]
    rw [lit_px]
    simp only [Option.map_some, resolve, pixels_px]
  · simp only [lengthAttr, presented]
    rw [withPx_gaps, dropWs_gaps]
    have : ∃ r, dropWs (withPx (.percent (n.text ++ ['%']) :: gaps j)) =
        .percent (n.text ++ ['%']) :: r := by
      cases j with
      | zero => exact ⟨_, rfl⟩
      | succ j => exact ⟨_, withPx_behind _ j⟩
    obtain ⟨r, hr⟩ := this
    rw [hr]
    simp only [parsePL, parsePercent_lit n r, Option.map_some, resolve, Option.some.injEq]
    grind

theorem parseSize_calc {t : Tok} {c : Calc} (h : Reads parseCalc t c)
    (hk : ∀ r, skipAny [("auto", Size.auto)] (t :: r) = none) (r : List Tok) :
    parseSize (t :: r) = (some (.calc c), r) := by
  simp only [parseSize, hk, h r]

theorem skipAny_other {t : Tok} (h : ∀ s, t ≠ .ident s) (r : List Tok) :
    skipAny [("auto", Size.auto)] (t :: r) = none := by
  cases t <;> first | rfl | exact absurd rfl (h _)

/-- **C182 (in part).** Of `width` and `height` the same, and lengths in absolute units count as well,
with any white space around all but numbers, which must be last. -/
theorem C182_size_partial (w : Rat) (i j : Nat) {t : Tok} {v : Rat} (h : Given w t v)
    (hn : (∃ s, t = .number s) → j = 0) :
    spread w (sizeAttr (gaps i ++ t :: gaps j)) = some v := by
  cases h with
  | number n =>
    cases hn ⟨_, rfl⟩
    have hg : gaps 0 = [] := rfl
    rw [hg]
    simp only [sizeAttr, presented]
    rw [withPx_gaps, dropWs_gaps, dropWs_gaps]
    simp only [withPx, dropWs]
    by_cases hz : eqCi n.text "0".toList = true
    · have hp : ∀ r, parseLength (.number n.text :: r) = (some (.abs 0 .px), r) := fun r => by
        simp only [parseLength, hz, if_true]
      have hc : Reads parseCalc (.number n.text) (.one (.val (.length (.abs 0 .px)))) := fun r => by
        simp only [parseCalc, parseCalcOf, parsePL, parsePercent, hp]
      rw [parseSize_calc hc (skipAny_other (by simp))]
      have h0 : n.value = 0 := by
        have e := eqCi_iff.1 hz
        have ht : n.text = ['0'] := by
          have : "0".toList = ['0'] := rfl
          rw [this] at e
          generalize n.text = s at e
          cases e with
          | cons h1 h2 =>
            cases h2
            rcases h1 with rfl | ⟨h1, h2, h3⟩ | ⟨h1, h2, h3⟩
            · rfl
            · have : Char.toNat '0' = 48 := rfl
              omega
            · have : Char.toNat '0' = 48 := rfl
              omega
        have := atof_lit_end n
        rw [ht] at this
        have h2 : atof ['0'] = some (0, []) := by decide +kernel
        rw [h2] at this
        have := (Prod.mk.inj (Option.some.inj this)).1
        exact this.symm
      simp only [spread, fromSize, extractValue, Option.getD_some, resolve, h0]
      decide +kernel
    · have hp : ∀ r, parseLength (.number n.text :: r) = (none, .number n.text :: r) := fun r => by
        simp only [parseLength, hz]; rfl
      have hc : ∀ r, parseSize (.number n.text :: r) = (none, .number n.text :: r) := fun r => by
        simp only [parseSize, skipAny_other (t := .number n.text) (by simp), parseCalc, parseCalcOf,
          parsePL, parsePercent, hp, parseFit]
        rfl
      rw [hc]
      simp only
      have hc : Reads parseCalc (.dim (n.text ++ "px".toList))
          (.one (.val (.length (.abs n.value .px)))) := fun r => by
        simp only [parseCalc, parseCalcOf, lit_px]
      rw [parseSize_calc hc (skipAny_other (by simp))]
      simp only [spread, fromSize, extractValue, Option.getD_some, resolve, pixels_px]
  | percent n =>
    simp only [sizeAttr, presented]
    rw [dropWs_gaps, dropWs_cons (by simp)]
    have hc : Reads parseCalc (.percent (n.text ++ ['%'])) (.one (.val (.percent n.value))) :=
      fun r => by simp only [parseCalc, parseCalcOf, parsePL, parsePercent_lit n r]
    rw [parseSize_calc hc (skipAny_other (by simp))]
    simp only [spread, fromSize, extractValue, Option.getD_some, resolve, Option.some.injEq]
    grind
  | @abs k u per s n hk hs =>
    simp only [sizeAttr, presented]
    rw [dropWs_gaps, dropWs_cons (by simp)]
    have hc : Reads parseCalc (.dim (n.text ++ s)) (.one (.val (.length (.abs n.value u)))) :=
      fun r => by simp only [parseCalc, parseCalcOf, parsePL, parsePercent, parseLength_abs n hk hs r]
    rw [parseSize_calc hc (skipAny_other (by simp))]
    simp only [spread, fromSize, extractValue, Option.getD_some, resolve, pixels_abs hk]

theorem cased_append {a b : List Char} (h : Cased a b) (c : List Char) : Cased (a ++ c) (b ++ c) := by
  induction h with
  | nil => exact Cased.refl c
  | cons h _ ih => exact .cons h ih

theorem absPx : ∀ x ∈ absTable, valueOfCi absNames (x.1.toList ++ "px".toList) = none ∧
    valueOfCi relNames (x.1.toList ++ "px".toList) = none ∧
    ∀ c ∈ x.1.toList, 97 ≤ c.toNat ∧ c.toNat ≤ 122 := by decide +kernel

theorem relPx : ∀ x ∈ relTable, valueOfCi absNames (x.1.toList ++ "px".toList) = none ∧
    valueOfCi relNames (x.1.toList ++ "px".toList) = none ∧
    ∀ c ∈ x.1.toList, 97 ≤ c.toNat ∧ c.toNat ≤ 122 := by decide +kernel

theorem unitPx {k : String} (hk : (∃ u per, (k, u, per) ∈ absTable) ∨ ∃ u, (k, u) ∈ relTable) :
    valueOfCi absNames (k.toList ++ "px".toList) = none ∧
    valueOfCi relNames (k.toList ++ "px".toList) = none ∧
    ∀ c ∈ k.toList, 97 ≤ c.toNat ∧ c.toNat ≤ 122 := by
  rcases hk with ⟨u, per, h⟩ | ⟨u, h⟩
  · obtain ⟨a, b, c⟩ := absPx _ h
    exact ⟨a, b, c⟩
  · obtain ⟨a, b, c⟩ := relPx _ h
    exact ⟨a, b, c⟩

theorem pxLetters : ∀ c ∈ "px".toList, 97 ≤ c.toNat ∧ c.toNat ≤ 122 := by decide +kernel

/-- **C182.** It is false that `x`, `y`, `cx`, `cy`, `r` and `stroke-width` may have units: any length
with a unit, absolute or not, is refused. -/
theorem C182_unit_fails (n : Lit) {k : String} {s : List Char}
    (hk : (∃ u per, (k, u, per) ∈ absTable) ∨ ∃ u, (k, u) ∈ relTable) (hs : Cased s k.toList)
    (i : Nat) : lengthAttr (gaps i ++ [.dim (n.text ++ s)]) = none := by
  have key := unitPx hk
  obtain ⟨h1, h2, h3⟩ := key
  have hs' := cased_append hs "px".toList
  have he : EndsNum (s ++ "px".toList) := endsNum_of_cased hs' (fun c hc => by
    rcases List.mem_append.1 hc with hc | hc
    · exact h3 c hc
    · exact pxLetters c hc)
  simp only [lengthAttr, presented]
  rw [withPx_gaps, dropWs_gaps]
  simp only [withPx, dropWs, List.append_assoc]
  simp only [parsePL, parsePercent, parseLength, parseAbs, parseRel, atof_lit n he,
    Option.getD_some, valueOfCi_congr hs', h1, h2]

/-- **C182.** It is false that white space may follow a number: any but `0` is then refused, in all
these attributes. -/
theorem C182_trailing_fails (n : Lit) (hz : eqCi n.text "0".toList = false) (i j : Nat) :
    lengthAttr (gaps i ++ .number n.text :: gaps (j + 1)) = none ∧
      sizeAttr (gaps i ++ .number n.text :: gaps (j + 1)) = none := by
  have hp : ∀ r, parsePL (.number n.text :: r) = (none, .number n.text :: r) := fun r => by
    simp only [parsePL, parsePercent, parseLength, hz]; rfl
  have hc : ∀ r, parseSize (.number n.text :: r) = (none, .number n.text :: r) := fun r => by
    simp only [parseSize, skipAny_other (t := .number n.text) (by simp), parseCalc, parseCalcOf, hp,
      parseFit]
    rfl
  constructor
  · simp only [lengthAttr, presented]
    rw [withPx_gaps, dropWs_gaps, withPx_behind, dropWs_cons (by simp), hp]
  · simp only [sizeAttr, presented]
    rw [withPx_gaps, dropWs_gaps, dropWs_gaps, withPx_behind, dropWs_cons (by simp),
      dropWs_cons (by simp), hc, hc]

example : lengthAttr [.number "10".toList, .ws] = none ∧
    lengthAttr [.number "10".toList] = some (.length (.abs 10 .px)) ∧
    lengthAttr [.dim "10mm".toList] = none := by decide +kernel

/-- **C182.** It is false that lengths relative to the font or the page count: they are read, and are
nothing. -/
theorem C182_relative_fails (w : Rat) (n : Lit) {k : String} {u : RelUnit} {s : List Char}
    (hk : (k, u) ∈ relTable) (hs : Cased s k.toList) (i j : Nat) :
    spread w (sizeAttr (gaps i ++ .dim (n.text ++ s) :: gaps j)) = some 0 := by
  simp only [sizeAttr, presented]
  rw [dropWs_gaps, dropWs_cons (by simp)]
  have hc : Reads parseCalc (.dim (n.text ++ s)) (.one (.val (.length (.rel n.value u)))) :=
    fun r => by simp only [parseCalc, parseCalcOf, parsePL, parsePercent, parseLength_rel n hk hs r]
  rw [parseSize_calc hc (skipAny_other (by simp))]
  simp only [spread, fromSize, extractValue, Option.getD_some, resolve]

/-- **C182.** It is false that a rectangle without `width` and `height` is empty: it is as large as
what its percentages refer to. -/
theorem C182_auto_fails (o : Order) (diag : Pt → Rat) (rel : Pt) :
    ∃ w, commit o diag rel (.rect {}) = .ok (.rect {} ⟨0, 0, rel.1, rel.2⟩ w) := by
  refine ⟨1, ?_⟩
  have h1 : pixels 0 .px = 0 := pixels_px 0
  have h2 : pixels 1 .px = 1 := pixels_px 1
  have h3 : ∀ x : Rat, x * (100 / 100) = x := fun x => by grind
  simp only [commit, resolveRectangle, fromSize, resolve, h1, h2, h3]

/-- **C182.** The length of a stroke refers to the diagonal, but it is false that the radius of a
circle does: percentages of it are of the width. -/
theorem C182_radius_fails (o : Order) (diag : Pt → Rat) (rel : Pt) (p q : Rat) :
    ∃ s cx cy, commit o diag rel (.circle { r := .percent p, strokeWidth := .percent q }) =
      .ok (.circle s cx cy (rel.1 * (p / 100)) (diag rel * (q / 100))) :=
  ⟨_, _, _, rfl⟩

/-! ## View boxes -/

theorem dropWs_sep {s : List Tok} (h : Transform.Spec.Sep s) {t : Tok} (ht : Solid t) (l : List Tok) :
    ∃ l', dropWs (s ++ t :: l) = l' ∧ skipOne l' = t :: dropWs l := by
  refine ⟨_, rfl, ?_⟩
  have e : skipOne (t :: dropWs l) = t :: dropWs l := by
    unfold skipOne
    split
    · next e => exact absurd (List.cons.inj e).1 ht.2
    · rfl
  cases h with
  | space n => rw [dropWs_gaps, dropWs_cons ht.1, e]
  | comma m n =>
    rw [List.append_assoc, dropWs_gaps, List.cons_append, dropWs_cons (by simp), dropWs_gaps,
      dropWs_cons ht.1]
    rfl

theorem viewBox_reads {t1 t2 t3 t4 : Tok} {x y w h : Rat} (h1 : Literal t1 x) (h2 : Literal t2 y)
    (h3 : Literal t3 w) (h4 : Literal t4 h) {s1 s2 s3 : List Tok} (e1 : Transform.Spec.Sep s1)
    (e2 : Transform.Spec.Sep s2) (e3 : Transform.Spec.Sep s3) (i : Nat) (rest : List Tok) :
    viewBoxAttr (gaps i ++ t1 :: (s1 ++ t2 :: (s2 ++ t3 :: (s3 ++ t4 :: rest)))) =
      some ⟨x, y, w, h⟩ := by
  obtain ⟨a1, r1, -⟩ := literal_reads (α := Rat) h1
  obtain ⟨a2, r2, -⟩ := literal_reads (α := Rat) h2
  obtain ⟨a3, r3, -⟩ := literal_reads (α := Rat) h3
  obtain ⟨a4, r4, -⟩ := literal_reads (α := Rat) h4
  obtain ⟨_, rfl, d1⟩ := dropWs_sep e1 a2 (s2 ++ t3 :: (s3 ++ t4 :: rest))
  obtain ⟨_, rfl, d2⟩ := dropWs_sep e2 a3 (s3 ++ t4 :: rest)
  obtain ⟨_, rfl, d3⟩ := dropWs_sep e3 a4 rest
  simp only [viewBoxAttr, presented, dropWs_gaps, dropWs_cons a1.1, parseViewBox, r1 _, d1, r2 _, d2,
    r3 _, d3, r4 _]

/-- **C182.** A view box of four numbers, with white space and a comma or none between each two, is
read as they say. -/
theorem C182_viewbox {t1 t2 t3 t4 : Tok} {x y w h : Rat} (h1 : Literal t1 x) (h2 : Literal t2 y)
    (h3 : Literal t3 w) (h4 : Literal t4 h) {s1 s2 s3 : List Tok} (e1 : Transform.Spec.Sep s1)
    (e2 : Transform.Spec.Sep s2) (e3 : Transform.Spec.Sep s3) (i j : Nat) :
    viewBoxAttr (gaps i ++ t1 :: (s1 ++ t2 :: (s2 ++ t3 :: (s3 ++ t4 :: gaps j)))) =
      some ⟨x, y, w, h⟩ :=
  viewBox_reads h1 h2 h3 h4 e1 e2 e3 i _

/-- `0 0, 10 -20.5` -/
example : viewBoxAttr [.number "0".toList, .ws, .number "0".toList, .comma, .ws,
    .number "10".toList, .ws, .number "-20.5".toList] = some ⟨0, 0, 10, -41 / 2⟩ := by decide +kernel

/-- **C182.** It is false that a view box of more than four numbers, or with anything else behind
them, is refused. -/
theorem C182_viewbox_rest_fails {t1 t2 t3 t4 : Tok} {x y w h : Rat} (h1 : Literal t1 x)
    (h2 : Literal t2 y) (h3 : Literal t3 w) (h4 : Literal t4 h) (rest : List Tok) :
    viewBoxAttr (t1 :: t2 :: t3 :: t4 :: rest) = some ⟨x, y, w, h⟩ :=
  viewBox_reads h1 h2 h3 h4 (.space 0) (.space 0) (.space 0) 0 rest

end Verif.Svg
