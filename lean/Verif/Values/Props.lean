import Verif.Values.Lemmas

/-!
# Values: colours written in hex, lengths, and calc()
-/

namespace Verif.Values

/-! ## C45: hex colours -/

/-- A reader of hex for the examples: the digits it knows, 0 for the others. -/
def readHex (s : List Char) : Option Nat :=
  s.foldl (fun n c => n.bind fun n => (hexTable.lookup c).map fun d => 16 * n + d) (some 0)

theorem readHex_reads : ReadsHex readHex := by
  have h1 : ∀ x ∈ hexTable, readHex [x.1] = some x.2 := by decide +kernel
  have h2 : ∀ x ∈ hexTable, ∀ y ∈ hexTable, readHex [x.1, y.1] = some (16 * x.2 + y.2) := by
    decide +kernel
  exact ⟨fun h => h1 _ h, fun h h' => h2 _ h _ h'⟩

theorem HexDigit.lt {c : Char} {n : Nat} (h : HexDigit c n) : n < 16 := by
  have : ∀ x ∈ hexTable, x.2 < 16 := by decide
  exact this _ h

theorem twice_eq {n : Nat} (h : n < 16) : u8 (n ||| (n <<< 4)) = 16 * n + n := by
  have : ∀ m : Fin 16, u8 (m.val ||| (m.val <<< 4)) = 16 * m.val + m.val := by decide
  exact this ⟨n, h⟩

theorem u8_two {m n : Nat} (hm : m < 16) (hn : n < 16) : u8 (16 * m + n) = 16 * m + n := by
  unfold u8; omega

/-- **C45.** Six digits are three channels of two digits each; the colour is opaque. -/
theorem C45_six {atou : List Char → Option Nat} (hr : ReadsHex atou)
    {a b c d e f : Char} {a' b' c' d' e' f' : Nat} (ha : HexDigit a a') (hb : HexDigit b b')
    (hc : HexDigit c c') (hd : HexDigit d d') (he : HexDigit e e') (hf : HexDigit f f') :
    hexColor atou ['#', a, b, c, d, e, f] =
      some ⟨16 * a' + b', 16 * c' + d', 16 * e' + f', 255⟩ := by
  simp [hexColor, hr.two ha hb, hr.two hc hd, hr.two he hf, u8_two, ha.lt, hb.lt, hc.lt, hd.lt,
    he.lt, hf.lt]

example : hexColor readHex "#1aF09c".toList = some ⟨0x1a, 0xf0, 0x9c, 255⟩ := by decide +kernel

/-- **C45.** Eight digits are four channels of two digits each, the last the opacity. -/
theorem C45_eight {atou : List Char → Option Nat} (hr : ReadsHex atou)
    {a b c d e f g h : Char} {a' b' c' d' e' f' g' h' : Nat} (ha : HexDigit a a')
    (hb : HexDigit b b') (hc : HexDigit c c') (hd : HexDigit d d') (he : HexDigit e e')
    (hf : HexDigit f f') (hg : HexDigit g g') (hh : HexDigit h h') :
    hexColor atou ['#', a, b, c, d, e, f, g, h] =
      some ⟨16 * a' + b', 16 * c' + d', 16 * e' + f', 16 * g' + h'⟩ := by
  simp [hexColor, hr.two ha hb, hr.two hc hd, hr.two he hf, hr.two hg hh, u8_two, ha.lt, hb.lt,
    hc.lt, hd.lt, he.lt, hf.lt, hg.lt, hh.lt]

example : hexColor readHex "#1aF09c80".toList = some ⟨0x1a, 0xf0, 0x9c, 0x80⟩ := by
  decide +kernel

/-- **C45.** The short forms are the long forms with every digit doubled. -/
theorem C45_short {atou : List Char → Option Nat} (hr : ReadsHex atou)
    {a b c : Char} {a' b' c' : Nat} (ha : HexDigit a a') (hb : HexDigit b b')
    (hc : HexDigit c c') :
    hexColor atou ['#', a, b, c] = hexColor atou ['#', a, a, b, b, c, c] ∧
    (hexColor atou ['#', a, b, c]).isSome ∧
    ∀ d d', HexDigit d d' →
      hexColor atou ['#', a, b, c, d] = hexColor atou ['#', a, a, b, b, c, c, d, d] ∧
      (hexColor atou ['#', a, b, c, d]).isSome := by
  rw [C45_six hr ha ha hb hb hc hc]
  refine ⟨?_, ?_, fun d d' hd => ?_⟩
  · simp [hexColor, hr.one ha, hr.one hb, hr.one hc, twice_eq ha.lt, twice_eq hb.lt, twice_eq hc.lt]
  · simp [hexColor]
  · rw [C45_eight hr ha ha hb hb hc hc hd hd]
    simp [hexColor, hr.one ha, hr.one hb, hr.one hc, hr.one hd, twice_eq ha.lt, twice_eq hb.lt,
      twice_eq hc.lt, twice_eq hd.lt]

example : HexDigit 'f' 15 ∧ HexDigit 'F' 15 ∧ HexDigit '0' 0 := by
  unfold HexDigit; decide +kernel
example : hexColor readHex "#f0A".toList = some ⟨255, 0, 0xaa, 255⟩ := by decide +kernel

/-- **C45.** Texts of any other length are rejected, whatever follows in the declaration. -/
theorem C45_length (atou : List Char → Option Nat) (named : List Char → Option Rgba)
    (system : List Char → Bool) (func : List Char → List Tok → Option Color)
    (s : List Char) (h : s.length ≠ 3 ∧ s.length ≠ 4 ∧ s.length ≠ 6 ∧ s.length ≠ 8) (r : List Tok) :
    declared (parseColor atou named system func) (.hash ('#' :: s) :: r) = none := by
  simp [declared, eatWs, parseColor, hexColor, h]

example : "12345".toList.length ≠ 3 ∧ "12345".toList.length ≠ 4 ∧ "12345".toList.length ≠ 6 ∧
    "12345".toList.length ≠ 8 := by decide +kernel

/-- **C45.** It is false that texts with other characters are rejected: whatever the reader of
numbers does on them, any text of length 3, 4, 6 or 8 is a colour. -/
theorem C45_digits_fails (atou : List Char → Option Nat) (named : List Char → Option Rgba)
    (system : List Char → Bool) (func : List Char → List Tok → Option Color)
    (s : List Char) (h : s.length = 3 ∨ s.length = 4 ∨ s.length = 6 ∨ s.length = 8) :
    (declared (parseColor atou named system func) [.hash ('#' :: s)]).isSome := by
  simp only [declared, eatWs, parseColor, hexColor]
  rcases h with h | h | h | h <;> simp [h]

example : "zzz".toList.length = 3 ∧ ∀ n, ¬ HexDigit 'z' n := by
  refine ⟨by decide +kernel, fun n h => ?_⟩
  have : ∀ x ∈ hexTable, x.1 ≠ 'z' := by decide
  exact this _ h rfl

/-! ## C97: absolute lengths -/

/-- **C97.** A literal followed by the name of an absolute unit, in any case, is that number of
that unit: so many inches at 96 pixels each, with 96px, 72pt, 6pc, 2.54cm, 25.4mm and 101.6Q to
the inch, rounded as every length is. -/
theorem C97_absolute (near : Rat → Int) (c : Ctx) {k : String} {u : AbsUnit} {per : Rat}
    {w : List Char} (n : Lit) (hk : (k, u, per) ∈ absTable) (hw : Cased w k.toList) :
    (declared parseLength [.dim (n.text ++ w)]).map (resolveLength near c) =
      some (near (n.value / per * 96)) := by
  have h := parseLength_abs n hk hw []
  simp only [declared, eatWs, h, Option.map_some, resolveLength, Option.some.injEq]
  congr 1
  have : ∀ x ∈ absTable, ∀ v : Rat, pixels v x.2.1 = v / x.2.2 * 96 := by
    simp only [absTable, List.mem_cons, List.not_mem_nil, or_false, forall_eq_or_imp, forall_eq,
      pixels]
    refine ⟨?_, ?_, ?_, ?_, ?_, ?_, ?_⟩ <;> intro v <;> grind
  exact this _ hk n.value

/-- `2.5` -/
def lit25 : Lit := ⟨none, [2], [5], .inl (by simp)⟩
/-- `-1` -/
def litM1 : Lit := ⟨some true, [1], [], .inl (by simp)⟩

example : lit25.text ++ "Cm".toList = "2.5Cm".toList ∧ litM1.text ++ "PT".toList = "-1PT".toList ∧
    lit25.value = 5 / 2 ∧ litM1.value = -1 ∧ ("cm", AbsUnit.cm, (254 / 100 : Rat)) ∈ absTable ∧
    Cased "Cm".toList "cm".toList ∧ Cased "PT".toList "pt".toList := by
  refine ⟨by decide +kernel, by decide +kernel, by decide +kernel, by decide +kernel,
    by decide +kernel, ?_, ?_⟩
  · exact eqCi_iff.mp (by decide +kernel)
  · exact eqCi_iff.mp (by decide +kernel)

/-- **C97.** A unit that is neither absolute nor relative is rejected. -/
theorem C97_unknown (n : Lit) {w : List Char} (he : EndsNum w)
    (ha : ∀ x ∈ absTable, ¬ Cased w x.1.toList) (hr : ∀ x ∈ relTable, ¬ Cased w x.1.toList)
    (r : List Tok) : declared parseLength (.dim (n.text ++ w) :: r) = none := by
  have h1 : valueOfCi absNames w = none := by
    unfold valueOfCi
    rw [Option.map_eq_none_iff, List.find?_eq_none]
    have : ∀ p ∈ absNames, ∃ x ∈ absTable, x.1.toList.map Char.toLower = p.1.map Char.toLower := by
      decide +kernel
    intro p hp hc
    obtain ⟨x, hx, hlow⟩ := this p hp
    refine ha x hx (eqCi_iff.mp ?_)
    simp only [eqCi, hlow, beq_iff_eq] at hc ⊢
    exact hc
  have h2 : valueOfCi relNames w = none := by
    unfold valueOfCi
    rw [Option.map_eq_none_iff, List.find?_eq_none]
    have : ∀ p ∈ relNames, ∃ x ∈ relTable, x.1.toList.map Char.toLower = p.1.map Char.toLower := by
      decide +kernel
    intro p hp hc
    obtain ⟨x, hx, hlow⟩ := this p hp
    refine hr x hx (eqCi_iff.mp ?_)
    simp only [eqCi, hlow, beq_iff_eq] at hc ⊢
    exact hc
  simp only [declared, eatWs, parseLength, parseAbs, parseRel, atof_lit n he, Option.getD_some, h1,
    h2]

example : EndsNum "furlong".toList ∧ (∀ x ∈ absTable, ¬ Cased "furlong".toList x.1.toList) ∧
    ∀ x ∈ relTable, ¬ Cased "furlong".toList x.1.toList := by
  refine ⟨?_, ?_, ?_⟩
  · intro c r h
    have : "furlong".toList = 'f' :: "urlong".toList := by decide +kernel
    rw [this] at h; injection h with h _; subst h; decide
  · have : ∀ x ∈ absTable, eqCi "furlong".toList x.1.toList = false := by decide +kernel
    intro x hx h; rw [← eqCi_iff, this x hx] at h; cases h
  · have : ∀ x ∈ relTable, eqCi "furlong".toList x.1.toList = false := by decide +kernel
    intro x hx h; rw [← eqCi_iff, this x hx] at h; cases h

/-- **C97.** A bare `0` is a length of zero; any other number without a unit is not a length. -/
theorem C97_zero (near : Rat → Int) (c : Ctx) :
    (declared parseLength [.number ['0']]).map (resolveLength near c) = some (near 0) ∧
    ∀ n : Lit, n.text ≠ ['0'] → ∀ r, declared parseLength (.number n.text :: r) = none := by
  refine ⟨rfl, fun n h r => ?_⟩
  have h0 : eqCi n.text "0".toList = false := by
    cases hc : eqCi n.text "0".toList with
    | false => rfl
    | true =>
      have hc := eqCi_iff.mp hc
      exfalso; apply h
      have e : "0".toList = ['0'] := by decide +kernel
      rw [e] at hc
      cases hx : n.text with
      | nil => rw [hx] at hc; cases hc
      | cons a t =>
        rw [hx] at hc
        cases hc with
        | cons h1 h2 =>
          cases h2
          rcases h1 with h1 | ⟨h1, _⟩ | ⟨h1, h2, h3⟩
          · rw [h1]
          · exact absurd h1 (by decide)
          · have : ('0' : Char).toNat = 48 := rfl
            omega
  simp only [declared, eatWs, parseLength, h0, Bool.false_eq_true, ↓reduceIte]

/-- **C97.** It is false that every way of writing zero is a length: `0.0` and `-0` are not. -/
theorem C97_zero_fails : ∃ n m : Lit, n.value = 0 ∧ m.value = 0 ∧ n.text = "0.0".toList ∧
    m.text = "-0".toList ∧ declared parseLength [.number n.text] = none ∧
    declared parseLength [.number m.text] = none :=
  ⟨⟨none, [0], [0], .inl (by simp)⟩, ⟨some true, [0], [], .inl (by simp)⟩,
    by decide +kernel, by decide +kernel, by decide +kernel, by decide +kernel, by decide +kernel,
    by decide +kernel⟩

/-- **C97.** It is false that a length may be written with an exponent: `1e2px` is not one. -/
theorem C97_exponent_fails : declared parseLength [.dim "1e2px".toList] = none ∧
    declared parseLength [.dim "100px".toList] = some (.abs 100 .px) := by decide +kernel

/-! ## C98: relative lengths -/

theorem Monotone.min {near : Rat → Int} (h : Monotone near) {v a b : Rat} (hv : 0 ≤ v) :
    min (near (v * a / 100)) (near (v * b / 100)) =
      near (v * (if a ≤ b then a / 100 else b / 100)) := by
  by_cases hab : a ≤ b
  · have h1 : v * a ≤ v * b := Rat.mul_le_mul_of_nonneg_left hab hv
    have := h (v * a / 100) (v * b / 100) (by grind)
    rw [if_pos hab, Int.min_eq_left this]
    congr 1; grind
  · have h1 : v * b ≤ v * a := Rat.mul_le_mul_of_nonneg_left (by grind) hv
    have := h (v * b / 100) (v * a / 100) (by grind)
    rw [if_neg hab, Int.min_eq_right this]
    congr 1; grind

theorem Monotone.max {near : Rat → Int} (h : Monotone near) {v a b : Rat} (hv : 0 ≤ v) :
    max (near (v * a / 100)) (near (v * b / 100)) =
      near (v * (if a ≤ b then b / 100 else a / 100)) := by
  by_cases hab : a ≤ b
  · have h1 : v * a ≤ v * b := Rat.mul_le_mul_of_nonneg_left hab hv
    have := h (v * a / 100) (v * b / 100) (by grind)
    rw [if_pos hab, Int.max_eq_right this]
    congr 1; grind
  · have h1 : v * b ≤ v * a := Rat.mul_le_mul_of_nonneg_left (by grind) hv
    have := h (v * b / 100) (v * a / 100) (by grind)
    rw [if_neg hab, Int.max_eq_left this]
    congr 1; grind

/-- The number of units times what one is worth. -/
theorem resolveRel_eq (near : Rat → Int) (hn : Monotone near) (c : Ctx) (v : Rat) (u : RelUnit)
    (h : 0 ≤ v ∨ u.isMinMax = false) : resolveRel near c v u = near (v * worth c u) := by
  by_cases hm : u.isMinMax = true
  · have hv : 0 ≤ v := by
      rcases h with h | h
      · exact h
      · rw [hm] at h; cases h
    cases u <;> first
      | exact absurd hm (by decide)
      | exact hn.min hv
      | exact hn.max hv
  · cases u <;> first
      | exact absurd rfl hm
      | rfl
      | (simp only [resolveRel, worth]; congr 1; grind)
      | (simp only [resolveRel, worth]; cases c.horizontal <;>
          simp only [Bool.not_true, Bool.not_false, Bool.false_eq_true, ↓reduceIte] <;> congr 1 <;>
          grind)

/-- **C98 (in part).** A literal followed by the name of a relative unit, in any case, is that
number times what the unit is worth, whatever the viewport, the fonts and the rounding; for
`vmin`, `vmax` and their kin only where the number is not negative. -/
theorem C98_relative_partial (near : Rat → Int) (hn : Monotone near) (c : Ctx) {k : String}
    {u : RelUnit} {w : List Char} (n : Lit) (hk : (k, u) ∈ relTable) (hw : Cased w k.toList)
    (h : 0 ≤ n.value ∨ u.isMinMax = false) :
    (declared parseLength [.dim (n.text ++ w)]).map (resolveLength near c) =
      some (near (n.value * worth c u)) := by
  have h1 := parseLength_rel n hk hw []
  simp only [declared, eatWs, h1, Option.map_some, resolveLength, resolveRel_eq near hn c _ u h]

/-- 64 subpixels to the pixel, to the nearest. -/
def nearest64 (v : Rat) : Int := (v * 64 + 1 / 2).floor

theorem nearest64_monotone : Monotone nearest64 := by
  intro a b h
  unfold nearest64
  rw [Rat.le_floor_iff]
  have := Rat.floor_le (a := a * 64 + 1 / 2)
  grind

/-- A page of 800 by 600 pixels, with fonts of 16 pixels. -/
def page : Ctx := ⟨16, 8, 11, 8, 20, 16, 8, 11, 8, 20, 800, 600, 800, 600, 800, 600, true⟩

example : lit25.text ++ "vMin".toList = "2.5vMin".toList ∧ ("vmin", RelUnit.vmin) ∈ relTable ∧
    Cased "vMin".toList "vmin".toList ∧ 0 ≤ lit25.value ∧
    nearest64 (lit25.value * worth page .vmin) = 15 * 64 := by
  refine ⟨by decide +kernel, by decide +kernel, eqCi_iff.mp (by decide +kernel), by decide +kernel,
    by decide +kernel⟩

/-- **C98.** It is false for negative numbers: -1vmin on a page of 800 by 600 is -8px, not -6px,
and -1vmax is -6px, not -8px. -/
theorem C98_negative_fails :
    (declared parseLength [.dim "-1vmin".toList]).map (resolveLength nearest64 page) = some (-8 * 64) ∧
    nearest64 (litM1.value * worth page .vmin) = -6 * 64 ∧
    (declared parseLength [.dim "-1vmax".toList]).map (resolveLength nearest64 page) = some (-6 * 64) ∧
    nearest64 (litM1.value * worth page .vmax) = -8 * 64 := by decide +kernel

end Verif.Values
