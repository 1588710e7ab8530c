import Verif.Values.Color
import Verif.Values.Props

/-!
# Values: what colour functions denote (C102, C103, C104)
-/

namespace Verif.Values

/-! ## Specification -/

/-- `Math::round` goes to a nearest integer; which one of two equally near is left open. -/
def Nearest (round : Rat → Int) : Prop := ∀ v : Rat, v - 1 / 2 ≤ round v ∧ (round v : Rat) ≤ v + 1 / 2

/-- `n` is nearest to `v` among the integers. -/
def IsNear (n : Nat) (v : Rat) : Prop := v - 1 / 2 ≤ (n : Rat) ∧ (n : Rat) ≤ v + 1 / 2

/-- White space, or none. -/
def gap (n : Nat) : List Tok := List.replicate n .ws

/-- A token that writes a number, or a percentage of `whole`. -/
inductive Writes (whole : Rat) : Tok → Rat → Prop
  | number (n : Lit) : Writes whole (.number n.text) n.value
  | percent (n : Lit) : Writes whole (.percent (n.text ++ ['%'])) (n.value / 100 * whole)

/-- A colour with channels, and an opacity, nearest to what is given. -/
def Shows (c : Rgba) (r g b a : Rat) : Prop :=
  IsNear c.r r ∧ IsNear c.g g ∧ IsNear c.b b ∧ IsNear c.a (a * 255)

/-! ## Lemmas -/

theorem eatWs_gap (n : Nat) (l : List Tok) : eatWs (gap n ++ l) = eatWs l := by
  induction n with
  | zero => rfl
  | succ n ih => rw [gap, List.replicate_succ, List.cons_append, eatWs]; exact ih

theorem eatWs_gap' (n : Nat) : eatWs (gap n) = [] := by
  have := eatWs_gap n []
  simpa [eatWs] using this

theorem eatWs_nil : eatWs [] = [] := rfl

theorem Writes.eatWs {whole : Rat} {t : Tok} {v : Rat} (h : Writes whole t v) (l : List Tok) :
    eatWs (t :: l) = t :: l := by cases h <;> rfl

theorem round_nat {round : Rat → Int} (hr : Nearest round) {v : Rat} (h0 : 0 ≤ v) (h1 : v ≤ 255) :
    ∃ n : Nat, round v = n ∧ n < 256 ∧ IsNear n v := by
  have h := hr v
  have a : -1 < round v := by
    have : ((-1 : Int) : Rat) < (round v : Rat) := by
      have : ((-1 : Int) : Rat) = -1 := rfl
      grind
    exact Rat.intCast_lt_intCast.mp this
  have b : round v < 256 := by
    have : (round v : Rat) < ((256 : Int) : Rat) := by
      have : ((256 : Int) : Rat) = 256 := rfl
      grind
    exact Rat.intCast_lt_intCast.mp this
  refine ⟨(round v).toNat, by omega, by omega, ?_⟩
  have c : ((round v).toNat : Int) = round v := by omega
  have d : (((round v).toNat : Nat) : Rat) = (round v : Rat) := by
    rw [← Rat.intCast_natCast, c]
  unfold IsNear
  rw [d]; exact h

theorem round_int {round : Rat → Int} (hr : Nearest round) (n : Int) : round n = n := by
  have h := hr n
  have a : round n < n + 1 := by
    have : (round n : Rat) < ((n + 1 : Int) : Rat) := by
      rw [Rat.intCast_add]
      have : ((1 : Int) : Rat) = 1 := rfl
      grind
    exact Rat.intCast_lt_intCast.mp this
  have b : n < round n + 1 := by
    have : (n : Rat) < ((round n + 1 : Int) : Rat) := by
      rw [Rat.intCast_add]
      have : ((1 : Int) : Rat) = 1 := rfl
      grind
    exact Rat.intCast_lt_intCast.mp this
  omega

theorem toU8_nat {n : Nat} (h : n < 256) : toU8 n = .ok n := by
  unfold toU8
  rw [if_pos ⟨by omega, by omega⟩]
  simp

theorem toU8_big {n : Int} (h : n < 0 ∨ 255 < n) : toU8 n = .ub := by
  unfold toU8
  rw [if_neg (by omega)]

theorem numPercNone_writes {whole : Rat} {t : Tok} {v : Rat} (h : Writes whole t v) (l : List Tok) :
    numPercNone whole (t :: l) = .ok (v, l) := by
  cases h with
  | number n => simp [numPercNone, skipIdent, atof_lit_end]
  | percent n =>
    have : (n.value * whole) / 100 = n.value / 100 * whole := by grind
    simp [numPercNone, skipIdent, atof_lit n endsNum_percent, this]

theorem channel_writes {whole : Rat} {t : Tok} {v : Rat} (h : Writes whole t v)
    (round : Rat → Int) (l : List Tok) : channel round whole (t :: l) = .ok (round v, eatWs l) := by
  simp only [channel, numPercNone_writes h, Res.bind]

theorem channels_writes {whole : Rat} {tr tg tb : Tok} {r g b : Rat} (hr : Writes whole tr r)
    (hg : Writes whole tg g) (hb : Writes whole tb b) (round : Rat → Int) (k m : Nat)
    (l : List Tok) :
    channels round whole (tr :: (gap k ++ tg :: (gap m ++ tb :: l))) =
      .ok ((round r, round g, round b), eatWs l) := by
  simp only [channels, channel_writes hr, Res.bind, eatWs_gap, hg.eatWs, channel_writes hg,
    hb.eatWs, channel_writes hb]

theorem eatWs_eatWs (l : List Tok) : eatWs (eatWs l) = eatWs l := by
  induction l with
  | nil => rfl
  | cons t l ih =>
    cases t with
    | ws => rw [eatWs]; exact ih
    | _ => rfl

theorem alphaValue_writes {t : Tok} {a : Rat} (h : Writes 1 t a) {round : Rat → Int}
    (hr : Nearest round) (h0 : 0 ≤ a) (h1 : a ≤ 1) (l : List Tok) :
    ∃ n : Nat, alphaValue round (t :: l) = .ok (n, l) ∧ n < 256 ∧ IsNear n (a * 255) := by
  obtain ⟨n, hn, hl, hi⟩ := round_nat hr (v := a * 255) (by grind) (by grind)
  refine ⟨n, ?_, hl, hi⟩
  cases h with
  | number k => simp [alphaValue, atof_lit_end, hn, toU8_nat hl, Res.bind]
  | percent k =>
    have e : (k.value * 255) / 100 = k.value / 100 * 1 * 255 := by grind
    simp only [alphaValue, atof_lit k endsNum_percent, Option.map_some, Option.getD_some, e, hn,
      toU8_nat hl, Res.bind]

/-! ## C102: `rgb()` -/

/-- **C102 (in part).** `rgb(r g b)`, spaced in any way, has the channels nearest to the numbers,
or to the percentages of 255, and is opaque, as long as they are in range; `rgb(r g b / a)` has
that opacity.  Out of range it is undefined behaviour: see `C102_range_fails`. -/
theorem C102_modern_partial {round : Rat → Int} (hround : Nearest round) {tr tg tb : Tok}
    {r g b : Rat} (hr : Writes 255 tr r) (hg : Writes 255 tg g) (hb : Writes 255 tb b)
    (ir : 0 ≤ r ∧ r ≤ 255) (ig : 0 ≤ g ∧ g ≤ 255) (ib : 0 ≤ b ∧ b ≤ 255) (i j k m : Nat) :
    (∃ c, rgbFunc round (gap i ++ tr :: (gap j ++ tg :: (gap k ++ tb :: gap m))) = .ok c ∧
      Shows c r g b 1) ∧
    ∀ {ta : Tok} {a : Rat} (_ : Writes 1 ta a) (_ : 0 ≤ a ∧ a ≤ 1) (p q : Nat),
      ∃ c, rgbFunc round (gap i ++ tr :: (gap j ++ tg :: (gap k ++ tb ::
        (gap m ++ .delim ['/'] :: (gap p ++ ta :: gap q))))) = .ok c ∧ Shows c r g b a := by
  obtain ⟨nr, er, lr, sr⟩ := round_nat hround ir.1 ir.2
  obtain ⟨ng, eg, lg, sg⟩ := round_nat hround ig.1 ig.2
  obtain ⟨nb, eb, lb, sb⟩ := round_nat hround ib.1 ib.2
  have one : IsNear 255 (1 * 255) := by unfold IsNear; decide +kernel
  refine ⟨⟨⟨nr, ng, nb, 255⟩, ?_, sr, sg, sb, one⟩, ?_⟩
  · have h : rgbModern round (gap i ++ tr :: (gap j ++ tg :: (gap k ++ tb :: gap m))) =
        .ok ⟨nr, ng, nb, 255⟩ := by
      simp only [rgbModern, eatWs_gap, hr.eatWs, channels_writes hr hg hb, Res.bind, er, eg, eb,
        toU8_nat lr, toU8_nat lg, toU8_nat lb, eatWs_eatWs, eatWs_gap', eatWs_nil]
    rw [rgbFunc, h]
  · intro ta a ha ia p q
    obtain ⟨na, ea, la, sa⟩ := alphaValue_writes ha hround ia.1 ia.2 (gap q)
    refine ⟨⟨nr, ng, nb, na⟩, ?_, sr, sg, sb, sa⟩
    have hs : skipDelim ['/'] (.delim ['/'] :: (gap p ++ ta :: gap q)) = some (gap p ++ ta :: gap q) := by
      simp [skipDelim, eqCi]
    have hn : skipIdent "none".toList (ta :: gap q) = none := by cases ha <;> rfl
    have h : rgbModern round (gap i ++ tr :: (gap j ++ tg :: (gap k ++ tb ::
        (gap m ++ .delim ['/'] :: (gap p ++ ta :: gap q))))) = .ok ⟨nr, ng, nb, na⟩ := by
      have ed : eatWs (.delim ['/'] :: (gap p ++ ta :: gap q)) = .delim ['/'] :: (gap p ++ ta :: gap q) := rfl
      simp only [rgbModern, eatWs_gap, hr.eatWs, channels_writes hr hg hb, Res.bind, er, eg, eb,
        toU8_nat lr, toU8_nat lg, toU8_nat lb, ed, alphaModern, hs, ha.eatWs, hn, ea,
        Option.getD_some]
    rw [rgbFunc, h]

/-- `round half up`. -/
def halfUp (v : Rat) : Int := (v + 1 / 2).floor

theorem halfUp_nearest : Nearest halfUp := by
  intro v
  unfold halfUp
  have h1 := Rat.floor_le (a := v + 1 / 2)
  have h2 : v + 1 / 2 < ((v + 1 / 2).floor : Rat) + 1 := by
    apply Rat.not_le.mp
    intro h
    have : (v + 1 / 2).floor + 1 ≤ (v + 1 / 2).floor := by
      rw [Rat.le_floor_iff, Rat.intCast_add]
      exact h
    omega
  constructor <;> grind

/-- `rgb(2.5 100% 7 / .5)`. -/
example : Writes 255 (.number lit25.text) (5 / 2) ∧
    Writes 255 (.percent ((natLit 1 [0, 0]).text ++ ['%'])) 255 ∧
    (natLit 1 [0, 0]).text ++ ['%'] = "100%".toList ∧
    Nearest halfUp := by
  refine ⟨?_, ?_, by decide +kernel, halfUp_nearest⟩
  · have : lit25.value = 5 / 2 := by decide +kernel
    rw [← this]; exact .number _
  · have : (natLit 1 [0, 0]).value / 100 * 255 = 255 := by decide +kernel
    have h := Writes.percent (whole := 255) (natLit 1 [0, 0])
    rw [this] at h; exact h

/-- A number that is written as a whole number, or a percentage: what the legacy syntax reads. -/
def Whole (t : Tok) (v : Rat) : Prop := ∃ n : Nat, v = n ∧ ∃ s, t = .number s

theorem trunc_nat (n : Nat) : trunc (n : Rat) = n := by
  unfold trunc
  have h : ¬ ((n : Rat) < 0) := by
    have : (0 : Rat) ≤ (n : Rat) := Rat.natCast_nonneg
    exact Rat.not_lt.mpr this
  rw [if_neg h]
  rw [← Rat.intCast_natCast, Rat.floor_intCast]

/-- Three channels of the legacy syntax: whole numbers all, or percentages all. -/
def Uniform (tr tg tb : Tok) (r g b : Rat) : Prop :=
  (Whole tr r ∧ Whole tg g ∧ Whole tb b) ∨
  ∃ sr sg sb, tr = .percent sr ∧ tg = .percent sg ∧ tb = .percent sb

theorem legacy_whole {round : Rat → Int} (hround : Nearest round) {t : Tok} {v : Rat}
    (h : Writes 255 t v) (hw : Whole t v) (hi : 0 ≤ v ∧ v ≤ 255) (l : List Tok) :
    ∃ n : Nat, channelLegacy round false (t :: l) = .ok (n, eatWs l) ∧ n < 256 ∧ round v = n ∧ IsNear n v := by
  obtain ⟨n, hn, s, hs⟩ := hw
  subst hs
  obtain ⟨m, em, lm, sm⟩ := round_nat hround hi.1 hi.2
  have hnm : n = m := by
    have : round v = n := by
      rw [hn, ← Rat.intCast_natCast]; exact round_int hround n
    omega
  subst hnm
  refine ⟨n, ?_, lm, em, sm⟩
  have ha : ∃ x, atof s = some (v, x) := by
    cases h with
    | number k => exact ⟨_, atof_lit_end k⟩
  obtain ⟨x, hx⟩ := ha
  simp only [channelLegacy, Bool.false_eq_true, ↓reduceIte, hx, hn, trunc_nat, toU8_nat lm, Res.bind]

theorem legacy_percent {round : Rat → Int} (hround : Nearest round) {s : List Char} {v : Rat}
    (h : Writes 255 (.percent s) v) (hi : 0 ≤ v ∧ v ≤ 255) (l : List Tok) :
    ∃ n : Nat, channelLegacy round true (.percent s :: l) = .ok (n, eatWs l) ∧ n < 256 ∧ round v = n ∧ IsNear n v := by
  obtain ⟨m, em, lm, sm⟩ := round_nat hround hi.1 hi.2
  refine ⟨m, ?_, lm, em, sm⟩
  cases h with
  | percent k =>
    have e : (k.value * 255) / 100 = k.value / 100 * 255 := by grind
    simp [channelLegacy, atof_lit k endsNum_percent, e, em, toU8_nat lm, Res.bind]

/-- The modern syntax rejects commas. -/
theorem modern_comma {t : Tok} {v : Rat} (h : Writes 255 t v) (round : Rat → Int) (i j : Nat)
    (l : List Tok) : rgbModern round (gap i ++ t :: (gap j ++ .comma :: l)) = .err := by
  have e : eatWs (.comma :: l) = .comma :: l := rfl
  have n : numPercNone 255 (.comma :: l) = .err := by simp [numPercNone, skipIdent]
  simp only [rgbModern, eatWs_gap, h.eatWs, channels, channel_writes h, Res.bind, e]
  simp only [channel, n, Res.bind]

/-- **C102 (in part).** The same with commas, as long as the numbers are whole and numbers and
percentages are not mixed. -/
theorem C102_legacy_partial {round : Rat → Int} (hround : Nearest round) {tr tg tb : Tok}
    {r g b : Rat} (hr : Writes 255 tr r) (hg : Writes 255 tg g) (hb : Writes 255 tb b)
    (hu : Uniform tr tg tb r g b)
    (ir : 0 ≤ r ∧ r ≤ 255) (ig : 0 ≤ g ∧ g ≤ 255) (ib : 0 ≤ b ∧ b ≤ 255) (i j k m n p : Nat) :
    (∃ c, rgbFunc round (gap i ++ tr :: (gap j ++ .comma :: (gap k ++ tg :: (gap m ++ .comma ::
      (gap n ++ tb :: gap p))))) = .ok c ∧ Shows c r g b 1) ∧
    ∀ {ta : Tok} {a : Rat} (_ : Writes 1 ta a) (_ : 0 ≤ a ∧ a ≤ 1) (q s : Nat),
      ∃ c, rgbFunc round (gap i ++ tr :: (gap j ++ .comma :: (gap k ++ tg :: (gap m ++ .comma ::
        (gap n ++ tb :: (gap p ++ .comma :: (gap q ++ ta :: gap s))))))) = .ok c ∧
        Shows c r g b a := by
  have hc : ∃ pc, (∀ l, ∃ n : Nat, channelLegacy round pc (tr :: l) = .ok (n, eatWs l) ∧ n < 256 ∧ round r = n ∧ IsNear n r) ∧
      (∀ l, ∃ n : Nat, channelLegacy round pc (tg :: l) = .ok (n, eatWs l) ∧ n < 256 ∧ round g = n ∧ IsNear n g) ∧
      (∀ l, ∃ n : Nat, channelLegacy round pc (tb :: l) = .ok (n, eatWs l) ∧ n < 256 ∧ round b = n ∧ IsNear n b) ∧
      ∀ l : List Tok, startsPercent (tr :: l) = pc := by
    rcases hu with ⟨wr, wg, wb⟩ | ⟨sr, sg, sb, rfl, rfl, rfl⟩
    · refine ⟨false, legacy_whole hround hr wr ir, legacy_whole hround hg wg ig,
        legacy_whole hround hb wb ib, ?_⟩
      obtain ⟨_, _, s, rfl⟩ := wr
      intro l; rfl
    · exact ⟨true, legacy_percent hround hr ir, legacy_percent hround hg ig,
        legacy_percent hround hb ib, fun _ => rfl⟩
  obtain ⟨pc, cr, cg, cb, hp⟩ := hc
  have one : IsNear 255 (1 * 255) := by unfold IsNear; decide +kernel
  have cm : ∀ l, comma (.comma :: l) = .ok (eatWs l) := fun l => rfl
  have ec : ∀ l : List Tok, eatWs (.comma :: l) = .comma :: l := fun l => rfl
  constructor
  · obtain ⟨nr, er, _, _, sr⟩ := cr (gap j ++ .comma :: (gap k ++ tg :: (gap m ++ .comma ::
      (gap n ++ tb :: gap p))))
    obtain ⟨ng, eg, _, _, sg⟩ := cg (gap m ++ .comma :: (gap n ++ tb :: gap p))
    obtain ⟨nb, eb, _, _, sb⟩ := cb (gap p)
    refine ⟨⟨nr, ng, nb, 255⟩, ?_, sr, sg, sb, one⟩
    rw [rgbFunc, modern_comma hr]
    simp only [rgbLegacy, eatWs_gap, hr.eatWs, hp, er, Res.bind, ec, cm, hg.eatWs, eg, hb.eatWs, eb,
      eatWs_eatWs, eatWs_gap', eatWs_nil]
  · intro ta a ha ia q s
    obtain ⟨nr, er, _, _, sr⟩ := cr (gap j ++ .comma :: (gap k ++ tg :: (gap m ++ .comma ::
      (gap n ++ tb :: (gap p ++ .comma :: (gap q ++ ta :: gap s))))))
    obtain ⟨ng, eg, _, _, sg⟩ := cg (gap m ++ .comma :: (gap n ++ tb :: (gap p ++ .comma :: (gap q ++ ta :: gap s))))
    obtain ⟨nb, eb, _, _, sb⟩ := cb (gap p ++ .comma :: (gap q ++ ta :: gap s))
    obtain ⟨na, ea, _, sa⟩ := alphaValue_writes ha hround ia.1 ia.2 (gap s)
    refine ⟨⟨nr, ng, nb, na⟩, ?_, sr, sg, sb, sa⟩
    rw [rgbFunc, modern_comma hr]
    simp only [rgbLegacy, eatWs_gap, hr.eatWs, hp, er, Res.bind, ec, cm, hg.eatWs, eg, hb.eatWs, eb,
      ha.eatWs, ea]

/-- `rgba(255, 0, 7, .5)` -/
example : Uniform (.number "255".toList) (.number "0".toList) (.number "7".toList) 255 0 7 ∧
    Writes 255 (.number "255".toList) 255 := by
  refine ⟨.inl ⟨⟨255, rfl, _, rfl⟩, ⟨0, rfl, _, rfl⟩, ⟨7, rfl, _, rfl⟩⟩, ?_⟩
  have h := Writes.number (whole := 255) (natLit 2 [5, 5])
  have e1 : (natLit 2 [5, 5]).text = "255".toList := by decide +kernel
  have e2 : (natLit 2 [5, 5]).value = 255 := by decide +kernel
  rw [e1, e2] at h; exact h

/-- **C102.** The two syntaxes denote the same colour. -/
theorem C102_syntaxes {round : Rat → Int} (hround : Nearest round) {tr tg tb : Tok}
    {r g b : Rat} (hr : Writes 255 tr r) (hg : Writes 255 tg g) (hb : Writes 255 tb b)
    (hu : Uniform tr tg tb r g b)
    (ir : 0 ≤ r ∧ r ≤ 255) (ig : 0 ≤ g ∧ g ≤ 255) (ib : 0 ≤ b ∧ b ≤ 255) (i j k m n p i' j' k' m' : Nat) :
    rgbFunc round (gap i ++ tr :: (gap j ++ .comma :: (gap k ++ tg :: (gap m ++ .comma ::
      (gap n ++ tb :: gap p))))) =
    rgbFunc round (gap i' ++ tr :: (gap j' ++ tg :: (gap k' ++ tb :: gap m'))) := by
  have hc : ∃ pc, (∀ l, ∃ n : Nat, channelLegacy round pc (tr :: l) = .ok (n, eatWs l) ∧ n < 256 ∧ round r = n ∧ IsNear n r) ∧
      (∀ l, ∃ n : Nat, channelLegacy round pc (tg :: l) = .ok (n, eatWs l) ∧ n < 256 ∧ round g = n ∧ IsNear n g) ∧
      (∀ l, ∃ n : Nat, channelLegacy round pc (tb :: l) = .ok (n, eatWs l) ∧ n < 256 ∧ round b = n ∧ IsNear n b) ∧
      ∀ l : List Tok, startsPercent (tr :: l) = pc := by
    rcases hu with ⟨wr, wg, wb⟩ | ⟨sr, sg, sb, rfl, rfl, rfl⟩
    · refine ⟨false, legacy_whole hround hr wr ir, legacy_whole hround hg wg ig,
        legacy_whole hround hb wb ib, ?_⟩
      obtain ⟨_, _, s, rfl⟩ := wr
      intro l; rfl
    · exact ⟨true, legacy_percent hround hr ir, legacy_percent hround hg ig,
        legacy_percent hround hb ib, fun _ => rfl⟩
  obtain ⟨pc, cr, cg, cb, hp⟩ := hc
  have cm : ∀ l, comma (.comma :: l) = .ok (eatWs l) := fun l => rfl
  have ec : ∀ l : List Tok, eatWs (.comma :: l) = .comma :: l := fun l => rfl
  obtain ⟨nr, er, lr, vr, sr⟩ := cr (gap j ++ .comma :: (gap k ++ tg :: (gap m ++ .comma ::
    (gap n ++ tb :: gap p))))
  obtain ⟨ng, eg, lg, vg, sg⟩ := cg (gap m ++ .comma :: (gap n ++ tb :: gap p))
  obtain ⟨nb, eb, lb, vb, sb⟩ := cb (gap p)
  have h : rgbModern round (gap i' ++ tr :: (gap j' ++ tg :: (gap k' ++ tb :: gap m'))) =
      .ok ⟨nr, ng, nb, 255⟩ := by
    simp only [rgbModern, eatWs_gap, hr.eatWs, channels_writes hr hg hb, Res.bind, vr, vg, vb,
      toU8_nat lr, toU8_nat lg, toU8_nat lb, eatWs_eatWs, eatWs_gap', eatWs_nil]
  rw [rgbFunc, modern_comma hr, rgbFunc, h]
  simp only [rgbLegacy, eatWs_gap, hr.eatWs, hp, er, Res.bind, ec, cm, hg.eatWs, eg, hb.eatWs, eb,
    eatWs_eatWs, eatWs_gap', eatWs_nil]

/-- **C102.** It is false that channels out of range are clamped: rounding that does not give 0 to
255 is converted to a byte all the same, which is undefined. -/
theorem C102_range_fails {round : Rat → Int} {tr tg tb : Tok}
    {r g b : Rat} (hr : Writes 255 tr r) (hg : Writes 255 tg g) (hb : Writes 255 tb b)
    (out : round r < 0 ∨ 255 < round r) (i j k m : Nat) :
    rgbFunc round (gap i ++ tr :: (gap j ++ tg :: (gap k ++ tb :: gap m))) = .ub := by
  have h : rgbModern round (gap i ++ tr :: (gap j ++ tg :: (gap k ++ tb :: gap m))) = .ub := by
    simp only [rgbModern, eatWs_gap, hr.eatWs, channels_writes hr hg hb, Res.bind, toU8_big out]
  rw [rgbFunc, h]

/-- `rgb(300 0 0)` -/
example : halfUp 300 = 300 ∧ Writes 255 (.number (natLit 3 [0, 0]).text) 300 := by
  refine ⟨by decide +kernel, ?_⟩
  have h := Writes.number (whole := 255) (natLit 3 [0, 0])
  have e : (natLit 3 [0, 0]).value = 300 := by decide +kernel
  rw [e] at h; exact h

/-- **C102.** It is false that the two syntaxes agree about numbers that are not whole: with commas
the fraction is dropped. -/
theorem C102_fraction_fails :
    rgbFunc halfUp [.number "2.7".toList, .ws, .number "0".toList, .ws, .number "0".toList] =
      .ok ⟨3, 0, 0, 255⟩ ∧
    rgbFunc halfUp [.number "2.7".toList, .comma, .number "0".toList, .comma, .number "0".toList] =
      .ok ⟨2, 0, 0, 255⟩ := by
  constructor <;> decide +kernel

/-- **C102.** It is false that what follows the opacity makes the colour invalid: nothing looks at
it. -/
theorem C102_rest_fails {round : Rat → Int} (hround : Nearest round) {tr tg tb ta : Tok}
    {r g b a : Rat} (hr : Writes 255 tr r) (hg : Writes 255 tg g) (hb : Writes 255 tb b)
    (ha : Writes 1 ta a) (ir : 0 ≤ r ∧ r ≤ 255) (ig : 0 ≤ g ∧ g ≤ 255) (ib : 0 ≤ b ∧ b ≤ 255)
    (ia : 0 ≤ a ∧ a ≤ 1) (rest : List Tok) :
    ∃ c, rgbFunc round (tr :: .ws :: tg :: .ws :: tb :: .delim ['/'] :: ta :: rest) = .ok c := by
  obtain ⟨nr, er, lr, _⟩ := round_nat hround ir.1 ir.2
  obtain ⟨ng, eg, lg, _⟩ := round_nat hround ig.1 ig.2
  obtain ⟨nb, eb, lb, _⟩ := round_nat hround ib.1 ib.2
  obtain ⟨na, ea, _, _⟩ := alphaValue_writes ha hround ia.1 ia.2 rest
  refine ⟨⟨nr, ng, nb, na⟩, ?_⟩
  have hc := channels_writes hr hg hb round 1 1 (.delim ['/'] :: ta :: rest)
  have hs : skipDelim ['/'] (.delim ['/'] :: ta :: rest) = some (ta :: rest) := by
    simp [skipDelim, eqCi]
  have hn : skipIdent "none".toList (ta :: rest) = none := by cases ha <;> rfl
  have ed : eatWs (.delim ['/'] :: ta :: rest) = .delim ['/'] :: ta :: rest := rfl
  simp only [gap, List.replicate_succ, List.replicate_zero, List.cons_append, List.nil_append] at hc
  have h : rgbModern round (tr :: .ws :: tg :: .ws :: tb :: .delim ['/'] :: ta :: rest) =
      .ok ⟨nr, ng, nb, na⟩ := by
    simp only [rgbModern, hr.eatWs, hc, Res.bind, er, eg, eb,
      toU8_nat lr, toU8_nat lg, toU8_nat lb, ed, alphaModern, hs, ha.eatWs, hn, ea,
      Option.getD_some]
  rw [rgbFunc, h]

/-! ## C103: `color()` -/

/-- **C103 (in part).** `color(srgb r g b)` has the channels `255 r`, `255 g` and `255 b` when each
of them is 0 or 1 (or 0% or 100%).  For other values it is false: see `C103_between_fails`. -/
theorem C103_ends_partial {round : Rat → Int} (hround : Nearest round) {tr tg tb : Tok}
    {r g b : Rat} (hr : Writes 1 tr r) (hg : Writes 1 tg g) (hb : Writes 1 tb b)
    (ir : r = 0 ∨ r = 1) (ig : g = 0 ∨ g = 1) (ib : b = 0 ∨ b = 1) (i h j k m : Nat) :
    (∃ c, colorFunc round (gap i ++ .ident "srgb".toList :: (gap h ++ tr :: (gap j ++ tg ::
      (gap k ++ tb :: gap m)))) = .ok c ∧ Shows c (r * 255) (g * 255) (b * 255) 1) ∧
    ∀ {ta : Tok} {a : Rat} (_ : Writes 1 ta a) (_ : 0 ≤ a ∧ a ≤ 1) (p q : Nat),
      ∃ c, colorFunc round (gap i ++ .ident "srgb".toList :: (gap h ++ tr :: (gap j ++ tg ::
        (gap k ++ tb :: (gap m ++ .delim ['/'] :: (gap p ++ ta :: gap q)))))) = .ok c ∧
        Shows c (r * 255) (g * 255) (b * 255) a := by
  have key : ∀ {v : Rat}, v = 0 ∨ v = 1 →
      ∃ n : Nat, toU8 (round v * 255) = .ok n ∧ IsNear n (v * 255) := by
    rintro v (rfl | rfl)
    · have : round 0 = 0 := round_int hround 0
      rw [this]
      exact ⟨0, rfl, by unfold IsNear; decide +kernel⟩
    · have : round 1 = 1 := round_int hround 1
      rw [this]
      exact ⟨255, rfl, by unfold IsNear; decide +kernel⟩
  obtain ⟨nr, er, sr⟩ := key ir
  obtain ⟨ng, eg, sg⟩ := key ig
  obtain ⟨nb, eb, sb⟩ := key ib
  have one : IsNear 255 (1 * 255) := by unfold IsNear; decide +kernel
  have hsp : (spaces.any fun k => decide (k.toList = "srgb".toList)) = true := by decide +kernel
  have ei : ∀ l, eatWs (.ident "srgb".toList :: l) = .ident "srgb".toList :: l := fun _ => rfl
  constructor
  · refine ⟨⟨nr, ng, nb, 255⟩, ?_, sr, sg, sb, one⟩
    simp only [colorFunc, eatWs_gap, ei, hsp, ↓reduceIte, hr.eatWs, channels_writes hr hg hb,
      Res.bind, eatWs_gap', eatWs_nil, eatWs_eatWs, er, eg, eb]
  · intro ta a ha ia p q
    obtain ⟨na, ea, la, sa⟩ := alphaValue_writes ha hround ia.1 ia.2 (gap q)
    refine ⟨⟨nr, ng, nb, na⟩, ?_, sr, sg, sb, sa⟩
    have hs : skipDelim ['/'] (.delim ['/'] :: (gap p ++ ta :: gap q)) = some (gap p ++ ta :: gap q) := by
      simp [skipDelim, eqCi]
    have hn : skipIdent "none".toList (ta :: gap q) = none := by cases ha <;> rfl
    have ed : eatWs (.delim ['/'] :: (gap p ++ ta :: gap q)) = .delim ['/'] :: (gap p ++ ta :: gap q) := rfl
    simp only [colorFunc, eatWs_gap, ei, hsp, ↓reduceIte, hr.eatWs, channels_writes hr hg hb,
      Res.bind, ed, alphaModern, hs, ha.eatWs, hn, ea, er, eg, eb, Option.getD_some]

example : Writes 1 (.percent ((natLit 1 [0, 0]).text ++ ['%'])) 1 := by
  have : (natLit 1 [0, 0]).value / 100 * 1 = 1 := by decide +kernel
  have h := Writes.percent (whole := 1) (natLit 1 [0, 0])
  rw [this] at h; exact h

/-- **C103.** It is false between 0 and 1: the channels are rounded before they are scaled, so
every channel below one half is 0 and every channel above it is 255. -/
theorem C103_between_fails {round : Rat → Int} (hround : Nearest round) {tr tg tb : Tok}
    {r g b : Rat} (hr : Writes 1 tr r) (hg : Writes 1 tg g) (hb : Writes 1 tb b)
    (ir : 0 ≤ r ∧ r < 1 / 2) (ig : 0 ≤ g ∧ g < 1 / 2) (ib : 1 / 2 < b ∧ b ≤ 1) :
    colorFunc round [.ident "srgb".toList, .ws, tr, .ws, tg, .ws, tb] = .ok ⟨0, 0, 255, 255⟩ := by
  have low : ∀ {v : Rat}, 0 ≤ v ∧ v < 1 / 2 → round v = 0 := by
    intro v hv
    have h := hround v
    have a : round v < 1 := by
      have : (round v : Rat) < ((1 : Int) : Rat) := by
        have : ((1 : Int) : Rat) = 1 := rfl
        grind
      exact Rat.intCast_lt_intCast.mp this
    have b : -1 < round v := by
      have : ((-1 : Int) : Rat) < (round v : Rat) := by
        have : ((-1 : Int) : Rat) = -1 := rfl
        grind
      exact Rat.intCast_lt_intCast.mp this
    omega
  have high : round b = 1 := by
    have h := hround b
    have a : round b < 2 := by
      have : (round b : Rat) < ((2 : Int) : Rat) := by
        have : ((2 : Int) : Rat) = 2 := rfl
        grind
      exact Rat.intCast_lt_intCast.mp this
    have b : 0 < round b := by
      have : ((0 : Int) : Rat) < (round b : Rat) := by
        have : ((0 : Int) : Rat) = 0 := rfl
        grind
      exact Rat.intCast_lt_intCast.mp this
    omega
  have hc := channels_writes hr hg hb round 1 1 []
  simp only [gap, List.replicate_succ, List.replicate_zero, List.cons_append, List.nil_append] at hc
  have hsp : (spaces.any fun k => decide (k.toList = "srgb".toList)) = true := by decide +kernel
  simp only [colorFunc, eatWs, hsp, ↓reduceIte, hr.eatWs, hc, Res.bind, low ir, low ig, high]
  decide

example : colorFunc halfUp [.ident "srgb".toList, .ws, .number "0.4".toList, .ws,
    .number ".25".toList, .ws, .number "0.6".toList] = .ok ⟨0, 0, 255, 255⟩ := by decide +kernel

/-- **C103.** It is false that `color()` with a space that does not exist is invalid: whatever
follows, it is white.  The names of spaces are not recognised in upper case. -/
theorem C103_space_fails (round : Rat → Int) (s : List Char) (rest : List Tok)
    (h : ∀ k ∈ spaces, k.toList ≠ s) :
    colorFunc round (.ident s :: rest) = .ok ⟨255, 255, 255, 255⟩ := by
  have : (spaces.any fun k => decide (k.toList = s)) = false := by
    rw [List.any_eq_false]; simpa using h
  simp [colorFunc, eatWs, this]

example : (∀ k ∈ spaces, k.toList ≠ "SRGB".toList) ∧ ∀ k ∈ spaces, k.toList ≠ "no-such".toList := by
  decide +kernel

/-- **C103.** It is false that the spaces differ: the values are taken for sRGB in every one. -/
theorem C103_spaces_fails (round : Rat → Int) {s t : String} (hs : s ∈ spaces) (ht : t ∈ spaces)
    (rest : List Tok) :
    colorFunc round (.ident s.toList :: rest) = colorFunc round (.ident t.toList :: rest) := by
  have h1 : (spaces.any fun k => decide (k.toList = s.toList)) = true := by
    rw [List.any_eq_true]; exact ⟨s, hs, by simp⟩
  have h2 : (spaces.any fun k => decide (k.toList = t.toList)) = true := by
    rw [List.any_eq_true]; exact ⟨t, ht, by simp⟩
  simp only [colorFunc, eatWs, h1, h2, ↓reduceIte]

/-! ## C104: `color-mix()` and hues -/

/-- The percentages that count, from those given: CSS Color 5, normalizing mix percentages. -/
def percentages : Option Rat → Option Rat → Rat × Rat
  | none, none => (50, 50)
  | some p, none => (p, 100 - p)
  | none, some q => (100 - q, q)
  | some p, some q => (p, q)

/-- **C104.** For percentages from 0 to 100, not both 0, the colours are mixed in the proportion
of the percentages (`1 - t` of the first and `t` of the second), and the mix has the opacity of
their sum when that is less than 100. -/
theorem C104_weights {lhs rhs : Option Rat} {p q : Rat} (h : percentages lhs rhs = (p, q))
    (hp : 0 ≤ p ∧ p ≤ 100) (hq : 0 ≤ q ∧ q ≤ 100) (hz : ¬ (p = 0 ∧ q = 0)) :
    ∃ t o, mixOf lhs rhs = .at t o ∧ t * p = (1 - t) * q ∧ 0 ≤ t ∧ t ≤ 1 ∧
      o = if p + q < 100 then some ((p + q) / 100) else none := by
  have e : lhs.getD (100 - rhs.getD 50) = p ∧ rhs.getD (100 - lhs.getD 50) = q := by
    cases lhs <;> cases rhs <;> simp [percentages] at h ⊢ <;> grind
  have hs : 0 < p + q := by grind
  have h1 : ¬ (p = q ∧ p = 0) := by grind
  have h2 : ¬ (p + q = 0) := by grind
  have ht : (if p + q ≠ 100 then q / (p + q) else q / 100) = q / (p + q) := by
    by_cases h : p + q = 100
    · rw [if_neg (by simp [h]), h]
    · rw [if_pos h]
  refine ⟨q / (p + q), _, ?_, ?_, ?_, ?_, rfl⟩
  · simp only [mixOf, e.1, e.2, if_neg h1, if_neg h2, ht]
  · grind
  · have : 0 ≤ (p + q)⁻¹ := Rat.le_of_lt (Rat.inv_pos.mpr hs)
    rw [Rat.div_def]
    exact Rat.mul_nonneg hq.1 this
  · have h3 : q / (p + q) * (p + q) = q := by grind
    apply Rat.not_lt.mp
    intro h4
    have h5 : 1 * (p + q) < q / (p + q) * (p + q) := Rat.mul_lt_mul_of_pos_right h4 hs
    grind

example : percentages (some 30) none = (30, 70) ∧ mixOf (some 30) none = .at (7 / 10) none ∧
    mixOf (some 20) (some 60) = .at (3 / 4) (some (4 / 5)) ∧ mixOf none none = .at (1 / 2) none := by
  decide +kernel

/-- **C104.** With the sides swapped the proportion is swapped and the opacity is the same. -/
theorem C104_swap {lhs rhs : Option Rat} {p q : Rat} (h : percentages lhs rhs = (p, q))
    (hp : 0 ≤ p ∧ p ≤ 100) (hq : 0 ≤ q ∧ q ≤ 100) (hz : ¬ (p = 0 ∧ q = 0)) :
    ∃ t o, mixOf lhs rhs = .at t o ∧ mixOf rhs lhs = .at (1 - t) o := by
  have h' : percentages rhs lhs = (q, p) := by
    cases lhs <;> cases rhs <;> simp [percentages] at h ⊢ <;> grind
  obtain ⟨t, o, e, w, _, _, ho⟩ := C104_weights h hp hq hz
  obtain ⟨t', o', e', w', _, _, ho'⟩ := C104_weights h' hq hp (fun x => hz ⟨x.2, x.1⟩)
  refine ⟨t, o, e, ?_⟩
  have hs : p + q ≠ 0 := by grind
  have : t' = 1 - t := by
    have h1 : t * (p + q) = q := by grind
    have h2 : t' * (p + q) = p := by grind
    have h3 : (t' + t - 1) * (p + q) = 0 := by grind
    rcases Rat.mul_eq_zero.mp h3 with h | h
    · grind
    · exact absurd h hs
  rw [e', this, ho, ho', Rat.add_comm q p]

/-- **C104.** It is false that a mix with no part of either colour is invalid: it is white. -/
theorem C104_zero_fails : mixOf (some 0) (some 0) = .white := by decide +kernel

/-- **C104.** It is false that percentages outside 0 to 100 make the mix invalid; with opposite
ones it is a division by zero. -/
theorem C104_range_fails : mixOf (some 200) none = .at (-1) none ∧
    mixOf (some 50) (some (-50)) = .divZero := by decide +kernel

/-- `a` and `b` are the same hue: a number of turns apart. -/
def SameHue (a b : Rat) : Prop := ∃ n : Int, a = b + n * 360

/-- **C104.** Whatever the way round, the hues between which to interpolate are the two hues. -/
theorem C104_hues (arc : Arc) (a b : Rat) :
    SameHue (prepareHues arc a b).1 a ∧ SameHue (prepareHues arc a b).2 b := by
  have z : ∀ x : Rat, SameHue x x := fun x => ⟨0, by grind⟩
  have o : ∀ x : Rat, SameHue (x + 360) x := fun x => ⟨1, by
    have : ((1 : Int) : Rat) = 1 := rfl
    grind⟩
  cases arc <;> simp only [prepareHues] <;> (repeat' split) <;>
    first | exact ⟨z _, z _⟩ | exact ⟨o _, z _⟩ | exact ⟨z _, o _⟩

/-- The turn from the first hue to the second is of the kind asked for. -/
def GoesRound : Arc → Rat → Prop
  | .shorter, d => -180 ≤ d ∧ d ≤ 180
  | .longer, d => d ≤ -180 ∨ 180 ≤ d
  | .increasing, d => 0 ≤ d ∧ d < 360
  | .decreasing, d => -360 < d ∧ d ≤ 0

/-- **C104.** For hues from 0 to 360 the way from the one to the other is the shorter, the longer,
the increasing or the decreasing one, as asked for, and less than two turns. -/
theorem C104_arc (arc : Arc) {a b : Rat} (ha : 0 ≤ a ∧ a < 360) (hb : 0 ≤ b ∧ b < 360) :
    GoesRound arc ((prepareHues arc a b).2 - (prepareHues arc a b).1) ∧
    -360 ≤ (prepareHues arc a b).2 - (prepareHues arc a b).1 ∧
    (prepareHues arc a b).2 - (prepareHues arc a b).1 ≤ 360 := by
  cases arc <;> simp only [prepareHues, GoesRound] <;> (repeat' split) <;> grind

example : prepareHues .shorter 350 10 = (350, 370) ∧ prepareHues .longer 10 20 = (370, 20) ∧
    prepareHues .increasing 350 10 = (350, 370) ∧ prepareHues .decreasing 10 350 = (370, 350) := by
  decide +kernel

end Verif.Values
