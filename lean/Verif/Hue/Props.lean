import Verif.Hue.Spec
/-
# C212, C213: `hsl()` and `color-mix()`
-/

namespace Verif.Hue

open Verif.Values Verif.Short

/-! ### Lemmas -/

theorem HueTok.eatWs {pi : Rat} {t : Tok} {v : Rat} (h : HueTok pi t v) (l : List Tok) :
    eatWs (t :: l) = t :: l := by cases h <;> rfl

theorem PercTok.eatWs {t : Tok} {v : Rat} (h : PercTok t v) (l : List Tok) :
    eatWs (t :: l) = t :: l := by cases h; rfl

theorem readHue_tok {pi : Rat} {t : Tok} {v : Rat} (h : HueTok pi t v) (r : List Tok) :
    readHue pi (t :: r) = .ok (v, r) := by
  have ang : ∀ {k : String} {u : AngleUnit} {w : List Char} (n : Lit), (k, u) ∈ angleUnits →
      Cased w k.toList → readHue pi (.dim (n.text ++ w) :: r) = .ok (toDegree pi (n.value, u), r) := by
    intro k u w n hk hw
    have : skipIdent "none".toList (.dim (n.text ++ w) :: r) = none := rfl
    simp only [readHue, this, angle_text n hk hw]
  cases h with
  | number n =>
    have : skipIdent "none".toList (.number n.text :: r) = none := rfl
    simp only [readHue, this, atof_lit_end]
  | deg n hw => exact ang (k := "deg") (u := .deg) n (by decide) hw
  | grad n hw =>
    rw [ang (k := "grad") (u := .grad) n (by decide) hw]
    have : toDegree pi (n.value, .grad) = n.value * 360 / 400 := by
      simp only [toDegree]; grind
    rw [this]
  | rad n hw =>
    rw [ang (k := "rad") (u := .rad) n (by decide) hw]
    have : toDegree pi (n.value, .rad) = n.value * 360 / (2 * pi) := by
      simp only [toDegree]; grind
    rw [this]
  | turn n hw => exact ang (k := "turn") (u := .turn) n (by decide) hw
  | @none w hw =>
    have : skipIdent "none".toList (.ident w :: r) = some r := by
      simp only [skipIdent, eqCi_iff.mpr hw, if_true]
    simp only [readHue, this]

theorem atof_percent (n : Lit) : atof (n.text ++ ['%']) = some (n.value, ['%']) :=
  atof_lit n endsNum_percent

theorem numPercNone_tok {t : Tok} {v : Rat} (h : PercTok t v) (r : List Tok) :
    numPercNone 1 (t :: r) = .ok (v, r) := by
  cases h with
  | percent n =>
    have : skipIdent "none".toList (.percent (n.text ++ ['%']) :: r) = none := rfl
    simp only [numPercNone, this, atof_percent, Option.map_some, Option.getD_some]
    rw [Rat.mul_one]

theorem percentOf1_tok {t : Tok} {v : Rat} (h : PercTok t v) (r : List Tok) :
    percentOf1 (t :: r) = .ok (v, r) := by
  cases h with
  | percent n => simp only [percentOf1, atof_percent, Option.map_some, Option.getD_some]

/-- A number or percentage of 1 is read as the integer its 255-fold is rounded to. -/
theorem alphaValue_round {t : Tok} {a : Rat} (h : Writes 1 t a) {round : Rat → Int} {n : Nat}
    (hn : (n : Int) = round (a * 255)) (h256 : n < 256) (r : List Tok) :
    alphaValue round (t :: r) = .ok (n, r) := by
  cases h with
  | number k =>
    simp only [alphaValue, atof_lit_end, ← hn, toU8_nat h256, Res.bind]
  | percent k =>
    simp only [alphaValue, atof_percent, Option.map_some, Option.getD_some]
    have : k.value * 255 / 100 = k.value / 100 * 1 * 255 := by grind
    rw [this, ← hn, toU8_nat h256]
    rfl

theorem alphaModern_round {t : Tok} {a : Rat} (h : Writes 1 t a) {round : Rat → Int} {n : Nat}
    (hn : (n : Int) = round (a * 255)) (h256 : n < 256) (p : Nat) (r : List Tok) :
    alphaModern round (.delim ['/'] :: (gap p ++ t :: r)) = .ok (some n, r) := by
  have hs : skipDelim ['/'] (.delim ['/'] :: (gap p ++ t :: r)) = some (gap p ++ t :: r) := by
    simp [skipDelim, eqCi]
  have hno : skipIdent "none".toList (t :: r) = none := by cases h <;> rfl
  simp only [alphaModern, hs, eatWs_gap, h.eatWs, hno, alphaValue_round h hn h256, Res.bind]

theorem comma_gap (j : Nat) (t : Tok) (r : List Tok) (ht : eatWs (t :: r) = t :: r) :
    comma (.comma :: (gap j ++ t :: r)) = .ok (t :: r) := by
  simp only [comma, skipComma, eatWs_gap, ht]

theorem eatWs_comma (r : List Tok) : eatWs (.comma :: r) = .comma :: r := rfl
theorem eatWs_delim (s : List Char) (r : List Tok) : eatWs (.delim s :: r) = .delim s :: r := rfl

theorem modern_fails {pi : Rat} {round : Rat → Int} {th : Tok} {h : Rat} (hh : HueTok pi th h)
    (i j : Nat) (r : List Tok) :
    hslModern round pi (gap i ++ th :: (gap j ++ .comma :: r)) = .err := by
  have : numPercNone 1 (.comma :: r) = .err := rfl
  simp only [hslModern, eatWs_gap, hh.eatWs, readHue_tok hh, Res.bind, eatWs_comma, this]

theorem hsl_text {pi : Rat} {round : Rat → Int} {content : List Tok} {h s l a : Rat}
    (ht : HslText pi content h s l a) {n : Nat} (hn : (n : Int) = round (a * 255)) (h256 : n < 256)
    (h1 : round 255 = 255) : hslFunc round pi content = .ok ⟨h, s, l, n⟩ := by
  have one : a = 1 → n = 255 := by
    rintro rfl
    rw [Rat.one_mul, h1] at hn
    omega
  cases ht with
  | modern hh hs hl i j k m =>
    simp only [hslFunc, hslModern, eatWs_gap, hh.eatWs, readHue_tok hh, Res.bind, hs.eatWs,
      numPercNone_tok hs, hl.eatWs, numPercNone_tok hl, eatWs_gap', one rfl]
  | modernAlpha hh hs hl ha i j k m p q =>
    simp only [hslFunc, hslModern, eatWs_gap, hh.eatWs, readHue_tok hh, Res.bind, hs.eatWs,
      numPercNone_tok hs, hl.eatWs, numPercNone_tok hl, eatWs_delim, alphaModern_round ha hn h256,
      Option.getD_some]
  | legacy hh hs hl i j j' k k' m =>
    rw [hslFunc, modern_fails hh]
    simp only [hslLegacy, eatWs_gap, hh.eatWs, readHue_tok hh, Res.bind, eatWs_comma,
      comma_gap _ _ _ (hs.eatWs _), percentOf1_tok hs, comma_gap _ _ _ (hl.eatWs _),
      percentOf1_tok hl, eatWs_gap', one rfl]
  | legacyAlpha hh hs hl ha i j j' k k' m m' q =>
    rw [hslFunc, modern_fails hh]
    simp only [hslLegacy, eatWs_gap, hh.eatWs, readHue_tok hh, Res.bind, eatWs_comma,
      comma_gap _ _ _ (hs.eatWs _), percentOf1_tok hs, comma_gap _ _ _ (hl.eatWs _),
      percentOf1_tok hl, comma_gap _ _ _ (ha.eatWs _), alphaValue_round ha hn h256]

/-! ### C212 -/

/-- **C212 (in part).** `hsl()` with a hue in any unit, saturation and lightness in percent and an
    opacity from 0 to 1 or none, in the modern or the older way and spaced in any way, is the colour
    with that hue, that saturation, that lightness and the opacity nearest to the one written. Missing:
    numbers without `%`, opacities out of range or `none` (below). -/
theorem C212_hsl_partial {pi : Rat} {round : Rat → Int} (hround : Nearest round) {content : List Tok}
    {h s l a : Rat} (ht : HslText pi content h s l a) (ha : 0 ≤ a ∧ a ≤ 1) :
    ∃ c, hslFunc round pi content = .ok c ∧ c.h = h ∧ c.s = s ∧ c.l = l ∧ IsNear c.a (a * 255) := by
  obtain ⟨n, hn, h256, hnear⟩ := round_nat (v := a * 255) hround (by grind) (by grind)
  have h1 : round 255 = 255 := round_int hround 255
  exact ⟨_, hsl_text ht hn.symm h256 h1, rfl, rfl, rfl, hnear⟩

/-- `hsl(.5TURN, 100%, 25%, 50%)`, and the same in the modern way. -/
example : ∃ t, HslText 3 t (1 / 2 * 360) 1 (1 / 4) (1 / 2) ∧
    ∃ t', HslText 3 t' (1 / 2 * 360) 1 (1 / 4) (1 / 2) ∧ t.length = 7 ∧ t'.length = 9 := by
  have e1 : (Lit.mk none [0] [5] (by simp)).value = 1 / 2 := by decide +kernel
  have e2 : (natLit 1 [0, 0]).value / 100 = 1 := by decide +kernel
  have e3 : (natLit 2 [5]).value / 100 = 1 / 4 := by decide +kernel
  have e4 : (natLit 5 [0]).value / 100 * 1 = 1 / 2 := by decide +kernel
  have hw : Cased "TURN".toList "turn".toList := eqCi_iff.mp (by decide +kernel)
  have hh := HueTok.turn (pi := 3) (Lit.mk none [0] [5] (by simp)) hw
  have hs := PercTok.percent (natLit 1 [0, 0])
  have hl := PercTok.percent (natLit 2 [5])
  have ha := Writes.percent (whole := 1) (natLit 5 [0])
  rw [e1] at hh; rw [e2] at hs; rw [e3] at hl; rw [e4] at ha
  exact ⟨_, .legacyAlpha hh hs hl ha 0 0 0 0 0 0 0 0, _, .modernAlpha hh hs hl ha 0 1 1 1 1 0, rfl, rfl⟩

/-- False of numbers: `hsl(120 100 50)` is to be `hsl(120 100% 50%)` (CSS Color 4), but its saturation
    is taken to be a hundred times the whole and its lightness fifty times. -/
theorem C212_numbers_fails {pi : Rat} {round : Rat → Int} {th : Tok} {h : Rat} (hh : HueTok pi th h)
    (s l : Lit) (i j k m : Nat) :
    hslFunc round pi (gap i ++ th :: (gap j ++ .number s.text :: (gap k ++ .number l.text :: gap m)))
      = .ok ⟨h, s.value, l.value, 255⟩ := by
  have e : ∀ (x : Lit) (r : List Tok), numPercNone 1 (.number x.text :: r) = .ok (x.value, r) := by
    intro x r
    have : skipIdent "none".toList (.number x.text :: r) = none := rfl
    simp only [numPercNone, this, atof_lit_end]
  have w : ∀ (x : List Char) (r : List Tok), eatWs (.number x :: r) = .number x :: r := fun _ _ => rfl
  simp only [hslFunc, hslModern, eatWs_gap, hh.eatWs, readHue_tok hh, Res.bind, w, e, eatWs_gap']

/-- False of a missing opacity: `hsl(… / none)` is opaque, where `rgb(… / none)` is transparent. -/
theorem C212_none_fails {pi : Rat} {round : Rat → Int} {th ts tl : Tok} {h s l : Rat}
    (hh : HueTok pi th h) (hs : PercTok ts s) (hl : PercTok tl l) :
    hslFunc round pi [th, .ws, ts, .ws, tl, .delim ['/'], .ident "none".toList] = .ok ⟨h, s, l, 255⟩ ∧
    ∀ {r : Lit} {n : Nat}, (n : Int) = round r.value → n < 256 →
      rgbFunc round [.number r.text, .ws, .number r.text, .ws, .number r.text, .delim ['/'],
        .ident "none".toList] = .ok ⟨n, n, n, 0⟩ := by
  have al : alphaModern round [.delim ['/'], .ident "none".toList] = .ok (none, []) := by
    have hs : skipDelim ['/'] [.delim ['/'], .ident "none".toList] = some [.ident "none".toList] := by
      simp [skipDelim, eqCi]
    have hn : skipIdent "none".toList [.ident "none".toList] = some [] := by
      simp [skipIdent, eqCi]
    simp only [alphaModern, hs, eatWs, hn]
  constructor
  · have w : ∀ l : List Tok, eatWs (.ws :: l) = eatWs l := fun _ => rfl
    simp only [hslFunc, hslModern, hh.eatWs, readHue_tok hh, Res.bind, w, hs.eatWs,
      numPercNone_tok hs, hl.eatWs, numPercNone_tok hl, eatWs_delim, al, Option.getD_none]
  · intro r n hn h256
    have e : ∀ l : List Tok, channel round 255 (.number r.text :: l) = .ok (n, eatWs l) := by
      intro l
      have : skipIdent "none".toList (.number r.text :: l) = none := rfl
      simp only [channel, numPercNone, this, atof_lit_end, Res.bind, ← hn]
    have w : ∀ (l : List Tok), eatWs (.number r.text :: l) = .number r.text :: l := fun _ => rfl
    have w' : ∀ l : List Tok, eatWs (.ws :: l) = eatWs l := fun _ => rfl
    simp only [rgbFunc, rgbModern, channels, w, w', e, Res.bind, toU8_nat h256, eatWs_delim, al,
      Option.getD_none]

/-- False of what comes behind: anything may follow the opacity. -/
theorem C212_rest_fails {pi : Rat} {round : Rat → Int} (hround : Nearest round) {th ts tl ta : Tok}
    {h s l a : Rat} (hh : HueTok pi th h) (hs : PercTok ts s) (hl : PercTok tl l) (hta : Writes 1 ta a)
    (ha : 0 ≤ a ∧ a ≤ 1) (junk : List Tok) :
    ∃ n, hslFunc round pi (th :: .ws :: ts :: .ws :: tl :: .delim ['/'] :: ta :: junk)
      = .ok ⟨h, s, l, n⟩ := by
  obtain ⟨n, hn, h256, _⟩ := round_nat (v := a * 255) hround (by grind) (by grind)
  have al := alphaModern_round hta hn.symm h256 0 junk
  simp only [gap, List.replicate_zero, List.nil_append] at al
  have w : ∀ l : List Tok, eatWs (.ws :: l) = eatWs l := fun _ => rfl
  refine ⟨n, ?_⟩
  simp only [hslFunc, hslModern, hh.eatWs, readHue_tok hh, Res.bind, w, hs.eatWs,
    numPercNone_tok hs, hl.eatWs, numPercNone_tok hl, eatWs_delim, al, Option.getD_some]

/-! ### C213 -/

/-- The colours of the engine, as `resolve` takes them; `lerp` mixes in the space it is told. -/
def value {K : Type} (x : Paints K) (lerp : Space → K → K → Rat → K) (white cur : K) :
    Colour → Option K :=
  resolve x.rgba x.hsla x.sys lerp x.fade white cur

theorem mixSide_text {color : List Tok → Out Colour} {t : Tok} {c : Colour}
    (hc : ∀ r, color (t :: r) = (some c, r)) (hp : ∀ s, t ≠ .percent s)
    (hw : ∀ r, eatWs (t :: r) = t :: r) {o : Option Rat}
    {side : List Tok} (hs : SideText t o side) (rest : List Tok)
    (hr : ∀ s r, eatWs rest ≠ .percent s :: r) :
    ∃ rest', mixSide color (side ++ rest) = some ((c, o), rest') ∧ eatWs rest' = eatWs rest := by
  have first : ∀ r, mixSide color (t :: r) =
      (match color (t :: r) with
        | (none, _) => none
        | (some c, r) =>
          match eatWs r with
          | .percent s :: r => some ((c, some (((atof s).map (·.1)).getD 0)), r)
          | r => some ((c, none), r)) := by
    intro r
    unfold mixSide
    split
    · next heq => exact absurd (List.cons.inj heq).1 (hp _)
    · rfl
  cases hs with
  | alone =>
    refine ⟨eatWs rest, ?_, eatWs_eatWs rest⟩
    rw [List.singleton_append, first, hc]
    split
    · next heq => cases heq
    · next heq =>
      obtain ⟨h1, rfl⟩ := (Prod.mk.injEq ..).mp heq
      obtain rfl := Option.some.inj h1
      split
      · next s r he => exact absurd he (hr s r)
      · rfl
  | before n i =>
    refine ⟨rest, ?_, rfl⟩
    rw [List.cons_append, List.append_assoc]
    simp only [mixSide, eatWs_gap, List.singleton_append, hw, hc, atof_percent, Option.map_some,
      Option.getD_some]
  | behind n i =>
    refine ⟨rest, ?_, rfl⟩
    rw [List.cons_append, List.append_assoc, first, hc]
    have : eatWs (gap i ++ ([.percent (n.text ++ ['%'])] ++ rest)) = .percent (n.text ++ ['%']) :: rest := by
      rw [eatWs_gap]; rfl
    simp only [this, atof_percent, Option.map_some, Option.getD_some]

theorem SideText.solid {t : Tok} (hw : ∀ r, eatWs (t :: r) = t :: r) {o : Option Rat} {s : List Tok}
    (hs : SideText t o s) (r : List Tok) : eatWs (s ++ r) = s ++ r := by
  cases hs with
  | alone => exact hw _
  | before n i => rfl
  | behind n i => exact hw _

theorem Means.solid {K : Type} {e : Env} {x : Paints K} {cur k : K} {t : Tok}
    (h : Means e x cur t k) : (∀ s, t ≠ .percent s) ∧ ∀ r, eatWs (t :: r) = t :: r := by
  cases h <;> exact ⟨(fun _ h => nomatch h), fun _ => rfl⟩

/-- **C213 (in part).** A colour that is `currentcolor`, `transparent`, a name, an `hsl()` or a mixture
    in `srgb` of such colours, however deep, each side with a percentage before or behind it or none, is
    the colour it means: mixtures in the proportion of the percentages, transparent as far as they leave
    something, with the colour of the text for `currentcolor`. Missing: other spaces (below). -/
theorem C213_mix_partial {K : Type} {e : Env} (hround : Nearest e.round) (x : Paints K)
    (lerp : Space → K → K → Rat → K) (hlerp : lerp .srgb = x.mix) (white cur k : K) {t : Tok}
    (h : Means e x cur t k) :
    ∃ c depth, value x lerp white cur c = some k ∧
      ∀ fuel, depth ≤ fuel → ∀ rest, readColour e fuel (t :: rest) = (some c, rest) := by
  induction h with
  | @current w h =>
    refine ⟨.current, 1, rfl, ?_⟩
    intro fuel hf rest
    obtain ⟨f, rfl⟩ : ∃ f, fuel = f + 1 := ⟨fuel - 1, by omega⟩
    simp only [readColour, eqCi_iff.mpr h, if_true]
  | @transparent w h =>
    refine ⟨.rgba ⟨0, 0, 0, 0⟩, 1, rfl, ?_⟩
    intro fuel hf rest
    obtain ⟨f, rfl⟩ : ∃ f, fuel = f + 1 := ⟨fuel - 1, by omega⟩
    have h1 : eqCi w "currentcolor".toList = false := by
      rw [h.eqCi_congr]; decide +kernel
    simp only [readColour, eqCi_iff.mpr h, if_true, h1, Bool.false_eq_true, if_false]
  | @named w c h1 h2 h =>
    refine ⟨.rgba c, 1, rfl, ?_⟩
    intro fuel hf rest
    obtain ⟨f, rfl⟩ : ∃ f, fuel = f + 1 := ⟨fuel - 1, by omega⟩
    have e1 : eqCi w "currentcolor".toList = false := by
      rw [← Bool.not_eq_true, eqCi_iff]; exact h1
    have e2 : eqCi w "transparent".toList = false := by
      rw [← Bool.not_eq_true, eqCi_iff]; exact h2
    simp only [readColour, e1, e2, h, Bool.false_eq_true, if_false]
  | @hsl w hw content h s l a ht ha n hn =>
    refine ⟨.hsla ⟨h, s, l, n⟩, 1, rfl, ?_⟩
    intro fuel hf rest
    obtain ⟨f, rfl⟩ : ∃ f, fuel = f + 1 := ⟨fuel - 1, by omega⟩
    obtain ⟨n', hn', h256, _⟩ := round_nat (v := a * 255) hround (by grind) (by grind)
    have : n = n' := by omega
    subst this
    have hh := hsl_text ht hn h256 (round_int hround 255)
    have names : ∀ k ∈ ["hsl(", "hsla("], eqCi k.toList "color-mix(".toList = false ∧
        eqCi k.toList "color(".toList = false ∧ eqCi k.toList "rgb(".toList = false ∧
        eqCi k.toList "rgba(".toList = false ∧
        (eqCi k.toList "hsl(".toList || eqCi k.toList "hsla(".toList) = true := by decide +kernel
    have fn : colourFunc e (readColour e f) w content = some (.hsla ⟨h, s, l, n⟩) := by
      rcases hw with hw | hw
      · have g := names "hsl(" (by simp)
        simp only [colourFunc, hw.eqCi_congr, g.1, g.2.1, g.2.2.1, g.2.2.2.1, g.2.2.2.2, Bool.or_self,
          Bool.false_eq_true, if_false, if_true, hh, ofRes]
      · have g := names "hsla(" (by simp)
        simp only [colourFunc, hw.eqCi_congr, g.1, g.2.1, g.2.2.1, g.2.2.2.1, g.2.2.2.2, Bool.or_self,
          Bool.false_eq_true, if_false, if_true, hh, ofRes]
    simp only [readColour, fn]
  | @mix w win hw hin ta tb a b ha hb lp rp sa sb hsa hsb p q t hpq hp hq hz ht i j k m m' o iha ihb =>
    obtain ⟨ca, da, va, ra⟩ := iha
    obtain ⟨cb, db, vb, rb⟩ := ihb
    obtain ⟨tm, om, e1, e2, _, _, e3⟩ := C104_weights hpq hp hq (by grind)
    have htm : tm = t := by
      have h3 : (tm - t) * (p + q) = 0 := by grind
      rcases Rat.mul_eq_zero.mp h3 with h | h <;> grind
    subst htm
    refine ⟨.mix .srgb ca lp cb rp, max da db + 1, ?_, ?_⟩
    · unfold value at va vb ⊢
      simp only [resolve, va, vb, e1, e3, hlerp]
      split <;> rename_i heq <;> split at heq <;> simp_all
    · intro fuel hf rest
      obtain ⟨f, rfl⟩ : ∃ f, fuel = f + 1 := ⟨fuel - 1, by omega⟩
      have ra' := ra f (by omega)
      have rb' := rb f (by omega)
      have sin : ∀ r, skipIdent "in".toList (.ident win :: r) = some r := by
        intro r; simp only [skipIdent, eqCi_iff.mpr hin, if_true]
      have win' : ∀ r, eatWs (.ident win :: r) = .ident win :: r := fun _ => rfl
      have wsp : ∀ r, eatWs (.ident "srgb".toList :: r) = .ident "srgb".toList :: r := fun _ => rfl
      obtain ⟨r1, m1, g1⟩ := mixSide_text (color := readColour e f) ra' ha.solid.1 ha.solid.2 hsa
        (gap m' ++ .comma :: (gap o ++ sb)) (by
          intro s r; rw [eatWs_gap, eatWs_comma]; simp)
      obtain ⟨r2, m2, g2⟩ := mixSide_text (color := readColour e f) rb' hb.solid.1 hb.solid.2 hsb []
        (by intro s r; simp [eatWs])
      rw [List.append_nil] at m2
      have c1 : commaBetween (gap k ++ .comma :: (gap m ++ sa ++ (gap m' ++ .comma :: (gap o ++ sb))))
          = some (sa ++ (gap m' ++ .comma :: (gap o ++ sb))) := by
        simp only [commaBetween, eatWs_gap, eatWs_comma, skipComma, Option.map_some, List.append_assoc,
          hsa.solid ha.solid.2]
      have c2 : commaBetween r1 = some sb := by
        have := hsb.solid hb.solid.2 []
        rw [List.append_nil] at this
        simp only [commaBetween, g1, eatWs_gap, eatWs_comma, skipComma, Option.map_some, this]
      have fs : fromStr "srgb".toList = .srgb := by decide +kernel
      have hmix : mixFunc (readColour e f) (gap i ++ .ident win :: (gap (j + 1) ++
          .ident "srgb".toList :: (gap k ++ .comma :: (gap m ++ sa ++ (gap m' ++ .comma ::
            (gap o ++ sb)))))) = some (.mix .srgb ca lp cb rp) := by
        simp only [mixFunc, eatWs_gap, win', sin, wsp, c1, m1, c2, m2, fs]
      simp only [readColour, colourFunc, eqCi_iff.mpr hw, if_true, hmix]

/-- `color-mix(in srgb, currentcolor 20%, transparent)`. -/
example (e : Env) (x : Paints Nat) : ∃ t v, Means e x 7 t v ∧ v = x.mix 7 (x.rgba ⟨0, 0, 0, 0⟩) (4 / 5) := by
  have e1 : (natLit 2 [0]).value = 20 := by decide +kernel
  have hs := SideText.behind (t := .ident "currentcolor".toList) (natLit 2 [0]) 1
  rw [e1] at hs
  refine ⟨_, _, Means.mix (Cased.refl _) (Cased.refl _) (.current (Cased.refl _))
    (.transparent (Cased.refl _)) hs .alone (p := 20) (q := 80) (t := 4 / 5) ?_ ?_ ?_ ?_ ?_ 0 0 0 1 0 1, ?_⟩
  · show ((20 : Rat), (100 - 20 : Rat)) = _
    have : (100 - 20 : Rat) = 80 := by decide +kernel
    rw [this]
  · decide +kernel
  · decide +kernel
  · decide +kernel
  · decide +kernel
  · rw [if_neg (by decide +kernel)]

/-- False of the space: whatever space is named, but `lch`, colours are mixed in `srgb`; with `lch` they
    are mixed in `hsl`. So `in hsl` and `in srgb` are the same, and `in oklch` too. -/
theorem C213_space_fails (color : List Tok → Out Colour) (name : List Char) (h : name ≠ "lch".toList)
    (r : List Tok) :
    mixFunc color (.ident "in".toList :: .ws :: .ident name :: r)
      = mixFunc color (.ident "in".toList :: .ws :: .ident "srgb".toList :: r) ∧
    fromStr "lch".toList = .hslShorter ∧ fromStr "hsl".toList = .srgb := by
  have f1 : fromStr name = .srgb := if_neg h
  have f2 : fromStr "srgb".toList = .srgb := by decide +kernel
  refine ⟨?_, by decide +kernel, by decide +kernel⟩
  have sin : ∀ r, skipIdent "in".toList (.ident "in".toList :: r) = some r := by
    intro r; simp [skipIdent, eqCi]
  have w0 : ∀ s r, eatWs (.ident s :: r) = .ident s :: r := fun _ _ => rfl
  have w1 : ∀ r, eatWs (.ws :: r) = eatWs r := fun _ => rfl
  simp only [mixFunc, w0, w1, sin, f1, f2]

/-- False of the way round: a way round the hues (`in hsl longer hue`) makes the mixture invalid. -/
theorem C213_way_round_fails (color : List Tok → Out Colour) (name way : List Char) (r : List Tok) :
    mixFunc color (.ident "in".toList :: .ws :: .ident name :: .ws :: .ident way :: r) = none := by
  have sin : ∀ r, skipIdent "in".toList (.ident "in".toList :: r) = some r := by
    intro r; simp [skipIdent, eqCi]
  have w0 : ∀ s r, eatWs (.ident s :: r) = .ident s :: r := fun _ _ => rfl
  have w1 : ∀ r, eatWs (.ws :: r) = eatWs r := fun _ => rfl
  simp only [mixFunc, w0, w1, sin, commaBetween, skipComma, Option.map_none]

end Verif.Hue
