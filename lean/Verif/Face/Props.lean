import Verif.Face.Lemmas
/-!
# The descriptors of `@font-face`: the properties (C221)
-/
namespace Verif.Face
open Verif.Values Verif.Short
open Spec

/-- **C221**: a face has the family, the sources, the style, the weights, the widths, the metrics and the
manner of waiting that the last descriptor of each kind says, and the usual ones if none says anything;
with one weight and one width, these are what it is registered with.

Missing, with the witnesses below: names of several words, `oblique` with two angles, `font-stretch`,
ranges of weights and widths, `unicode-range`, and `font-family` without a value. -/
theorem C221_face_partial (same14 : Angle → Bool) (ds : List (List Char × List Tok)) (l : List Setting) (h : Block true ds l) :
    ∃ f, faceOf same14 ds = .ok f ∧
      f.family = (lastOf Setting.family? l).getD [] ∧
      f.attrs.family = (lastOf Setting.family? l).getD [] ∧
      f.sources = (lastOf Setting.sources? l).getD [] ∧
      f.attrs.style = (lastOf Setting.slant? l).getD .normal ∧
      f.weight = (lastOf Setting.weight? l).getD (some (400, 400)) ∧
      (∀ w, (lastOf Setting.weight? l).getD (some (400, 400)) = some (w, w) → f.attrs.weight = w) ∧
      f.width = (lastOf Setting.width? l).getD (some (100, 100)) ∧
      (∀ w, (lastOf Setting.width? l).getD (some (100, 100)) = some (w, w) → f.attrs.stretch = w) ∧
      f.display = (lastOf Setting.display? l).getD .auto ∧
      f.adjust = ⟨(lastOf Setting.ascent? l).getD 1, (lastOf Setting.descent? l).getD 1, (lastOf Setting.lineGap? l).getD 1,
        (lastOf Setting.size? l).getD 1⟩ := by
  obtain ⟨l', h1, hm⟩ := block_reads same14 h
  have k1 := fold_field (fun f => f.family) Setting.family? (fun f d x h => by cases d <;> cases x <;> simp_all [Matches, Desc.apply, Setting.family?]) hm {}
  have k2 := fold_field (fun f => f.sources) Setting.sources? (fun f d x h => by cases d <;> cases x <;> simp_all [Matches, Desc.apply, Setting.sources?]) hm {}
  have k3 := fold_field (fun f => f.attrs.style) Setting.slant? (fun f d x h => by
    cases d <;> cases x <;> first | exact h | simp_all [Matches, Desc.apply, Setting.slant?, Face.attrs]) hm {}
  have k4 := fold_field (fun f => f.weight) Setting.weight? (fun f d x h => by cases d <;> cases x <;> simp_all [Matches, Desc.apply, Setting.weight?]) hm {}
  have k5 := fold_field (fun f => f.width) Setting.width? (fun f d x h => by cases d <;> cases x <;> simp_all [Matches, Desc.apply, Setting.width?]) hm {}
  have k6 := fold_field (fun f => f.display) Setting.display? (fun f d x h => by cases d <;> cases x <;> simp_all [Matches, Desc.apply, Setting.display?]) hm {}
  have k7 := fold_field (fun f => f.adjust.ascent) Setting.ascent? (fun f d x h => by cases d <;> cases x <;> simp_all [Matches, Desc.apply, Setting.ascent?, Face.adjust]) hm {}
  have k8 := fold_field (fun f => f.adjust.descent) Setting.descent? (fun f d x h => by cases d <;> cases x <;> simp_all [Matches, Desc.apply, Setting.descent?, Face.adjust]) hm {}
  have k9 := fold_field (fun f => f.adjust.lineGap) Setting.lineGap? (fun f d x h => by cases d <;> cases x <;> simp_all [Matches, Desc.apply, Setting.lineGap?, Face.adjust]) hm {}
  have k10 := fold_field (fun f => f.adjust.size) Setting.size? (fun f d x h => by cases d <;> cases x <;> simp_all [Matches, Desc.apply, Setting.size?, Face.adjust]) hm {}
  refine ⟨_, by rw [faceOf, h1], k1, k1, k2, k3, k4, fun w hw => ?_, k5, fun w hw => ?_, k6, ?_⟩
  · simp only [Face.attrs]; rw [k4.trans hw]
  · simp only [Face.attrs]; rw [k5.trans hw]
  · have e0 : ({} : Face).adjust = ⟨1, 1, 1, 1⟩ := by decide +kernel
    rw [e0] at k7 k8 k9 k10
    rw [← k7, ← k8, ← k9, ← k10]

/-- `font-family: A; src: url(u); font-weight: 400 700; FONT-STYLE: italic; font-family: "B"; x: y;
size-adjust: 90%; font-style: , ; font-display: swap; font-width: condensed` -/
example : Block true
    [("font-family".toList, [.ident ['A']]), ("src".toList, [.url ['u']]), ("font-weight".toList, [.ident "normal".toList, .ident "bold".toList]),
     ("font-STYLE".toList, [.ident "Italic".toList]), ("font-family".toList, [.str ['B']]), (['x'], [.ident ['y']]),
     ("size-adjust".toList, [.percent ((natLit 9 [0]).text ++ ['%'])]), ("font-style".toList, [.comma]),
     ("font-display".toList, [.ident "swap".toList]), ("font-width".toList, [.ident "condensed".toList]), ("src".toList, [])]
    [.family ['A'], .sources [.url ['u'] none], .weight (some (400, 700)), .slant .italic, .family ['B'], .size ((natLit 9 [0]).value / 100),
     .display .swap, .width (some (75, 75))] := by
  refine .says (k := "font-family") (Cased.refl _) (.family .word (fun _ => rfl)) ?_
  refine .says (k := "src") (Cased.refl _) (.sources (.one (.url .plain))) ?_
  refine .says (k := "font-weight") (Cased.refl _) (.weight (.two (.normal (.mk (Cased.refl _))) (.bold (.mk (Cased.refl _))))) ?_
  refine .says (k := "font-style") (eqCi_iff.1 (by decide +kernel)) (.italic (.mk (eqCi_iff.1 (by decide +kernel)))) ?_
  refine .says (k := "font-family") (Cased.refl _) (.family .str (fun _ => rfl)) ?_
  refine .unknown (fun k hk hc => ?_) ?_
  · have : ∀ k ∈ names, eqCi ['x'] k.toList = false := by decide +kernel
    exact absurd (eqCi_iff.2 hc) (by rw [this k hk]; simp)
  refine .says (k := "size-adjust") (Cased.refl _) (.size (.mk _ (by decide +kernel))) ?_
  refine .invalid .comma ?_
  refine .says (k := "font-display") (Cased.refl _) (.display (k := "swap") (by decide +kernel) (.mk (Cased.refl _))) ?_
  refine .says (k := "font-width") (Cased.refl _) (.width (.one (.word (k := "condensed") (by decide +kernel) (.mk (Cased.refl _))))) ?_
  exact .empty (fun _ hc => by have := eqCi_iff.2 hc; revert this; decide +kernel) .nil

/-- **C221 is false as stated**: a name of several words is refused, and the face has no name. -/
theorem C221_words_fails (same14 : Angle → Bool) (a b : List Char) :
    Block false [("font-family".toList, [.ident a, .ident b])] [.family (a ++ ' ' :: b)] ∧
    faceOf same14 [("font-family".toList, [.ident a, .ident b])] = .ok {} :=
  ⟨.says (k := "font-family") (Cased.refl _) (.family (.more (ts := [.ident a]) .word (by simp)) (by simp)) .nil, rfl⟩

/-- **C221 is false as stated**: `font-stretch` is ignored, whatever it says. -/
theorem C221_stretch_fails (same14 : Angle → Bool) (ts : List Tok) (w : Option (Rat × Rat)) (h : Pair WidthTok ts w) :
    Block false [("font-stretch".toList, ts)] [.width w] ∧ faceOf same14 [("font-stretch".toList, ts)] = .ok {} :=
  ⟨.says (k := "font-stretch") (Cased.refl _) (.stretch rfl h) .nil, rfl⟩

/-- **C221 is false as stated**: of two angles the second is not read, and the descriptor is refused; if
the first is 14 degrees the face is upright. -/
theorem C221_angles_fails (same14 : Angle → Bool) (t a b : Tok) (ht : Word "oblique" t) (ha : AngleTok a) (hb : AngleTok b) :
    Block false [("font-style".toList, [t, a, b])] [.slant .oblique] ∧
    ∃ f, faceOf same14 [("font-style".toList, [t, a, b])] = .ok f ∧ f.attrs.style = .normal := by
  refine ⟨.says (k := "font-style") (Cased.refl _) (.angles rfl ht ha hb) .nil, ?_⟩
  obtain ⟨x, hx⟩ := angle_reads ha [b]
  obtain ⟨y, hy⟩ := angle_reads hb []
  have : ∃ o, parseDesc same14 "font-style".toList [t, a, b] = .ok o ∧ (o = none ∨ o = some (.style (.range x y))) := by
    rw [desc_style, word_ne_ws ht, style_oblique same14 ht, hx]
    simp only [hy]
    split
    · exact ⟨_, rfl, .inr rfl⟩
    · exact ⟨_, rfl, .inl rfl⟩
  obtain ⟨o, h1, h2⟩ := this
  refine ⟨_, by rw [faceOf, parseAll, h1]; rfl, ?_⟩
  rcases h2 with rfl | rfl <;> rfl

/-- **C221 is false as stated**: of a range of weights or widths only the start is used: a face for the
weights from `a` to `b` is registered as one for `a`. -/
theorem C221_widths_fails (same14 : Angle → Bool) (t t' : Tok) (a b : Rat) (ha : WidthTok t a) (hb : WidthTok t' b) :
    Block true [("font-width".toList, [t, t'])] [.width (some (a, b))] ∧
    ∃ f, faceOf same14 [("font-width".toList, [t, t'])] = .ok f ∧ f.attrs.stretch = a := by
  refine ⟨.says (k := "font-width") (Cased.refl _) (.width (.two ha hb)) .nil, { width := some (a, b) }, ?_, rfl⟩
  have h1 : parseDesc same14 "font-width".toList [t, t'] = .ok (some (.width (some (a, b)))) := by
    rw [desc_width, pair_reads (f := parseFWidth) rfl (fun _ _ => width_reads) (.two ha hb)]; rfl
  rw [faceOf, parseAll, h1]; rfl

/-- **C221 is false as stated**: the same for weights. -/
theorem C221_range_fails (same14 : Angle → Bool) (t t' : Tok) (a b : Int) (ha : WeightTok t a) (hb : WeightTok t' b) :
    Block true [("font-weight".toList, [t, t'])] [.weight (some (a, b))] ∧
    ∃ f g, faceOf same14 [("font-weight".toList, [t, t'])] = .ok f ∧ faceOf same14 [("font-weight".toList, [t])] = .ok g ∧ f.attrs = g.attrs := by
  refine ⟨.says (k := "font-weight") (Cased.refl _) (.weight (.two ha hb)) .nil, ?_⟩
  have h1 : parseDesc same14 "font-weight".toList [t, t'] = .ok (some (.weight (some (a, b)))) := by
    rw [desc_weight, pair_reads (f := parseAbsWeight) rfl (fun _ _ => weight_reads) (.two ha hb)]; rfl
  have h2 : parseDesc same14 "font-weight".toList [t] = .ok (some (.weight (some (a, a)))) := by
    rw [desc_weight, pair_reads (f := parseAbsWeight) rfl (fun _ _ => weight_reads) (.one ha)]; rfl
  exact ⟨{ weight := some (a, b) }, { weight := some (a, a) }, by rw [faceOf, parseAll, h1]; rfl, by rw [faceOf, parseAll, h2]; rfl, rfl⟩

/-- **C221 is false as stated**: `unicode-range`, and the settings of features and variations, are ignored. -/
theorem C221_unicode_fails (same14 : Angle → Bool) (ts : List Tok) (ds : List (List Char × List Tok)) :
    ∀ k ∈ ["unicode-range", "font-feature-settings", "font-variation-settings"],
      faceOf same14 ((k.toList, ts) :: ds) = faceOf same14 ds := by
  have : ∀ k ∈ ["unicode-range", "font-feature-settings", "font-variation-settings"], parseDesc same14 k.toList ts = .ok none := by
    intro k hk
    simp only [List.mem_cons, List.not_mem_nil, or_false] at hk
    rcases hk with rfl | rfl | rfl <;> rfl
  intro k hk
  rw [faceOf, faceOf, parseAll, this k hk]
  cases parseAll same14 ds <;> rfl

/-- **C221**: a face counts if it has a name and a source. -/
theorem C221_valid (same14 : Angle → Bool) (ds : List (List Char × List Tok)) (l : List Setting) (h : Block true ds l) :
    ∃ f, faceOf same14 ds = .ok f ∧
      (f.valid = true ↔ (lastOf Setting.family? l).getD [] ≠ [] ∧ (lastOf Setting.sources? l).getD [] ≠ []) := by
  obtain ⟨f, h1, h2, -, h3, -⟩ := C221_face_partial same14 ds l h
  refine ⟨f, h1, ?_⟩
  rw [← h2, ← h3]
  simp [Face.valid]

/-- **C221**: a weight below nought or above 1000 says nothing. -/
theorem C221_weight_limits (same14 : Angle → Bool) (ds : List (Fin 10)) (h : ds ≠ []) :
    (1000 < decimal ds → faceOf same14 [("font-weight".toList, [.number (ds.map digitChar)])] = .ok {}) ∧
    (0 < decimal ds → faceOf same14 [("font-weight".toList, [.number ('-' :: ds.map digitChar)])] = .ok {}) := by
  have key : ∀ s n, wholeInt s = some n → n < 0 ∨ n > 1000 →
      faceOf same14 [("font-weight".toList, [.number s])] = .ok {} := by
    intro s n h1 h2
    have : parseAbsWeight [.number s] = (none, []) := by
      unfold parseAbsWeight
      rw [skipAny_none _ (fun w r' e => by cases e)]
      simp only [parseInteger, h1]
      rw [if_pos h2]
    have hd : parseDesc same14 "font-weight".toList [.number s] = .ok none := by
      rw [desc_weight]
      show whole Desc.weight (parseRange parseAbsWeight [.number s]) = _
      unfold parseRange
      rw [show skipIdent "auto".toList [Tok.number s] = none from rfl]
      simp only [this]
      rfl
    rw [faceOf, parseAll, hd]
    rfl
  refine ⟨fun hb => key _ _ (wholeInt_digits h) (.inr (by omega)), fun hb => key _ (-(decimal ds : Int)) ?_ (.inl (by omega))⟩
  have h0 := wholeInt_digits h
  have hs : readSign ('-' :: ds.map digitChar) = (true, ds.map digitChar) := rfl
  have ha : (ds.map digitChar).all Char.isDigit = true := by
    rw [List.all_eq_true]
    intro c hc
    obtain ⟨d, _, rfl⟩ := List.mem_map.1 hc
    exact digitChar_isDigit d
  have he : (ds.map digitChar).isEmpty = false := by
    cases ds with
    | nil => exact absurd rfl h
    | cons d ds => rfl
  unfold wholeInt
  simp only [hs, ha, he, Bool.not_true, Bool.or_false, Bool.false_eq_true, if_false, if_true, digitsVal_eq]

/-- **C221 is false as stated**: a face whose weight is that of its file is registered with the normal weight, and so for
the width. -/
theorem C221_auto_fails (same14 : Angle → Bool) (t : Tok) (h : Word "auto" t) :
    Block true [("font-weight".toList, [t]), ("font-width".toList, [t])] [.weight none, .width none] ∧
    ∃ f, faceOf same14 [("font-weight".toList, [t]), ("font-width".toList, [t])] = .ok f ∧
      f.weight = none ∧ f.width = none ∧ f.attrs.weight = 400 ∧ f.attrs.stretch = 100 := by
  have hb : Block true [("font-weight".toList, [t]), ("font-width".toList, [t])] [.weight none, .width none] :=
    .says (k := "font-weight") (Cased.refl _) (.weight (.auto h)) (.says (k := "font-width") (Cased.refl _) (.width (.auto h)) .nil)
  obtain ⟨f, h1, -, -, -, -, h5, -, h7, -⟩ := C221_face_partial same14 _ _ hb
  have h5 : f.weight = none := h5
  have h7 : f.width = none := h7
  refine ⟨hb, f, h1, h5, h7, ?_, ?_⟩
  · simp only [Face.attrs, h5]
  · simp only [Face.attrs, h7]

/-- **C221 is false as stated**: a percentage that is negative is taken. -/
theorem C221_negative_fails (same14 : Angle → Bool) :
    ∃ f, faceOf same14 [("size-adjust".toList, [.percent "-50%".toList])] = .ok f ∧ f.adjust.size = -1/2 :=
  ⟨_, rfl, by decide +kernel⟩

/-- **C221 is false as stated**: `font-family` without a value reads where there is nothing. -/
theorem C221_empty_fails (same14 : Angle → Bool) (ds : List (List Char × List Tok)) (l : List Setting) (h : Block false ds l) :
    Block false (("font-family".toList, []) :: ds) l ∧ faceOf same14 (("font-family".toList, []) :: ds) = .crash :=
  ⟨.empty (by simp) h, rfl⟩

end Verif.Face
