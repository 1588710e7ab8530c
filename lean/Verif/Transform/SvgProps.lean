import Verif.Transform.Props

/-!
# Transforms: the attribute of SVG (C178)
-/

namespace Verif.Transform
open Verif.Values Verif.Short Spec

theorem addUnit_gaps (u : String) (n : Nat) : (gaps n).map (addUnit u) = gaps n := by
  simp [gaps, addUnit]

theorem args_addUnit (u : String) {c ts : List Tok} (h : Args c ts) :
    Args (c.map (addUnit u)) (ts.map (addUnit u)) := by
  cases h with
  | mk n h =>
    rw [List.map_append, addUnit_gaps]
    refine .mk n ?_
    induction h with
    | last m => rw [List.map_cons, addUnit_gaps]; exact .last m
    | more hs _ ih =>
      rw [List.map_cons, List.map_append]
      refine .more ?_ ih
      cases hs with
      | space m => rw [addUnit_gaps]; exact .space m
      | comma m k =>
        rw [List.map_append, List.map_cons, addUnit_gaps, addUnit_gaps]; exact .comma m k

theorem literal_px {w v : Rat} {t : Tok} (h : Literal t v) : Amount w (addUnit "px" t) v := by
  cases h with
  | mk n =>
    have := Amount.abs (w := w) n (k := "px") (u := .px) (per := 96) (s := "px".toList)
      (by decide +kernel) (Cased.refl _)
    have e : n.value * 96 / 96 = n.value := by grind
    rwa [e] at this

theorem literal_deg {pi v : Rat} {t : Tok} (h : Literal t v) :
    Ang pi (addUnit "deg" t) (v * (pi / 180)) := by
  cases h with
  | mk n => exact .unit (.mk n (k := "deg") (by simp [radians]) (Cased.refl _))

/-- What the units are added to, by name. -/
theorem fixUnits_px {nm : List Char} (h : Cased nm "translate(".toList) (c : List Tok) :
    fixUnits (.func nm c) = .func nm (c.map (addUnit "px")) := by
  have e : eqCi "translate(".toList "translate(".toList = true := by decide +kernel
  simp only [fixUnits, h.eqCi_congr, e, if_true]

theorem fixUnits_deg {nm : List Char} (h : Cased nm "rotate(".toList ∨ Cased nm "skewx(".toList ∨
    Cased nm "skewy(".toList) (c : List Tok) :
    fixUnits (.func nm c) = .func nm (c.map (addUnit "deg")) := by
  have e1 : eqCi "rotate(".toList "translate(".toList = false := by decide +kernel
  have e2 : eqCi "rotate(".toList "rotate(".toList = true := by decide +kernel
  have e3 : eqCi "skewx(".toList "translate(".toList = false := by decide +kernel
  have e4 : eqCi "skewx(".toList "skewX(".toList = true := by decide +kernel
  have e5 : eqCi "skewy(".toList "translate(".toList = false := by decide +kernel
  have e6 : eqCi "skewy(".toList "skewY(".toList = true := by decide +kernel
  rcases h with h | h | h
  · simp only [fixUnits, h.eqCi_congr, e1, e2, Bool.true_or, if_true, Bool.false_eq_true, if_false]
  · simp only [fixUnits, h.eqCi_congr, e3, e4, Bool.or_true, Bool.true_or, if_true,
      Bool.false_eq_true, if_false]
  · simp only [fixUnits, h.eqCi_congr, e5, e6, Bool.or_true, if_true, Bool.false_eq_true, if_false]

theorem fixUnits_same {nm : List Char} (h : Cased nm "matrix(".toList ∨ Cased nm "scale(".toList)
    (c : List Tok) : fixUnits (.func nm c) = .func nm c := by
  have e : ∀ k ∈ ["matrix(", "scale("], ∀ k' ∈ ["translate(", "rotate(", "skewX(", "skewY("],
      eqCi k.toList k'.toList = false := by decide +kernel
  rcases h with h | h
  · simp only [fixUnits, h.eqCi_congr, e "matrix(" (by simp) "translate(" (by simp),
      e "matrix(" (by simp) "rotate(" (by simp), e "matrix(" (by simp) "skewX(" (by simp),
      e "matrix(" (by simp) "skewY(" (by simp), Bool.or_false, Bool.false_eq_true, if_false]
  · simp only [fixUnits, h.eqCi_congr, e "scale(" (by simp) "translate(" (by simp),
      e "scale(" (by simp) "rotate(" (by simp), e "scale(" (by simp) "skewX(" (by simp),
      e "scale(" (by simp) "skewY(" (by simp), Bool.or_false, Bool.false_eq_true, if_false]

theorem literal_num {t : Tok} {v : Rat} (h : Literal t v) : Num t v := .lit h

theorem svgMoves_fix {t : Trig} {w h : Rat} {k : Tok} {f : Pt → Pt} (hm : SvgMoves t k f) :
    Moves t w h (fixUnits k) f := by
  cases hm with
  | matrix hn hc h1 h2 h3 h4 h5 h6 =>
    rw [fixUnits_same (.inl hn)]
    exact .matrix hn hc (.lit h1) (.lit h2) (.lit h3) (.lit h4) (.lit h5) (.lit h6)
  | translate hn hc hx hy =>
    rw [fixUnits_px hn]
    exact .translate hn (args_addUnit "px" hc) (literal_px hx) (literal_px hy)
  | translate1 hn hc hx =>
    rw [fixUnits_px hn]
    exact .translate1 hn (args_addUnit "px" hc) (literal_px hx)
  | scale hn hc hx hy =>
    rw [fixUnits_same (.inr hn)]
    exact .scale hn hc (.lit hx) (.lit hy)
  | scale1 hn hc hx =>
    rw [fixUnits_same (.inr hn)]
    exact .scale1 hn hc (.lit hx)
  | rotate hn hc ha =>
    rw [fixUnits_deg (.inl hn)]
    exact .rotate hn (args_addUnit "deg" hc) (literal_deg ha)
  | skewX hn hc ha =>
    rw [fixUnits_deg (.inr (.inl hn))]
    exact .skewX hn (args_addUnit "deg" hc) (literal_deg ha)
  | skewY hn hc ha =>
    rw [fixUnits_deg (.inr (.inr hn))]
    exact .skewY hn (args_addUnit "deg" hc) (literal_deg ha)

/-! ## Rotations with a centre -/

theorem threeNumbers_one {c : List Tok} {ta : Tok} {a : Rat} (hc : Args c [ta]) (ha : Literal ta a) :
    threeNumbers c = none := by
  obtain ⟨hs, hr, -⟩ := literal_reads (α := Rat) ha
  obtain ⟨r, e, hf⟩ := eatWs_args hc hs
  unfold threeNumbers
  rw [e, hr r]
  cases hf with
  | last n => simp only [skipComma_sp]; rfl
  | more _ h => cases h

theorem threeNumbers_three {c : List Tok} {ta tx ty : Tok} {a x y : Rat} (hc : Args c [ta, tx, ty])
    (ha : Literal ta a) (hx : Literal tx x) (hy : Literal ty y) :
    threeNumbers c = some (a, x, y) := by
  obtain ⟨hs, hr, -⟩ := literal_reads (α := Rat) ha
  obtain ⟨hs', hr', -⟩ := literal_reads (α := Rat) hx
  obtain ⟨hs'', hr'', -⟩ := literal_reads (α := Rat) hy
  obtain ⟨r, e, hf⟩ := eatWs_args hc hs
  unfold threeNumbers
  rw [e, hr r]
  cases hf with
  | more h1 hf =>
    obtain ⟨r1, rfl⟩ := argsFrom_cons hf
    simp only [skipComma_sep h1 hs', hr' r1]
    cases hf with
    | more h2 hf =>
      obtain ⟨r2, rfl⟩ := argsFrom_cons hf
      simp only [skipComma_sep h2 hs'', hr'' r2]
      cases hf with
      | last n => simp only [eatWs_sp']; rfl
      | more _ h => cases h

theorem rotateAbout_before (t : Trig) (a x y : Rat) : rotateAbout t .before a x y =
    ⟨t.cos (a * (t.pi / 180)), t.sin (a * (t.pi / 180)), -t.sin (a * (t.pi / 180)),
      t.cos (a * (t.pi / 180)),
      x - x * t.cos (a * (t.pi / 180)) + y * t.sin (a * (t.pi / 180)),
      y - x * t.sin (a * (t.pi / 180)) - y * t.cos (a * (t.pi / 180))⟩ := by
  have e : a * t.pi / 180 = a * (t.pi / 180) := by grind
  simp only [rotateAbout, Mat.add, Mat.identity, Mat.translate, Mat.rotate, Mat.multiply, e,
    Mat.mk.injEq]
  refine ⟨?_, ?_, ?_, ?_, ?_, ?_⟩ <;> grind

theorem exact_literal {fmt : Rat → List Char} {q : Rat} (h : Exact fmt q) :
    Literal (.number (fmt q)) q := by
  obtain ⟨n, hn, hv⟩ := h
  rw [hn, ← hv]
  exact .mk n

theorem expandRotate_turn {t : Trig} {fmt : Rat → List Char} {w h : Rat} {k : Tok} {f : Pt → Pt}
    (hk : Turns t fmt k f) (r : List Tok) : ∃ k', expandRotate t .before fmt (k :: r) =
      k' :: expandRotate t .before fmt r ∧ Moves t w h (fixUnits k') f := by
  cases hk with
  | @mk nm c ta tx ty a x y cos sin hn hc ha hx hy ec es h1 h2 h3 h4 h5 =>
    have e : eqCi "rotate(".toList "rotate(".toList = true := by decide +kernel
    refine ⟨matrixTok fmt (rotateAbout t .before a x y), ?_, ?_⟩
    · simp only [expandRotate, hn.eqCi_congr, e, if_true, threeNumbers_three hc ha hx hy]
    · have g : (about (x, y) fun p => (p.1 * cos - p.2 * sin, p.1 * sin + p.2 * cos)) =
          fun p => (cos * p.1 + -sin * p.2 + (x - x * cos + y * sin),
            sin * p.1 + cos * p.2 + (y - x * sin - y * cos)) := by
        funext p
        simp only [about, Prod.mk.injEq]
        constructor <;> grind
      rw [g, rotateAbout_before, ← ec, ← es, matrixTok, fixUnits_same (.inl (Cased.refl _))]
      refine .matrix (Cased.refl _) (.mk 0 (.more (.comma 0 1) (.more (.comma 0 1)
        (.more (.comma 0 1) (.more (.comma 0 1) (.more (.comma 0 1) (.last 0)))))))
        (.lit (exact_literal h1)) (.lit (exact_literal h2)) (.lit (exact_literal h3))
        (.lit (exact_literal h1)) (.lit (exact_literal h4)) (.lit (exact_literal h5))

theorem not_eqCi {nm k : List Char} (h : ¬ Cased nm k) : eqCi nm k = false := by
  cases hb : eqCi nm k with
  | false => rfl
  | true => exact absurd (eqCi_iff.1 hb) h

theorem svgMoves_func {t : Trig} {k : Tok} {f : Pt → Pt} (h : SvgMoves t k f) :
    ∃ nm c, k = .func nm c := by
  cases h <;> exact ⟨_, _, rfl⟩

/-- A rotation without a centre stays as it is, and all behind it; each other function too. -/
theorem expandRotate_move {t : Trig} {o : Order} {fmt : Rat → List Char} {k : Tok} {f : Pt → Pt}
    (h : SvgMoves t k f) (r : List Tok) :
    expandRotate t o fmt (k :: r) = k :: r ∨
      expandRotate t o fmt (k :: r) = k :: expandRotate t o fmt r := by
  obtain ⟨nm, c, rfl⟩ := svgMoves_func h
  by_cases hn : Cased nm "rotate(".toList
  · left
    have e : eqCi "rotate(".toList "rotate(".toList = true := by decide +kernel
    have hne : ∀ k ∈ ["matrix(", "translate(", "scale(", "skewx(", "skewy("],
        eqCi k.toList "rotate(".toList = false := by decide +kernel
    have no : ∀ k ∈ ["matrix(", "translate(", "scale(", "skewx(", "skewy("], ¬ Cased nm k.toList := by
      intro k hk hc
      have := hne k hk
      rw [← hc.eqCi_congr, eqCi_iff.2 hn] at this
      cases this
    cases h with
    | rotate _ hc ha =>
      simp only [expandRotate, hn.eqCi_congr, e, if_true, threeNumbers_one hc ha]
    | matrix hn' => exact absurd hn' (no "matrix(" (by simp))
    | translate hn' => exact absurd hn' (no "translate(" (by simp))
    | translate1 hn' => exact absurd hn' (no "translate(" (by simp))
    | scale hn' => exact absurd hn' (no "scale(" (by simp))
    | scale1 hn' => exact absurd hn' (no "scale(" (by simp))
    | skewX hn' => exact absurd hn' (no "skewx(" (by simp))
    | skewY hn' => exact absurd hn' (no "skewy(" (by simp))
  · right
    simp only [expandRotate, not_eqCi hn, Bool.false_eq_true, if_false]

theorem noTurns_expand {t : Trig} {o : Order} {fmt : Rat → List Char} {ks : List Tok}
    {fs : List (Pt → Pt)} (h : NoTurns t ks fs) : expandRotate t o fmt ks = ks := by
  induction h with
  | nil => rfl
  | cons hk _ ih =>
    rcases expandRotate_move (o := o) (fmt := fmt) hk _ with e | e
    · exact e
    · rw [e, ih]

theorem noTurns_all {t : Trig} {w h : Rat} {ks : List Tok} {fs : List (Pt → Pt)}
    (hk : NoTurns t ks fs) : AllMoves t w h (ks.map fixUnits) fs := by
  induction hk with
  | nil => exact .nil
  | cons hm _ ih => exact .cons (svgMoves_fix hm) ih

theorem attribute_all {t : Trig} {fmt : Rat → List Char} {w h : Rat} {as bs : List Tok}
    {fs gs : List (Pt → Pt)} (ha : OnlyTurns t fmt as fs) (hb : NoTurns t bs gs) :
    AllMoves t w h ((expandRotate t .before fmt (as ++ bs)).map fixUnits) (fs ++ gs) := by
  induction ha with
  | nil =>
    rw [List.nil_append, noTurns_expand hb]
    exact noTurns_all hb
  | move hm hn _ ih =>
    simp only [List.cons_append, expandRotate, not_eqCi hn, Bool.false_eq_true, if_false,
      List.map_cons]
    exact .cons (svgMoves_fix hm) ih
  | turn hk _ ih =>
    obtain ⟨k', e, hm⟩ := expandRotate_turn (w := w) (h := h) hk _
    rw [List.cons_append, e, List.map_cons]
    exact .cons hm ih

theorem origin_zero : ∃ off, declared parseOrigin [.number ['0'], .number ['0']] = some off ∧
    ∀ box, originOf box off = some (box.x + 0, box.y + 0) := by
  refine ⟨(.calc noLength, .calc noLength), by decide +kernel, fun box => ?_⟩
  simp only [originOf, originX, originY, noLength_zero, Option.map_some]

/-- **C178 (in part).** The attribute `transform` of an SVG element places each point where its
functions, the last one first, move it; seen from the corner of the reference box, which the style
sheet of the user agent makes the origin.  Each rotation with a centre has to stand before each
rotation without one: see `C178_mixed_fails`.  It is assumed that Karm's `translated` and
`rotated` put what they add before the rest: see `C178_centre`. -/
theorem C178_list_partial (t : Trig) (fmt : Rat → List Char) (box : Rect) {as bs : List Tok}
    {fs gs : List (Pt → Pt)} (hne : as ++ bs ≠ []) (ha : OnlyTurns t fmt as fs)
    (hb : NoTurns t bs gs) (p : Pt) :
    placeAttr t .before fmt box (as ++ bs) p =
      some (about (box.x, box.y) (after (fs ++ gs)) p) := by
  obtain ⟨off, ho, hv⟩ := origin_zero
  have hall := attribute_all (w := box.width) (h := box.height) ha hb
  have hne' : (expandRotate t .before fmt (as ++ bs)).map fixUnits ≠ [] := by
    intro e
    rw [e] at hall
    have : fs ++ gs = [] := by cases h : fs ++ gs with
      | nil => rfl
      | cons _ _ => rw [h] at hall; cases hall
    have h1 := List.append_eq_nil_iff.1 this
    rw [h1.1] at ha
    rw [h1.2] at hb
    cases ha
    cases hb
    exact hne rfl
  obtain ⟨fns, hf, hd⟩ := parseTransform_list hne' hall
  obtain ⟨m, hr, ha'⟩ := resolveTransform_does (box.x + 0, box.y + 0) hd
  unfold placeAttr parseAttribute
  rw [hf, ho]
  simp only [applyTransform, hv, hr, Option.map_some, ha']
  have e : ((box.x + 0, box.y + 0) : Pt) = (box.x, box.y) := by
    refine Prod.ext ?_ ?_ <;> simp only <;> grind
  rw [e]

/-- How the numbers of the example are written. -/
def digits (q : Rat) : List Char :=
  if q = 1 then "1".toList else if q = 0 then "0".toList else if q = -1 then "-1".toList
  else if q = 12 then "12.0".toList else "-8".toList

/-- `scale(2) rotate(90, 10, 2)`, and then `rotate(45)` without a centre. -/
example : OnlyTurns quarter digits
      [.func "scale(".toList [.number ['2']],
       .func "rotate(".toList [.number "90".toList, .comma, .ws, .number "10".toList, .comma, .ws,
        .number ['2']]]
      [fun p => (2 * p.1, 2 * p.2), about (10, 2) fun p => (p.1 * 0 - p.2 * 1, p.1 * 1 + p.2 * 0)] ∧
    ∃ f, NoTurns quarter [.func "rotate(".toList [.number "45".toList]] [f] := by
  have lit : ∀ (n : Lit) (s : List Char) (q : Rat), n.text = s → n.value = q →
      Literal (.number s) q := by
    intro n s q h1 h2; rw [← h1, ← h2]; exact .mk n
  have l2 : Literal (.number ['2']) 2 := lit (natLit 2 []) _ _ (by decide +kernel) (by decide +kernel)
  have l10 : Literal (.number "10".toList) 10 :=
    lit (natLit 1 [0]) _ _ (by decide +kernel) (by decide +kernel)
  have l90 : Literal (.number "90".toList) 90 :=
    lit (natLit 9 [0]) _ _ (by decide +kernel) (by decide +kernel)
  have l45 : Literal (.number "45".toList) 45 :=
    lit (natLit 4 [5]) _ _ (by decide +kernel) (by decide +kernel)
  refine ⟨.move (.scale1 (Cased.refl _) (.mk 0 (.last 0)) l2) ?_ (.turn ?_ .nil), _,
    .cons (.rotate (Cased.refl _) (.mk 0 (.last 0)) l45) .nil⟩
  · intro h
    have := eqCi_iff.2 h
    revert this
    decide +kernel
  · refine .mk (Cased.refl _) (.mk 0 (.more (.comma 0 1) (.more (.comma 0 1) (.last 0)))) l90 l10 l2
      (by decide +kernel) (by decide +kernel) ?_ ?_ ?_ ?_ ?_
    · exact ⟨natLit 0 [], by decide +kernel, by decide +kernel⟩
    · exact ⟨natLit 1 [], by decide +kernel, by decide +kernel⟩
    · exact ⟨⟨some true, [1], [], .inl (by simp)⟩, by decide +kernel, by decide +kernel⟩
    · exact ⟨⟨none, [1, 2], [0], .inl (by simp)⟩, by decide +kernel, by decide +kernel⟩
    · exact ⟨⟨some true, [8], [], .inl (by simp)⟩, by decide +kernel, by decide +kernel⟩

/-- **C178.** A rotation about a point leaves that point where it is, if Karm's `translated` and
`rotated` put what they add before the rest. -/
theorem C178_centre (t : Trig) (a x y : Rat) :
    (rotateAbout t .before a x y).apply (x, y) = (x, y) := by
  rw [rotateAbout_before]
  simp only [Mat.apply, Prod.mk.injEq]
  constructor <;> grind

/-- If they put it behind the rest, a rotation turns about another point. -/
theorem C178_centre_behind_fails : ¬ ∀ t a x y, (rotateAbout t .behind a x y).apply (x, y) = (x, y) := by
  intro h
  have := h quarter 90 1 0
  revert this
  decide +kernel

/-! ## What is lost -/

theorem fnLoop_refuses {t : Trig} {box : Rect} {ts : List Tok} {gs : List (Pt → Pt)}
    (h : AllMoves t box.width box.height ts gs) {nm : List Char} {c r : List Tok}
    (hf : fnOf nm c = none) : ∀ (k : Nat) (acc : List Fn), ts.length < k →
      (fnLoop k acc (ts ++ .func nm c :: r)).1 = none := by
  induction h with
  | nil =>
    intro k acc hk
    cases k with
    | zero => cases hk
    | succ k => simp only [List.nil_append, fnLoop, hf]
  | @cons tok f ks fs hm hks ih =>
    intro k acc hk
    cases k with
    | zero => cases hk
    | succ k =>
      obtain ⟨nm', c', fn, m, rfl, hfn, -⟩ := moves_fn (box := box) hm
      have e : eatWs (ks ++ .func nm c :: r) = ks ++ .func nm c :: r := by
        cases hks with
        | nil => rfl
        | cons h2 _ =>
          obtain ⟨nm2, c2, -, -, rfl, -⟩ := moves_fn (box := box) h2
          rfl
      simp only [List.cons_append, fnLoop, hfn, e]
      exact ih k _ (by simp at hk; omega)

theorem parseTransform_refuses {t : Trig} {box : Rect} {ts : List Tok} {gs : List (Pt → Pt)}
    (h : AllMoves t box.width box.height ts gs) {nm : List Char} {c r : List Tok}
    (hf : fnOf nm c = none) : (parseTransform (ts ++ .func nm c :: r)).1 = none := by
  have hl := fnLoop_refuses h (r := r) hf ((ts ++ .func nm c :: r).length + 1) []
    (by simp only [List.length_append, List.length_cons]; omega)
  have hs : skipIdent "none".toList (ts ++ .func nm c :: r) = none := by
    cases h with
    | nil => rfl
    | cons h2 _ =>
      obtain ⟨nm2, c2, -, -, rfl, -⟩ := moves_fn (box := box) h2
      rfl
  unfold parseTransform
  simp only [hs]
  split
  · rfl
  · split
    · next e => rw [e] at hl; cases hl
    · rfl

/-- **C178.** It is false that rotations with and without a centre may be mixed: if one with a
centre stands anywhere behind one without, the whole attribute is refused. -/
theorem C178_mixed_fails (t : Trig) (o : Order) (fmt : Rat → List Char) {nm nm' : List Char}
    {c c' : List Tok} {ta tb tx ty : Tok} {a b x y : Rat} (hn : Cased nm "rotate(".toList)
    (hc : Args c [ta]) (ha : Literal ta a) {as bs : List Tok} {fs gs : List (Pt → Pt)}
    (has : NoTurns t as fs) (hbs : NoTurns t bs gs)
    (hn' : Cased nm' "rotate(".toList) (hc' : Args c' [tb, tx, ty]) (hb : Literal tb b)
    (hx : Literal tx x) (_hy : Literal ty y) (rest : List Tok) :
    parseAttribute t o fmt (as ++ .func nm c :: (bs ++ .func nm' c' :: rest)) = none := by
  have e : eqCi "rotate(".toList "rotate(".toList = true := by decide +kernel
  have hr : ∀ r, expandRotate t o fmt (.func nm c :: r) = .func nm c :: r := fun r => by
    simp only [expandRotate, hn.eqCi_congr, e, if_true, threeNumbers_one hc ha]
  have hall : expandRotate t o fmt (as ++ .func nm c :: (bs ++ .func nm' c' :: rest)) =
      as ++ .func nm c :: (bs ++ .func nm' c' :: rest) := by
    clear hbs
    induction has with
    | nil => exact hr _
    | cons hk _ ih =>
      rcases expandRotate_move (o := o) (fmt := fmt) hk _ with e | e
      · exact e
      · exact e.trans (congrArg _ ih)
  have hm : NoTurns t (as ++ .func nm c :: bs) (fs ++ (fun p =>
        (p.1 * t.cos (a * (t.pi / 180)) - p.2 * t.sin (a * (t.pi / 180)),
          p.1 * t.sin (a * (t.pi / 180)) + p.2 * t.cos (a * (t.pi / 180)))) :: gs) := by
    clear hall
    induction has with
    | nil => exact .cons (.rotate hn hc ha) hbs
    | cons hk _ ih => exact .cons hk ih
  have hf : fnOf nm' (c'.map (addUnit "deg")) = none := by
    rw [fnOf_congr hn', fnOf_rotate]
    obtain ⟨hs1, x1, h1, -⟩ := ang_reads t (literal_deg (pi := t.pi) hb)
    obtain ⟨hs2, -⟩ := ang_reads t (literal_deg (pi := t.pi) hx)
    rw [alone_two (args_addUnit "deg" hc') hs1 hs2 h1]
    rfl
  unfold parseAttribute
  rw [hall]
  have e2 : (as ++ .func nm c :: (bs ++ .func nm' c' :: rest)).map fixUnits =
      (as ++ .func nm c :: bs).map fixUnits ++
        .func nm' (c'.map (addUnit "deg")) :: rest.map fixUnits := by
    simp only [List.map_append, List.map_cons, fixUnits_deg (.inl hn'), List.append_assoc,
      List.cons_append]
  rw [e2]
  exact parseTransform_refuses (box := ⟨0, 0, 0, 0⟩) (noTurns_all hm) hf

/-- `rotate(45) rotate(90, 10, 2)`: each for itself is understood, both together are not. -/
example (t : Trig) (o : Order) (fmt : Rat → List Char) : parseAttribute t o fmt
    [.func "rotate(".toList [.number "45".toList],
     .func "rotate(".toList [.number "90".toList, .comma, .ws, .number "10".toList, .comma, .ws,
        .number ['2']]] = none := by
  have lit : ∀ (n : Lit) (s : List Char) (q : Rat), n.text = s → n.value = q →
      Literal (.number s) q := by
    intro n s q h1 h2; rw [← h1, ← h2]; exact .mk n
  exact C178_mixed_fails t o fmt (Cased.refl _) (.mk 0 (.last 0))
    (lit (natLit 4 [5]) _ 45 (by decide +kernel) (by decide +kernel)) .nil .nil (Cased.refl _)
    (.mk 0 (.more (.comma 0 1) (.more (.comma 0 1) (.last 0))))
    (lit (natLit 9 [0]) _ 90 (by decide +kernel) (by decide +kernel))
    (lit (natLit 1 [0]) _ 10 (by decide +kernel) (by decide +kernel))
    (lit (natLit 2 []) _ 2 (by decide +kernel) (by decide +kernel)) []

theorem fnLoop_comma {t : Trig} {box : Rect} {ts : List Tok} {gs : List (Pt → Pt)}
    (h : AllMoves t box.width box.height ts gs) (r : List Tok) : ∃ fs, Does t box fs gs ∧
      ∀ (k : Nat) (acc : List Fn), ts.length < k →
      fnLoop k acc (ts ++ .comma :: r) = (some (acc ++ fs), .comma :: r) := by
  induction h with
  | nil =>
    refine ⟨[], .nil, fun k acc hk => ?_⟩
    cases k with
    | zero => cases hk
    | succ k => simp only [List.nil_append, fnLoop, List.append_nil]
  | @cons tok f ks fs hm hks ih =>
    obtain ⟨nm', c', fn, m, rfl, hfn, hmat, happ⟩ := moves_fn (box := box) hm
    obtain ⟨fs', hd, hl⟩ := ih
    refine ⟨fn :: fs', .cons hmat happ hd, fun k acc hk => ?_⟩
    cases k with
    | zero => cases hk
    | succ k =>
      have e : eatWs (ks ++ .comma :: r) = ks ++ .comma :: r := by
        cases hks with
        | nil => rfl
        | cons h2 _ =>
          obtain ⟨nm2, c2, -, -, rfl, -⟩ := moves_fn (box := box) h2
          rfl
      simp only [List.cons_append, fnLoop, hfn, e]
      rw [hl k _ (by simp at hk; omega)]
      simp

/-- **C178.** It is false that a comma may stand between functions: all that follows it is lost
without notice, and the functions before it count. -/
theorem C178_comma_fails (t : Trig) (o : Order) (fmt : Rat → List Char) (box : Rect) {as : List Tok}
    {fs : List (Pt → Pt)} (has : NoTurns t as fs) (hne : as ≠ []) (rest : List Tok) (p : Pt) :
    placeAttr t o fmt box (as ++ .comma :: rest) p = some (about (box.x, box.y) (after fs) p) := by
  obtain ⟨off, ho, hv⟩ := origin_zero
  have hx : ∃ r, expandRotate t o fmt (as ++ .comma :: rest) = as ++ .comma :: r := by
    clear hne
    induction has with
    | nil => exact ⟨expandRotate t o fmt rest, rfl⟩
    | cons hk _ ih =>
      obtain ⟨r, ih⟩ := ih
      rcases expandRotate_move (o := o) (fmt := fmt) hk _ with e | e
      · exact ⟨rest, e⟩
      · exact ⟨r, e.trans (congrArg _ ih)⟩
  obtain ⟨r, hx⟩ := hx
  have hall := noTurns_all (w := box.width) (h := box.height) has
  obtain ⟨fns, hd, hl⟩ := fnLoop_comma (box := box) hall (r.map fixUnits)
  obtain ⟨m, hr, ha'⟩ := resolveTransform_does (box.x + 0, box.y + 0) hd
  have hp : parseTransform (as.map fixUnits ++ .comma :: r.map fixUnits) =
      (some (some fns), .comma :: r.map fixUnits) := by
    have hs : skipIdent "none".toList (as.map fixUnits ++ .comma :: r.map fixUnits) = none := by
      cases h : as.map fixUnits with
      | nil => rfl
      | cons a l =>
        rw [h] at hall
        cases hall with
        | cons h2 _ =>
          obtain ⟨nm2, c2, -, -, rfl, -⟩ := moves_fn (box := box) h2
          rfl
    unfold parseTransform
    rw [hs, hl _ _ (by simp only [List.length_append, List.length_cons]; omega)]
    have : (as.map fixUnits ++ .comma :: r.map fixUnits).isEmpty = false := by
      cases as <;> simp
    simp only [this, Bool.false_eq_true, if_false, List.nil_append]
  unfold placeAttr parseAttribute
  rw [hx]
  have e2 : (as ++ .comma :: r).map fixUnits = as.map fixUnits ++ .comma :: r.map fixUnits := by
    simp [fixUnits]
  rw [e2, hp, ho]
  simp only [applyTransform, hv, hr, Option.map_some, ha']
  have e : ((box.x + 0, box.y + 0) : Pt) = (box.x, box.y) := by
    refine Prod.ext ?_ ?_ <;> simp only <;> grind
  rw [e]

/-- `scale(2), scale(3)` is `scale(2)`. -/
example : placeAttr quarter .before digits ⟨0, 0, 100, 100⟩
    [.func "scale(".toList [.number ['2']], .comma, .func "scale(".toList [.number ['3']]] (5, 1) =
      some (10, 2) := by decide +kernel

end Verif.Transform
