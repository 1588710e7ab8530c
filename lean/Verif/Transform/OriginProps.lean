import Verif.Transform.Props

/-!
# Transforms: the origin (C177)
-/

namespace Verif.Transform
open Verif.Values Verif.Short Spec

/-- **C177 (in part).** `transform-origin: x y` is the point of the box with the named place along
each axis.  Missing: one value, and the vertical one first; see below. -/
theorem C177_two_partial (box : Rect) {tx ty : Tok} {x y : Rat} (hx : AtX box tx x)
    (hy : AtY box ty y) :
    ∃ off, declared parseOrigin [tx, ty] = some off ∧ originOf box off = some (x, y) :=
  origin_text hx hy

/-- `right calc(50% + 4px)` -/
example : AtX ⟨10, 20, 100, 40⟩ (.ident "Right".toList) (10 + 100) ∧
    AtY ⟨10, 20, 100, 40⟩ (.func "calc(".toList [.percent "50%".toList, .ws, .delim ['+'], .ws,
      .dim "4px".toList]) (20 + 24) := by
  refine ⟨.right (.mk (eqCi_iff.1 (by decide +kernel))), .amount (.computed ?_)⟩
  have h1 := LengthTerm.percent (w := 40) (natLit 5 [0])
  have e1 : (natLit 5 [0]).text ++ ['%'] = "50%".toList := by decide +kernel
  have e2 : (40 : Rat) * (natLit 5 [0]).value / 100 = 20 := by decide +kernel
  rw [e1, e2] at h1
  have h2 := LengthTerm.abs (w := 40) (natLit 4 []) (k := "px") (u := .px) (per := 96)
    (s := "px".toList) (by decide +kernel) (Cased.refl _)
  have e3 : (natLit 4 []).text ++ "px".toList = "4px".toList := by decide +kernel
  have e4 : (natLit 4 []).value * 96 / 96 = 4 := by decide +kernel
  rw [e3, e4] at h2
  have e5 : (20 : Rat) + 4 = 24 := by decide +kernel
  rw [← e5]
  exact .two 1 1 0 h1 h2 .add

/-- **C177 (in part).** The origin is the point that turning and scaling leave where it is. -/
theorem C177_fixed_partial (t : Trig) (box : Rect) {ts : List Tok} {fs : List (Pt → Pt)} {tx ty : Tok}
    {x y : Rat} (hne : ts ≠ []) (hm : AllMoves t box.width box.height ts fs) (hx : AtX box tx x)
    (hy : AtY box ty y) (h0 : ∀ f ∈ fs, f (0, 0) = (0, 0)) :
    place t box ts [tx, ty] (x, y) = some (x, y) := by
  rw [C175_list_partial t box hne hm hx hy]
  have : after fs (0, 0) = (0, 0) := by
    clear hne hm
    induction fs with
    | nil => rfl
    | cons f fs ih =>
      rw [after, ih (fun g hg => h0 g (List.mem_cons_of_mem _ hg)), h0 f (by simp)]
  have e : (x - x, y - y) = ((0 : Rat), (0 : Rat)) := by
    refine Prod.ext ?_ ?_ <;> simp only <;> grind
  simp only [about, e, this]
  congr 1
  refine Prod.ext ?_ ?_ <;> simp only <;> grind

theorem parseOffX_oneTok : OneTok parseOffX := by
  refine ⟨rfl, fun t => ?_⟩
  have hc : OneTok parseCalc := parseCalcOf_oneTok parsePL_oneTok
  obtain ⟨o, ho⟩ := hc.2 t
  cases ht : t with
  | ident s =>
    subst ht
    cases hk : kwLookup [("left", OffX.left), ("center", .center), ("right", .right)] s with
    | some v => exact ⟨some v, fun r => by simp [parseOffX, skipAny_ident, hk]⟩
    | none =>
      refine ⟨o.map .calc, fun r => ?_⟩
      unfold parseOffX
      rw [skipAny_ident, hk, Option.map_none, ho r]
      cases o <;> rfl
  | _ =>
    subst ht
    refine ⟨o.map .calc, fun r => ?_⟩
    unfold parseOffX
    rw [skipAny_none _ (by intro w r e; cases e), ho r]
    cases o <;> rfl

theorem parseOffY_oneTok : OneTok parseOffY := by
  refine ⟨rfl, fun t => ?_⟩
  have hc : OneTok parseCalc := parseCalcOf_oneTok parsePL_oneTok
  obtain ⟨o, ho⟩ := hc.2 t
  cases ht : t with
  | ident s =>
    subst ht
    cases hk : kwLookup [("top", OffY.top), ("center", .center), ("bottom", .bottom)] s with
    | some v => exact ⟨some v, fun r => by simp [parseOffY, skipAny_ident, hk]⟩
    | none =>
      refine ⟨o.map .calc, fun r => ?_⟩
      unfold parseOffY
      rw [skipAny_ident, hk, Option.map_none, ho r]
      cases o <;> rfl
  | _ =>
    subst ht
    refine ⟨o.map .calc, fun r => ?_⟩
    unfold parseOffY
    rw [skipAny_none _ (by intro w r e; cases e), ho r]
    cases o <;> rfl

/-- **C177.** Nothing else is accepted: what is accepted are two values, the first of which is one
for the x axis and the second one for the y axis. -/
theorem C177_accepts {ts : List Tok} (hp : Plain ts) {o : OffX × OffY}
    (h : declared parseOrigin ts = some o) : ∃ tx ty, ts = [tx, ty] ∧ Reads parseOffX tx o.1 ∧
      Reads parseOffY ty o.2 := by
  have h := (declared_plain hp).1 h
  unfold parseOrigin at h
  split at h
  · cases h
  split at h
  · next v r hv =>
    simp only [Prod.mk.injEq, Option.some.injEq] at h
    obtain ⟨rfl, rfl⟩ := h
    unfold twoOffsets at hv
    split at hv
    · cases hv
    · next x r hx =>
      split at hv
      · cases hv
      · split at hv
        · cases hv
        · next y r' hy =>
          cases hv
          obtain ⟨tx, rfl, rx⟩ := parseOffX_oneTok.one hx
          obtain ⟨ty, rfl, ry⟩ := parseOffY_oneTok.one hy
          exact ⟨tx, ty, rfl, rx, ry⟩
  · split at h
    · cases h
    · split at h
      · cases h
      · next hr =>
        simp only [Prod.mk.injEq] at h
        simp [h.2] at hr

/-- **C177.** It is false that one value is enough: alone, each is refused. -/
theorem C177_one_fails (t : Tok) : declared parseOrigin [t] = none := by
  cases h : declared parseOrigin [t] with
  | none => rfl
  | some o =>
    by_cases ht : t = .ws
    · subst ht; cases h
    · obtain ⟨a, b, e, -⟩ := C177_accepts (fun u hu => by rw [List.mem_singleton.1 hu]; exact ht) h
      cases e

/-- **C177.** It is false that keywords may be given in either order: `top left` and all else that
begins with a vertical keyword is refused. -/
theorem C177_order_fails {k : Tok} (hk : Word "top" k ∨ Word "bottom" k) (rest : List Tok) :
    declared parseOrigin (k :: rest) = none := by
  have hx : parseOffX (k :: rest) = (none, k :: rest) := by
    have : kwLookup [("left", OffX.left), ("center", .center), ("right", .right)] "top".toList = none ∧
      kwLookup [("left", OffX.left), ("center", .center), ("right", .right)] "bottom".toList = none := by
      decide +kernel
    unfold parseOffX
    rcases hk with hk | hk
    · rw [skipAny_word hk, this.1]; cases hk; rfl
    · rw [skipAny_word hk, this.2]; cases hk; rfl
  have hw : k ≠ .ws := by rcases hk with hk | hk <;> exact Word.ne_ws hk
  have e : eatWs (k :: rest) = k :: rest := by
    unfold eatWs
    split
    · next h => exact absurd (List.cons.inj h).1 hw
    · rfl
  have h2 : twoOffsets (k :: rest) = none := by unfold twoOffsets; rw [hx]
  unfold declared
  rw [e]
  simp only [parseOrigin, List.isEmpty_cons, Bool.false_eq_true, if_false, h2, hx]

example : Word "top" (.ident "top".toList) := .mk (Cased.refl _)

end Verif.Transform
