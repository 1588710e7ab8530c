import Verif.Clip.Spec

/-!
# Clip: shapes are where they should be (C215)
-/

namespace Verif.Clip
open Verif.Values Verif.Short

theorem reference_edges (m : Metrics) (g : GBox) : (reference m g).1.edges = edgesOf m g := by
  cases g <;> simp only [reference, edgesOf, Rect.edges, Edges.within, Metrics.paddingBox,
    Metrics.contentBox, Metrics.marginBox, Rect.shrink, Rect.grow, Edges.mk.injEq] <;> grind

theorem edges_width {r : Rect} {e : Edges} (h : r.edges = e) : e.width = r.w ∧ e.height = r.h := by
  subst h
  simp only [Edges.width, Edges.height, Rect.edges]
  grind

theorem lengthPx_abs (c : Ctx) (v : Rat) (u : AbsUnit) : lengthPx (.abs v u) = exactPx c (.abs v u) := by
  cases u <;> rfl

theorem operand_fixed (c : Ctx) (relative : Rat) {o : Operand} (h : Operand.Fixed o) :
    operandPx lengthPx relative o = operandPx (exactPx c) relative o := by
  cases o with
  | num v => rfl
  | val v =>
    cases v with
    | percent v => rfl
    | length l =>
      cases l with
      | rel v u => exact absurd h id
      | abs v u => exact lengthPx_abs c v u

theorem px_stands {c : Ctx} {relative : Rat} {v : Calc} {x : Rat} (hf : Fixed v)
    (h : Stands c relative v x) : px v relative = some x := by
  unfold Stands at h
  unfold px
  cases v with
  | one o => simpa only [resolveCalc, operand_fixed c relative hf] using h
  | two op l r =>
    simpa only [resolveCalc, operand_fixed c relative hf.1, operand_fixed c relative hf.2] using h

theorem applyClip_shape (round : Rect → Rect) (norm : Rat → Rat → Rat) (m : Metrics) (s : Shape)
    (g : GBox) : applyClip round norm m ⟨some s, g⟩ = outlineOf norm (reference m g).1 s := rfl

/-- The corners of a shape: horizontal radii in percent of the width of the reference box, vertical
ones of its height. -/
def CornersAre (c : Ctx) (e : Edges) (r : Sides Corner) (k : Corners) : Prop :=
  k = ⟨(operandPx (exactPx c) e.width (.val r.top.1), operandPx (exactPx c) e.height (.val r.top.2)),
    (operandPx (exactPx c) e.width (.val r.right.1), operandPx (exactPx c) e.height (.val r.right.2)),
    (operandPx (exactPx c) e.width (.val r.bottom.1), operandPx (exactPx c) e.height (.val r.bottom.2)),
    (operandPx (exactPx c) e.width (.val r.left.1), operandPx (exactPx c) e.height (.val r.left.2))⟩

/-- No corner refers to a font or to the page. -/
def FixedCorners (r : Radii) : Prop :=
  ∀ v ∈ [r.a, r.b, r.c, r.d, r.e, r.f, r.g, r.h], Operand.Fixed (.val v)

theorem corners_are {c : Ctx} {r : Radii} (h : FixedCorners r) {b : Rect} {e : Edges}
    (he : b.edges = e) : CornersAre c e r.all (resolveRadii r b) := by
  obtain ⟨hw, hh⟩ := edges_width he
  simp only [FixedCorners, List.mem_cons, List.not_mem_nil, or_false, forall_eq_or_imp, forall_eq]
    at h
  obtain ⟨h1, h2, h3, h4, h5, h6, h7, h8⟩ := h
  simp only [CornersAre, resolveRadii, Radii.all, plPx, hw, hh, operand_fixed c _ h1,
    operand_fixed c _ h2, operand_fixed c _ h3, operand_fixed c _ h4, operand_fixed c _ h5,
    operand_fixed c _ h6, operand_fixed c _ h7, operand_fixed c _ h8]

/-- **C215 (in part).** `inset()` is the reference box with its edges moved in: by percentages of
the width at the left and the right and of the height at the top and the bottom.  Missing: insets
that leave nothing of the box, and units that refer to fonts or the page. -/
theorem C215_inset_partial (round : Rect → Rect) (norm : Rat → Rat → Rat) (c : Ctx) (m : Metrics)
    (g : GBox) {i : Sides Calc} {rs : Radii} {t r b l : Rat}
    (ht : Stands c (edgesOf m g).height i.top t) (hr : Stands c (edgesOf m g).width i.right r)
    (hb : Stands c (edgesOf m g).height i.bottom b) (hl : Stands c (edgesOf m g).width i.left l)
    (f : Fixed i.top ∧ Fixed i.right ∧ Fixed i.bottom ∧ Fixed i.left) (fr : FixedCorners rs)
    (_ : l + r ≤ (edgesOf m g).width ∧ t + b ≤ (edgesOf m g).height) :
    ∃ o k, applyClip round norm m ⟨some (.inset i rs), g⟩ = some (.rect o k) ∧
      o.edges = (edgesOf m g).within ⟨t, r, b, l⟩ ∧ CornersAre c (edgesOf m g) rs.all k := by
  have he := reference_edges m g
  obtain ⟨hw, hh⟩ := edges_width he
  rw [hw] at hr hl
  rw [hh] at ht hb
  rw [applyClip_shape]
  simp only [outlineOf, px_stands f.1 ht, px_stands f.2.1 hr, px_stands f.2.2.1 hb,
    px_stands f.2.2.2 hl, Option.bind_some, Option.map_some, Option.some.injEq, Outline.rect.injEq]
  refine ⟨_, _, ⟨rfl, rfl⟩, ?_, corners_are fr he⟩
  rw [← he]
  simp only [Rect.edges, Rect.shrink, Edges.within, Edges.mk.injEq]
  grind

/-- **C215 (in part).** `xywh()` is as wide and high as it says, and as far from the left and top
edges of the reference box. -/
theorem C215_xywh_partial (round : Rect → Rect) (norm : Rat → Rat → Rat) (c : Ctx) (m : Metrics)
    (g : GBox) {x y w h : Calc} {rs : Radii} {vx vy vw vh : Rat}
    (hx : Stands c (edgesOf m g).width x vx) (hy : Stands c (edgesOf m g).height y vy)
    (hw : Stands c (edgesOf m g).width w vw) (hh : Stands c (edgesOf m g).height h vh)
    (f : Fixed x ∧ Fixed y ∧ Fixed w ∧ Fixed h) (fr : FixedCorners rs) :
    ∃ o k, applyClip round norm m ⟨some (.xywh x y w h rs), g⟩ = some (.rect o k) ∧
      o.x = (edgesOf m g).left + vx ∧ o.y = (edgesOf m g).top + vy ∧ o.w = vw ∧ o.h = vh ∧
      CornersAre c (edgesOf m g) rs.all k := by
  have he := reference_edges m g
  obtain ⟨ew, eh⟩ := edges_width he
  rw [ew] at hx hw
  rw [eh] at hy hh
  rw [applyClip_shape]
  simp only [outlineOf, px_stands f.1 hx, px_stands f.2.1 hy, px_stands f.2.2.1 hw,
    px_stands f.2.2.2 hh, Option.bind_some, Option.map_some, Option.some.injEq, Outline.rect.injEq]
  refine ⟨_, _, ⟨rfl, rfl⟩, ?_, ?_, rfl, rfl, corners_are fr he⟩ <;>
    (rw [← he]; simp only [Rect.edges]; grind)

/-- **C215 (in part).** `rect()` has its edges where they are said to be, all four counted from the
left and top edges of the reference box; a right or bottom edge that would be before the other is
at it. -/
theorem C215_rect_partial (round : Rect → Rect) (norm : Rat → Rat → Rat) (c : Ctx) (m : Metrics)
    (g : GBox) {i : Sides Calc} {rs : Radii} {t r b l : Rat}
    (ht : Stands c (edgesOf m g).height i.top t) (hr : Stands c (edgesOf m g).width i.right r)
    (hb : Stands c (edgesOf m g).height i.bottom b) (hl : Stands c (edgesOf m g).width i.left l)
    (f : Fixed i.top ∧ Fixed i.right ∧ Fixed i.bottom ∧ Fixed i.left) (fr : FixedCorners rs) :
    ∃ o k, applyClip round norm m ⟨some (.rect i rs), g⟩ = some (.rect o k) ∧
      o.edges.left = (edgesOf m g).left + l ∧ o.edges.top = (edgesOf m g).top + t ∧
      o.edges.right = (edgesOf m g).left + (if l ≤ r then r else l) ∧
      o.edges.bottom = (edgesOf m g).top + (if t ≤ b then b else t) ∧
      CornersAre c (edgesOf m g) rs.all k := by
  have he := reference_edges m g
  obtain ⟨hw, hh⟩ := edges_width he
  rw [hw] at hr hl
  rw [hh] at ht hb
  rw [applyClip_shape]
  simp only [outlineOf, px_stands f.1 ht, px_stands f.2.1 hr, px_stands f.2.2.1 hb,
    px_stands f.2.2.2 hl, Option.bind_some, Option.map_some, Option.some.injEq, Outline.rect.injEq]
  refine ⟨_, _, ⟨rfl, rfl⟩, ?_, ?_, ?_, ?_, corners_are fr he⟩ <;> rw [← he]
  · rfl
  · rfl
  · simp only [Rect.edges]
    grind
  · simp only [Rect.edges]
    grind

/-- **C215 (in part).** The points of a polygon are as far from the left and top edges of the
reference box as they say, in their order. -/
theorem C215_polygon_partial (round : Rect → Rect) (norm : Rat → Rat → Rat) (c : Ctx) (m : Metrics)
    (g : GBox) (rule : Rule) (ps : List ((Calc × Rat) × (Calc × Rat)))
    (h : ∀ p ∈ ps, Stands c (edgesOf m g).width p.1.1 p.1.2 ∧
      Stands c (edgesOf m g).height p.2.1 p.2.2 ∧ Fixed p.1.1 ∧ Fixed p.2.1) :
    applyClip round norm m ⟨some (.polygon rule (ps.map fun p => (p.1.1, p.2.1))), g⟩ =
      some (.polygon rule (ps.map fun p =>
        ((edgesOf m g).left + p.1.2, (edgesOf m g).top + p.2.2))) := by
  have he := reference_edges m g
  obtain ⟨hw, hh⟩ := edges_width he
  rw [applyClip_shape]
  have : pointsOf (reference m g).1 (ps.map fun p => (p.1.1, p.2.1)) = some (ps.map fun p =>
      ((edgesOf m g).left + p.1.2, (edgesOf m g).top + p.2.2)) := by
    induction ps with
    | nil => rfl
    | cons p ps ih =>
      obtain ⟨h1, h2, f1, f2⟩ := h p List.mem_cons_self
      rw [hw] at h1
      rw [hh] at h2
      simp only [List.map_cons, pointsOf, px_stands f1 h1, px_stands f2 h2, Option.bind_some,
        ih (fun q hq => h q (List.mem_cons_of_mem _ hq)), Option.map_some]
      rw [← he]
      rfl
  simp only [outlineOf, this, Option.map_some]

/-- **C215 (in part).** A path begins at the top left corner of the reference box. -/
theorem C215_path_partial (round : Rect → Rect) (norm : Rat → Rat → Rat) (m : Metrics) (g : GBox)
    (rule : Rule) (ts : List (List Char)) :
    applyClip round norm m ⟨some (.path rule ts), g⟩ =
      some (.path rule ts (edgesOf m g).left (edgesOf m g).top) := by
  rw [applyClip_shape, ← reference_edges m g]
  rfl

/-! ## Circles and ellipses -/

theorem atX_at {c : Ctx} {b : Rect} {e : Edges} (he : b.edges = e) {p : Position} {cx : Rat}
    (h : AtX c e p cx) (f : Fixed p.x) : ∃ v, positionX p b = some v ∧ v + b.x = cx := by
  obtain ⟨hw, -⟩ := edges_width he
  have hl : e.left = b.x := by rw [← he]; rfl
  have hr : e.right = b.x + b.w := by rw [← he]; rfl
  cases h with
  | left h =>
    rw [hw] at h
    exact ⟨_, px_stands f h, by grind⟩
  | @right x v a y h =>
    rw [hw] at h
    refine ⟨b.w - v, ?_, by grind⟩
    simp only [positionX, px_stands f h, Option.map_some]
  | center => exact ⟨_, rfl, by grind⟩

theorem atY_at {c : Ctx} {b : Rect} {e : Edges} (he : b.edges = e) {p : Position} {cy : Rat}
    (h : AtY c e p cy) (f : Fixed p.y) : ∃ v, positionY p b = some v ∧ v + b.y = cy := by
  obtain ⟨-, hh⟩ := edges_width he
  have hl : e.top = b.y := by rw [← he]; rfl
  have hr : e.bottom = b.y + b.h := by rw [← he]; rfl
  cases h with
  | top h =>
    rw [hh] at h
    exact ⟨_, px_stands f h, by grind⟩
  | @bottom y v a x h =>
    rw [hh] at h
    refine ⟨b.h - v, ?_, by grind⟩
    simp only [positionY, px_stands f h, Option.map_some]
  | center => exact ⟨_, rfl, by grind⟩

/-- A point is in a box, its edges included. -/
def Edges.Has (e : Edges) (x y : Rat) : Prop :=
  e.left ≤ x ∧ x ≤ e.right ∧ e.top ≤ y ∧ y ≤ e.bottom

theorem nearest_unique {r r' : Rat} {ds : List Rat} (h : Nearest r ds) (h' : Nearest r' ds) :
    r = r' := by
  have := h.2 _ h'.1
  have := h'.2 _ h.1
  grind

theorem farthest_unique {r r' : Rat} {ds : List Rat} (h : Farthest r ds) (h' : Farthest r' ds) :
    r = r' := by
  have := h.2 _ h'.1
  have := h'.2 _ h.1
  grind

theorem nearest_four (a b c d : Rat) : Nearest (min (min (min b a) c) d) [a, b, c, d] := by
  simp only [Nearest, List.mem_cons, List.not_mem_nil, or_false, forall_eq_or_imp, forall_eq]
  grind

theorem nearest_two (a b : Rat) : Nearest (min b a) [a, b] := by
  simp only [Nearest, List.mem_cons, List.not_mem_nil, or_false, forall_eq_or_imp, forall_eq]
  grind

theorem farthest_four (a b c d : Rat) : Farthest (max (max b a) (max d c)) [a, b, c, d] := by
  simp only [Farthest, List.mem_cons, List.not_mem_nil, or_false, forall_eq_or_imp, forall_eq]
  grind

theorem farthest_two (a b : Rat) : Farthest (max b a) [a, b] := by
  simp only [Farthest, List.mem_cons, List.not_mem_nil, or_false, forall_eq_or_imp, forall_eq]
  grind

theorem dist_far (x w v : Rat) : dist (w - v) = between (x + w) (v + x) := by
  unfold dist between
  grind

theorem near_side {x v : Rat} (h : x ≤ v + x) : v = between x (v + x) := by
  unfold between
  grind

theorem far_side {w : Rat} (x v : Rat) (h : 0 ≤ w) :
    max (dist (w - v)) v = max (between (x + w) (v + x)) (between x (v + x)) := by
  unfold dist between
  grind

theorem max_four (a b c d : Rat) : max (max (max a b) c) d = max (max a b) (max d c) := by
  grind

/-- The reference box is not less than nothing. -/
def Edges.Proper (e : Edges) : Prop := 0 ≤ e.width ∧ 0 ≤ e.height

/-- **C215 (in part).** A circle has its centre where it is said to be in the reference box.  Its
radius is the distance to the nearest of the four sides, to the farthest, or what is written, in
percent of the diagonal divided by the root of two.  Missing: `closest-side` of a centre outside
the box, and units that refer to fonts or the page. -/
theorem C215_circle_partial (round : Rect → Rect) (norm : Rat → Rat → Rat) (c : Ctx) (m : Metrics)
    (g : GBox) {k : Circle} {cx cy r : Rat} (hx : AtX c (edgesOf m g) k.position cx)
    (hy : AtY c (edgesOf m g) k.position cy)
    (hr : RadiusIs c (norm (edgesOf m g).width (edgesOf m g).height)
      (sidesX (edgesOf m g) cx ++ sidesY (edgesOf m g) cy) k.radius r)
    (f : Fixed k.position.x ∧ Fixed k.position.y ∧ FixedRadius k.radius)
    (hb : (edgesOf m g).Proper)
    (hin : k.radius = .closestSide → (edgesOf m g).Has cx cy) :
    applyClip round norm m ⟨some (.circle k), g⟩ = some (.ellipse cx cy r r) := by
  have he := reference_edges m g
  obtain ⟨hw, hh⟩ := edges_width he
  have el : (edgesOf m g).left = (reference m g).1.x := by rw [← he]; rfl
  have er : (edgesOf m g).right = (reference m g).1.x + (reference m g).1.w := by rw [← he]; rfl
  have et : (edgesOf m g).top = (reference m g).1.y := by rw [← he]; rfl
  have eb : (edgesOf m g).bottom = (reference m g).1.y + (reference m g).1.h := by rw [← he]; rfl
  obtain ⟨vx, px1, rfl⟩ := atX_at he hx f.1
  obtain ⟨vy, py1, rfl⟩ := atY_at he hy f.2.1
  have hrad : circleRadius norm (reference m g).1 vx vy k.radius = some r := by
    obtain ⟨rad, pos⟩ := k
    cases hr with
    | closest h =>
      obtain ⟨i1, _, i3, _⟩ := hin rfl
      rw [el] at i1
      rw [et] at i3
      rw [sidesX, sidesY, el, er, et, eb] at h
      simp only [circleRadius, Option.some.injEq]
      refine nearest_unique ?_ h
      have n1 := near_side i1
      have n2 := near_side i3
      generalize hp : between (reference m g).1.x (vx + (reference m g).1.x) = p at *
      generalize hq : between (reference m g).1.y (vy + (reference m g).1.y) = q at *
      rw [dist_far (reference m g).1.x, dist_far (reference m g).1.y]
      rw [show min (min (min (between ((reference m g).1.x + (reference m g).1.w)
        (vx + (reference m g).1.x)) vx) vy) (between ((reference m g).1.y + (reference m g).1.h)
        (vy + (reference m g).1.y)) = min (min (min (between ((reference m g).1.x + (reference m g).1.w)
        (vx + (reference m g).1.x)) p) q) (between ((reference m g).1.y + (reference m g).1.h)
        (vy + (reference m g).1.y)) by rw [← n1, ← n2]]
      exact nearest_four _ _ _ _
    | farthest h =>
      rw [sidesX, sidesY, el, er, et, eb] at h
      simp only [circleRadius, Option.some.injEq]
      refine farthest_unique ?_ h
      rw [max_four, far_side (reference m g).1.x _ (by rw [← hw]; exact hb.1),
        far_side (reference m g).1.y _ (by rw [← hh]; exact hb.2)]
      exact farthest_four _ _ _ _
    | value h =>
      rw [hw, hh] at h
      exact px_stands f.2.2 h
  rw [applyClip_shape]
  simp only [outlineOf, px1, py1, Option.bind_some, hrad, Option.map_some]

theorem axis_radius {c : Ctx} {size x v : Rat} {q : Radius} {r : Rat} (hs : 0 ≤ size)
    (hr : RadiusIs c size [between x (v + x), between (x + size) (v + x)] q r)
    (f : FixedRadius q) (hin : q = .closestSide → x ≤ v + x) : axisRadius size v q = some r := by
  cases hr with
  | closest h =>
    simp only [axisRadius, Option.some.injEq]
    refine nearest_unique ?_ h
    rw [dist_far x, show min (between (x + size) (v + x)) v =
      min (between (x + size) (v + x)) (between x (v + x)) by rw [← near_side (hin rfl)]]
    exact nearest_two _ _
  | farthest h =>
    simp only [axisRadius, Option.some.injEq]
    refine farthest_unique ?_ h
    rw [far_side x _ hs]
    exact farthest_two _ _
  | value h => exact px_stands f h

/-- **C215 (in part).** An ellipse has its centre where it is said to be in the reference box.  Each
of its radii is the distance to the nearer or the farther side on its axis, or what is written, in
percent of the size of the box on that axis.  Missing: `closest-side` of a centre outside the box,
and units that refer to fonts or the page. -/
theorem C215_ellipse_partial (round : Rect → Rect) (norm : Rat → Rat → Rat) (c : Ctx) (m : Metrics)
    (g : GBox) {qx qy : Radius} {p : Position} {cx cy rx ry : Rat}
    (hx : AtX c (edgesOf m g) p cx) (hy : AtY c (edgesOf m g) p cy)
    (hrx : RadiusIs c (edgesOf m g).width (sidesX (edgesOf m g) cx) qx rx)
    (hry : RadiusIs c (edgesOf m g).height (sidesY (edgesOf m g) cy) qy ry)
    (f : Fixed p.x ∧ Fixed p.y ∧ FixedRadius qx ∧ FixedRadius qy) (hb : (edgesOf m g).Proper)
    (hin : qx = .closestSide ∨ qy = .closestSide → (edgesOf m g).Has cx cy) :
    applyClip round norm m ⟨some (.ellipse qx qy p), g⟩ = some (.ellipse cx cy rx ry) := by
  have he := reference_edges m g
  obtain ⟨hw, hh⟩ := edges_width he
  have el : (edgesOf m g).left = (reference m g).1.x := by rw [← he]; rfl
  have er : (edgesOf m g).right = (reference m g).1.x + (reference m g).1.w := by rw [← he]; rfl
  have et : (edgesOf m g).top = (reference m g).1.y := by rw [← he]; rfl
  have eb : (edgesOf m g).bottom = (reference m g).1.y + (reference m g).1.h := by rw [← he]; rfl
  obtain ⟨vx, px1, rfl⟩ := atX_at he hx f.1
  obtain ⟨vy, py1, rfl⟩ := atY_at he hy f.2.1
  rw [sidesX, el, er, hw] at hrx
  rw [sidesY, et, eb, hh] at hry
  have h1 := axis_radius (by rw [← hw]; exact hb.1) hrx f.2.2.1 (fun e => by
    have := (hin (.inl e)).1; rwa [el] at this)
  have h2 := axis_radius (by rw [← hh]; exact hb.2) hry f.2.2.2 (fun e => by
    have := (hin (.inr e)).2.2.1; rwa [et] at this)
  rw [applyClip_shape]
  simp only [outlineOf, px1, py1, Option.bind_some, h1, h2, Option.map_some]

/-- **C215 (in part).** Without a shape the clip is the box that is named, rounded, with the
corners of the element if it is the border box.  Missing: the corners of the padding, content and
margin boxes. -/
theorem C215_box_partial (round : Rect → Rect) (norm : Rat → Rat → Rat) (m : Metrics) (g : GBox) :
    ∃ b k, applyClip round norm m ⟨none, g⟩ = some (.rect (round b) k) ∧ b.edges = edgesOf m g ∧
      (g = .border ∨ g = .stroke → k = m.radii) :=
  ⟨(reference m g).1, (reference m g).2, rfl, reference_edges m g, by
    rintro (rfl | rfl) <;> rfl⟩

/-! ## Cases that meet the hypotheses, and where the code differs -/

/-- A box at (10, 20), 200 wide and 100 high, with borders of 5 and padding of 10. -/
def someBox : Metrics :=
  ⟨⟨10, 10, 10, 10⟩, ⟨5, 5, 5, 5⟩, ⟨10, 20, 200, 100⟩, ⟨0, 0, 0, 0⟩, square⟩

/-- `circle(closest-side at 25% bottom 30px) padding-box`: the padding box is 190 wide and 90 high
from (15, 25) on; the centre is at (62.5, 85), 30 above its bottom. -/
example (c : Ctx) : let p : Position := ⟨.left, .one (.val (.percent 25)), .bottom,
      .one (.val (.length (.abs 30 .px)))⟩
    AtX c (edgesOf someBox .padding) p (125 / 2) ∧ AtY c (edgesOf someBox .padding) p 85 ∧
    RadiusIs c 0 (sidesX (edgesOf someBox .padding) (125 / 2) ++
      sidesY (edgesOf someBox .padding) 85) .closestSide 30 ∧
    (edgesOf someBox .padding).Has (125 / 2) 85 ∧ (edgesOf someBox .padding).Proper := by
  refine ⟨?_, ?_, .closest ?_, ?_, ?_⟩
  · have := AtX.left (c := c) (e := edgesOf someBox .padding) (a := .bottom)
      (y := .one (.val (.length (.abs 30 .px)))) (x := .one (.val (.percent 25))) (v := 95 / 2)
      (by simp only [Stands, resolveCalc, operandPx]; decide +kernel)
    rwa [show (edgesOf someBox .padding).left + 95 / 2 = 125 / 2 by decide +kernel] at this
  · have := AtY.bottom (c := c) (e := edgesOf someBox .padding) (a := .left)
      (x := .one (.val (.percent 25))) (y := .one (.val (.length (.abs 30 .px)))) (v := 30) rfl
    rwa [show (edgesOf someBox .padding).bottom - 30 = 85 by decide +kernel] at this
  · constructor
    · decide +kernel
    · decide +kernel
  · unfold Edges.Has
    decide +kernel
  · unfold Edges.Proper
    decide +kernel

/-- `inset(10% 20px)` of the border box: 10 from the top and the bottom, 20 from the sides. -/
example (c : Ctx) : Stands c (edgesOf someBox .border).height (.one (.val (.percent 10))) 10 ∧
    Stands c (edgesOf someBox .border).width (.one (.val (.length (.abs 20 .px)))) 20 ∧
    (20 : Rat) + 20 ≤ (edgesOf someBox .border).width ∧
    (10 : Rat) + 10 ≤ (edgesOf someBox .border).height := by
  refine ⟨?_, rfl, by decide +kernel, by decide +kernel⟩
  simp only [Stands, resolveCalc, operandPx]
  decide +kernel

/-- Units that refer to fonts and to the page are worth nothing in a shape: a circle with a radius
of `v` em, rem, vw or any such is a point. -/
theorem C215_relative_fails (round : Rect → Rect) (norm : Rat → Rat → Rat) (m : Metrics) (g : GBox)
    (v : Rat) (u : RelUnit) : ∃ cx cy, applyClip round norm m
      ⟨some (.circle ⟨.calc (.one (.val (.length (.rel v u)))), middle⟩), g⟩ =
      some (.ellipse cx cy 0 0) :=
  ⟨_, _, rfl⟩

/-- The padding box, the content box and the margin box have square corners whatever the corners of
the element are, and so has the border box under the name `view-box`. -/
theorem C215_corners_fails (round : Rect → Rect) (norm : Rat → Rat → Rat) (m : Metrics) (g : GBox)
    (hg : g ≠ .border ∧ g ≠ .stroke) :
    ∃ b, applyClip round norm m ⟨none, g⟩ = some (.rect b ⟨(0, 0), (0, 0), (0, 0), (0, 0)⟩) := by
  cases g with
  | border => exact absurd rfl hg.1
  | stroke => exact absurd rfl hg.2
  | _ => exact ⟨_, rfl⟩

/-- The radius to the nearest side of a centre to the left of the box is less than nothing. -/
theorem C215_closest_fails (round : Rect → Rect) (norm : Rat → Rat → Rat) (m : Metrics) (g : GBox)
    {v : Rat} (hv : v < 0) : ∃ cx cy r, applyClip round norm m
      ⟨some (.circle ⟨.closestSide, ⟨.left, .one (.val (.length (.abs v .px))), .center, zero⟩⟩), g⟩
      = some (.ellipse cx cy r r) ∧ r < 0 := by
  refine ⟨_, _, _, rfl, ?_⟩
  have : pixels v .px = v := rfl
  simp only [lengthPx, operandPx, this]
  grind

/-- Insets of more than the width leave a box less than nothing wide, instead of being reduced to
what there is. -/
theorem C215_crossed_fails (round : Rect → Rect) (norm : Rat → Rat → Rat) (m : Metrics) (g : GBox)
    {v : Rat} (hv : (edgesOf m g).width < 2 * v) : ∃ b k, applyClip round norm m
      ⟨some (.inset ⟨zero, .one (.val (.length (.abs v .px))), zero,
        .one (.val (.length (.abs v .px)))⟩ noRadii), g⟩ = some (.rect b k) ∧ b.w < 0 := by
  refine ⟨_, _, rfl, ?_⟩
  rw [(edges_width (reference_edges m g)).1] at hv
  change (reference m g).1.w - v - v < 0
  grind

end Verif.Clip
