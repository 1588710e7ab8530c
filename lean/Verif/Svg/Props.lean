import Verif.Svg.Frames

/-!
# Drawings: frames, places and sizes (C179, C180, C181)
-/

namespace Verif.Svg
open Verif.Values Verif.Transform Spec

/-! ## C179 -/

theorem run_root {o : Order} {diag : Pt → Rat} {s : Style} {cs : List El}
    {known : Option Rat × Option Rat} {containing pos : Pt} {g : Frag}
    (h : run o diag s cs known containing pos = .ok g) :
    ∃ q size, aspectRatio s.viewBox s.width s.height = .ok q ∧
      defaultSizing known q containing = .ok size ∧ commitRoot o diag s cs pos size = .ok g := by
  unfold run at h
  split at h
  · cases h
  · next q hq =>
    split at h
    · cases h
    · next size hs => exact ⟨q, size, hq, hs, h⟩

/-- **C179 (in part).** In a drawing that was laid out, at whatever place and in whatever space, each
root with a view box of positive size, the outermost or one nested in it at any depth, has its view
box fitted into its frame: undistorted, in the middle, as large as the frame allows.  Not for view
boxes of zero or negative size, and only if `scaled` of Karm scales before the translation; see
below. -/
theorem C179_fits_partial {diag : Pt → Rat} {s : Style} {cs : List El}
    {known : Option Rat × Option Rat} {containing pos : Pt} {g : Frag}
    (h : run .before diag s cs known containing pos = .ok g)
    {s' : Style} {m : Mat} {frame : Rect} {fs : List Frag} (hi : Inside (.root s' m frame fs) g)
    {vb : ViewBox} (hv : s'.viewBox = some vb) (hw : 0 < vb.width) (hh : 0 < vb.height) :
    Fitted vb frame m.apply := by
  obtain ⟨_, _, _, _, hc⟩ := run_root h
  have := commitRoot_roots hc _ hi _ _ _ _ rfl
  rw [hv] at this
  exact viewport_fitted hw hh this

/-- **C179.** Nothing of the view box is then outside of the frame. -/
theorem C179_inside {vb : ViewBox} {frame : Rect} {f : Pt → Pt} (h : Fitted vb frame f)
    (hw : 0 < vb.width) (hh : 0 < vb.height) (h1 : 0 ≤ frame.width) (h2 : 0 ≤ frame.height)
    {p : Pt} (hp : Holds (area vb) p) : Holds frame (f p) := by
  obtain ⟨k, hf, hx, hy, he⟩ := h
  have hk : 0 ≤ k := by
    have nn : ∀ a b : Rat, 0 < a → 0 ≤ k * a → 0 ≤ k := fun a b ha hka => by
      rcases Rat.le_total (a := 0) (b := k) with h | h
      · exact h
      · have h3 := Rat.mul_le_mul_of_nonneg_right h (Rat.le_of_lt ha)
        have h4 : k * a = 0 := by grind
        have := Rat.mul_eq_zero.1 h4
        grind
    rcases he with he | he
    · exact nn _ 0 hw (by grind)
    · exact nn _ 0 hh (by grind)
  obtain ⟨p1, p2, p3, p4⟩ := hp
  simp only [area] at p1 p2 p3 p4
  have m1 := Rat.mul_le_mul_of_nonneg_left p1 hk
  have m2 := Rat.mul_le_mul_of_nonneg_left p2 hk
  have m3 := Rat.mul_le_mul_of_nonneg_left p3 hk
  have m4 := Rat.mul_le_mul_of_nonneg_left p4 hk
  simp only [hf, Holds]
  refine ⟨?_, ?_, ?_, ?_⟩ <;> grind

/-- **C179.** A root without a view box has the pixels of the page as units, from the corner of its
frame. -/
theorem C179_none {o : Order} {diag : Pt → Rat} {s : Style} {cs : List El}
    {known : Option Rat × Option Rat} {containing pos : Pt} {g : Frag}
    (h : run o diag s cs known containing pos = .ok g)
    {s' : Style} {m : Mat} {frame : Rect} {fs : List Frag} (hi : Inside (.root s' m frame fs) g)
    (hv : s'.viewBox = none) (p : Pt) : m.apply p = (frame.x + p.1, frame.y + p.2) := by
  obtain ⟨_, _, _, _, hc⟩ := run_root h
  have := commitRoot_roots hc _ hi _ _ _ _ rfl
  rw [hv] at this
  simp only [rootTransform, Except.ok.injEq] at this
  subst this
  rw [apply_translate]
  simp only [Prod.mk.injEq]
  constructor <;> grind

/-- The frame of the outermost root is where it was put. -/
theorem C179_frame {o : Order} {diag : Pt → Rat} {s : Style} {cs : List El}
    {known : Option Rat × Option Rat} {containing pos : Pt} {g : Frag}
    (h : run o diag s cs known containing pos = .ok g) :
    ∃ m w h fs, g = .root s m ⟨pos.1, pos.2, w, h⟩ fs := by
  obtain ⟨_, size, _, _, hc⟩ := run_root h
  unfold commitRoot at hc
  split at hc
  · cases hc
  · split at hc
    · cases hc
    · cases hc
      exact ⟨_, _, _, _, rfl⟩

/-- A drawing with the view box `0 0 10 20`, 100 by 100 pixels, at (5, 6), with another one in it. -/
def sample : Except Fail Frag :=
  run .before (fun _ => 0) { viewBox := some ⟨0, 0, 10, 20⟩ }
    [.rect {}, .group {} [.root { viewBox := some ⟨-1, -1, 2, 2⟩ } [.circle {}]]]
    (some 100, some 100) (500, 500) (5, 6)

/-- It is laid out, with factor 5: the middle of the view box is at (55, 56). -/
example : ∃ s m fs, sample = .ok (.root s m ⟨5, 6, 100, 100⟩ fs) ∧
    m = ⟨5, 0, 0, 5, 30, 6⟩ ∧ m.apply (5, 10) = (55, 56) ∧ fs.length = 2 := by
  refine ⟨_, _, _, rfl, ?_, ?_, ?_⟩ <;> decide +kernel

/-- And the one inside is a root at depth two. -/
example : ∀ g, sample = .ok g → ∃ s m b fs, Inside (.root s m b fs) g ∧
    s.viewBox = some ⟨-1, -1, 2, 2⟩ := by
  intro g hg
  cases hg
  exact ⟨_, _, _, _, .root (List.mem_cons_of_mem _ (List.mem_cons_self ..))
    (.group (List.mem_cons_self ..) .here), rfl⟩

/-- **C179.** It is false that a view box without width is left unfitted: its factor is a division by
zero. -/
theorem C179_zero_fails (o : Order) (vb : ViewBox) (h : vb.width = 0 ∨ vb.height = 0)
    (pos size : Pt) (diag : Pt → Rat) (s : Style) (hs : s.viewBox = some vb) (cs : List El) :
    commitRoot o diag s cs pos size = .error .infinite := by
  simp [commitRoot, hs, rootTransform, viewportTransform, h]

/-- **C179.** It is false that a view box of negative width is refused: it is read, and the drawing
is mirrored. -/
theorem C179_negative_fails :
    viewBoxAttr [.number "0".toList, .number "0".toList, .number "-10".toList, .number "10".toList] =
        some ⟨0, 0, -10, 10⟩ ∧
      ∃ m, viewportTransform .before ⟨0, 0, -10, 10⟩ (0, 0) (100, 100) = .ok m ∧
        m.apply (0, 0) = (0, 100) ∧ m.apply (-10, 10) = (100, 0) := by
  refine ⟨by decide +kernel, _, rfl, ?_, ?_⟩ <;> decide +kernel

/-- **C179.** If `scaled` of Karm scales after the translation, a drawing is fitted only if it needs
not be moved. -/
theorem C179_behind_fails :
    ∃ m, viewportTransform .behind ⟨0, 0, 10, 10⟩ (5, 6) (100, 100) = .ok m ∧
      m.apply (0, 0) = (50, 60) := by
  refine ⟨_, rfl, ?_⟩
  decide +kernel

/-! ## C180 -/

/-- **C180 (in part).** A drawing that is laid out at another place of the page shows the same, moved
by as much: each shape is painted, with its own transform and those around it, where it was painted
before, moved by `d`.  For drawings with a view box, or in which no element outside of nested
drawings has a transform about the view box; see below for the others. -/
theorem C180_moves_partial (t : Trig) (diag : Pt → Rat) (s : Style) (cs : List El)
    (known : Option Rat × Option Rat) (containing pos d : Pt)
    (h : s.viewBox ≠ none ∨ ∀ c ∈ cs, ∀ e, Near e c → Settled (styleOf e)) :
    match drawn .before t diag s cs known containing pos with
    | none => drawn .before t diag s cs known containing (pos.1 + d.1, pos.2 + d.2) = none
    | some l => ∃ l', drawn .before t diag s cs known containing (pos.1 + d.1, pos.2 + d.2) = some l' ∧
        Moved d l l' := by
  have key : drawn .before t diag s cs known containing (pos.1 + d.1, pos.2 + d.2) =
      (drawn .before t diag s cs known containing pos).map (also (.translate d.1 d.2)) := by
    unfold drawn run
    cases aspectRatio s.viewBox s.width s.height with
    | error e => rfl
    | ok q =>
      simp only
      cases defaultSizing known q containing with
      | error e => rfl
      | ok size =>
        simp only [commitRoot]
        rw [rootTransform_moved]
        cases rootTransform .before s.viewBox pos size with
        | error e => rfl
        | ok m =>
          simp only [Except.map]
          cases hc : commitAll .before diag (percentageBase s.viewBox size) cs with
          | error e => rfl
          | ok fs =>
            simp only [paintRoot]
            rw [paintAll_also]
            congr 1
            cases hv : s.viewBox with
            | some vb => simp only [paintBox, hv]
            | none =>
              apply paintAll_free
              intro c hcs f hf
              obtain ⟨e, he, e', hn, hs⟩ := commitAll_styles _ _ _ _ _ hc c hcs f hf
              rcases h with h | h
              · exact absurd hv h
              · rw [← hs]; exact h e he e' hn
  rw [key]
  cases drawn .before t diag s cs known containing pos with
  | none => rfl
  | some l => exact ⟨_, rfl, moved_also d l⟩

/-- A rectangle that is drawn twice as large. -/
def doubled (s : Style) : El :=
  .rect { s with transform := some [.scale (.one (.val 2)) (.one (.val 2))] }

/-- With a view box: something is painted, and it moves. -/
example (t : Trig) : ∃ f, drawn .before t (fun _ => 0) { viewBox := some ⟨0, 0, 10, 10⟩ } [doubled {}]
      (some 100, some 100) (500, 500) (0, 0) = some [(f, ⟨20, 0, 0, 20, 0, 0⟩)] ∧
    drawn .before t (fun _ => 0) { viewBox := some ⟨0, 0, 10, 10⟩ } [doubled {}]
      (some 100, some 100) (500, 500) (7, 8) = some [(f, ⟨20, 0, 0, 20, 7, 8⟩)] := by
  refine ⟨.rect { transform := some [.scale (.one (.val 2)) (.one (.val 2))] } ⟨0, 0, 10, 10⟩ 1, ?_, ?_⟩
  all_goals
    simp [drawn, run, aspectRatio, absoluteValue, ratio, defaultSizing, commitRoot, rootTransform,
      viewportTransform, percentageBase, commitAll, doubled, commit, resolveRectangle, fromSize,
      resolve, pixels, paintRoot, paintAll, paintEl, elementMatrix, applyTransform, originOf, originX,
      originY, noLength, resolveCalc, operandPx, resolveTransform, matLoop, matOf, CalcOf.resolve,
      Arg.resolve, Mat.multiply, Mat.translate, Mat.scale, Mat.add, painted, paintBox, reference]
    try grind

/-- **C180.** It is false for drawings without a view box: what a transform is about is then counted
from the corner of the page.  A rectangle that is drawn twice as large is painted at the same place of
the page wherever the drawing is. -/
theorem C180_page_fails (t : Trig) (diag : Pt → Rat) (known : Option Rat × Option Rat)
    (containing pos p : Pt) :
    (drawn .before t diag {} [doubled {}] known containing pos).map
      (List.map fun a => a.2.apply p) = some [(2 * p.1, 2 * p.2)] := by
  have hs : ∃ size, defaultSizing known none containing = .ok size := by
    rcases known with ⟨_ | w, _ | h⟩ <;> exact ⟨_, rfl⟩
  obtain ⟨size, hs⟩ := hs
  simp [drawn, run, aspectRatio, absoluteValue, hs, commitRoot, rootTransform, percentageBase,
    commitAll, doubled, commit, resolveRectangle, fromSize, paintRoot, paintAll, paintEl,
    elementMatrix, applyTransform, originOf, originX, originY, noLength, resolveCalc, operandPx,
    painted, pixels, resolveTransform, matLoop, matOf, CalcOf.resolve, Arg.resolve, paintBox,
    reference, apply_multiply, apply_translate, apply_scale]
  constructor <;> grind

/-! ## C181 -/

theorem run_box {o : Order} {diag : Pt → Rat} {s : Style} {cs : List El}
    {known : Option Rat × Option Rat} {containing pos : Pt} {m : Mat} {frame : Rect} {fs : List Frag}
    (h : run o diag s cs known containing pos = .ok (.root s m frame fs)) :
    ∃ q, aspectRatio s.viewBox s.width s.height = .ok q ∧
      defaultSizing known q containing = .ok (frame.width, frame.height) := by
  obtain ⟨q, size, hq, hs, hc⟩ := run_root h
  unfold commitRoot at hc
  split at hc
  · cases hc
  · split at hc
    · cases hc
    · cases hc
      exact ⟨q, hq, hs⟩

theorem absoluteValue_open {s : Size} (h : Open s) : absoluteValue s = .ok none := by
  cases h <;> rfl

theorem absoluteValue_fixed {s : Size} {v : Rat} (h : Fixed s v) :
    ∃ l, absoluteValue s = .ok (some l) ∧ absPixels l = v := by
  cases h; exact ⟨_, rfl, rfl⟩

/-- What a ratio makes of a size that is not known. -/
theorem defaultSizing_ratio {known : Option Rat × Option Rat} {a b : Rat} (hb : b ≠ 0)
    {containing : Pt} {w h : Rat}
    (hs : defaultSizing known (some (ratio a b)) containing = .ok (w, h))
    (hk : known.1 = none ∨ known.2 = none) : w * b = h * a ∧
      (∀ x, known.1 = some x → w = x) ∧ (∀ x, known.2 = some x → h = x) ∧
        (known.1 = none → known.2 = none → w = containing.1) := by
  have hr : ratio a b = .of (a / b) := by simp [ratio, hb]
  rw [hr] at hs
  have key : ∀ x : Rat, a / b ≠ 0 → x * b = x / (a / b) * a := fun x hx => by
    have e1 : x / (a / b) * (a / b) = x := Rat.div_mul_cancel hx
    have e2 : a / b * b = a := Rat.div_mul_cancel hb
    calc x * b = x / (a / b) * (a / b) * b := by rw [e1]
      _ = x / (a / b) * (a / b * b) := by rw [Rat.mul_assoc]
      _ = _ := by rw [e2]
  have e2 : a / b * b = a := Rat.div_mul_cancel hb
  rcases known with ⟨_ | x, _ | y⟩
  · simp only [defaultSizing, heightFor] at hs
    split at hs
    · simp [Except.map] at hs
    · next hq =>
      simp only [Except.map, Except.ok.injEq, Prod.mk.injEq] at hs
      obtain ⟨rfl, rfl⟩ := hs
      exact ⟨key _ hq, by simp, by simp, by simp⟩
  · simp only [defaultSizing, widthFor, Except.map, Except.ok.injEq, Prod.mk.injEq] at hs
    obtain ⟨rfl, rfl⟩ := hs
    refine ⟨?_, by simp, by simp, by simp⟩
    rw [Rat.mul_assoc, e2]
  · simp only [defaultSizing, heightFor] at hs
    split at hs
    · simp [Except.map] at hs
    · next hq =>
      simp only [Except.map, Except.ok.injEq, Prod.mk.injEq] at hs
      obtain ⟨rfl, rfl⟩ := hs
      exact ⟨key _ hq, by simp, by simp, by simp⟩
  · simp at hk

/-- **C181.** A drawing whose width and height are known is that large. -/
theorem C181_known {o : Order} {diag : Pt → Rat} {s : Style} {cs : List El} {w h : Rat}
    {containing pos : Pt} {m : Mat} {frame : Rect} {fs : List Frag}
    (hr : run o diag s cs (some w, some h) containing pos = .ok (.root s m frame fs)) :
    frame.width = w ∧ frame.height = h := by
  obtain ⟨q, -, hs⟩ := run_box hr
  cases q <;> (simp only [defaultSizing, Except.ok.injEq, Prod.mk.injEq] at hs; simp [hs])

/-- **C181.** A drawing with a view box, of which the width or the height is not known, has a frame
with the proportions of the view box, so that the view box fills it, if `width` or `height` depends
on what is around.  What is known of its size is kept; if nothing is, it is as wide as the space there
is. -/
theorem C181_fills {diag : Pt → Rat} {s : Style} {cs : List El}
    {known : Option Rat × Option Rat} {containing pos : Pt} {m : Mat} {frame : Rect} {fs : List Frag}
    (h : run .before diag s cs known containing pos = .ok (.root s m frame fs))
    {vb : ViewBox} (hv : s.viewBox = some vb) (hw : 0 < vb.width) (hh : 0 < vb.height)
    (ho : Open s.width ∨ Open s.height) (hk : known.1 = none ∨ known.2 = none) :
    Agrees known containing frame ∧ ∃ k : Rat, k * vb.width = frame.width ∧
      k * vb.height = frame.height ∧
      ∀ p, m.apply p = (frame.x + k * (p.1 - vb.minX), frame.y + k * (p.2 - vb.minY)) := by
  obtain ⟨q, hq, hs⟩ := run_box h
  have hq' : q = some (ratio vb.width vb.height) := by
    unfold aspectRatio at hq
    rw [hv] at hq
    rcases ho with ho | ho
    · rw [absoluteValue_open ho] at hq
      split at hq <;> first | (cases hq; done) | skip
      · next e _ => cases e
      · cases hq; rfl
    · rw [absoluteValue_open ho] at hq
      split at hq <;> first | (cases hq; done) | skip
      · next e => cases e
      · cases hq; rfl
  subst hq'
  obtain ⟨hr, ha⟩ := defaultSizing_ratio (by grind) hs hk
  refine ⟨ha, ?_⟩
  obtain ⟨k, hf, h1, h2, he⟩ := C179_fits_partial h .here hv hw hh
  have both : k * vb.width = frame.width ∧ k * vb.height = frame.height := by
    rcases he with he | he
    · refine ⟨he, ?_⟩
      have : (k * vb.height - frame.height) * vb.width = 0 := by grind
      rcases Rat.mul_eq_zero.1 this with h | h <;> grind
    · refine ⟨?_, he⟩
      have : (k * vb.width - frame.width) * vb.height = 0 := by grind
      rcases Rat.mul_eq_zero.1 this with h | h <;> grind
  refine ⟨k, both.1, both.2, fun p => ?_⟩
  rw [hf]
  simp only [Prod.mk.injEq]
  constructor <;> grind

/-- The frame of a drawing. -/
def frameOf : Except Fail Frag → Option Rect
  | .ok (.root _ _ b _) => some b
  | _ => none

/-- Width 50, nothing known of the height: it is 100. -/
example : frameOf (run .before (fun _ => 0) { viewBox := some ⟨0, 0, 10, 20⟩ } [.rect {}]
      (some 50, none) (500, 300) (5, 6)) = some ⟨5, 6, 50, 100⟩ ∧ Open ({} : Style).width :=
  ⟨by decide +kernel, .auto⟩

/-- **C181.** With a width and a height in absolute units, of which layout asks for one, the frame has
their proportions, whatever the view box. -/
theorem C181_lengths {o : Order} {diag : Pt → Rat} {s : Style} {cs : List El}
    {known : Option Rat × Option Rat} {containing pos : Pt} {m : Mat} {frame : Rect} {fs : List Frag}
    (h : run o diag s cs known containing pos = .ok (.root s m frame fs)) {w' h' : Rat}
    (hw : Fixed s.width w') (hh : Fixed s.height h') (h0 : h' ≠ 0)
    (hk : known.1 = none ∨ known.2 = none) :
    Agrees known containing frame ∧ frame.width * h' = frame.height * w' := by
  obtain ⟨q, hq, hs⟩ := run_box h
  obtain ⟨lw, hw1, rfl⟩ := absoluteValue_fixed hw
  obtain ⟨lh, hh1, rfl⟩ := absoluteValue_fixed hh
  simp only [aspectRatio, hw1, hh1, Except.ok.injEq] at hq
  subst hq
  obtain ⟨hr, ha⟩ := defaultSizing_ratio h0 hs hk
  exact ⟨ha, hr⟩

example : Fixed (.calc (.one (.val (.length (.abs 1 .in))))) 96 := by
  have : pixels 1 .in = 96 := by decide +kernel
  rw [← this]; exact .mk

/-- **C181.** It is false that a drawing of which nothing is known, and that has no view box, is 300
pixels wide and 150 high: what is not known of its size is that of the space there is. -/
theorem C181_default_fails (o : Order) (diag : Pt → Rat) (cs : List El)
    (known : Option Rat × Option Rat) (containing pos : Pt) {m : Mat} {frame : Rect} {fs : List Frag}
    (h : run o diag {} cs known containing pos = .ok (.root {} m frame fs)) :
    frame.width = known.1.getD containing.1 ∧ frame.height = known.2.getD containing.2 := by
  obtain ⟨q, hq, hs⟩ := run_box h
  cases hq
  obtain ⟨_ | w, _ | h⟩ := known <;>
    (simp only [defaultSizing, Option.map_none, Except.ok.injEq] at hs; exact ⟨(congrArg Prod.fst hs).symm, (congrArg Prod.snd hs).symm⟩)

/-- **C181.** It is false that lengths relative to the font count as lengths: they are taken as
nothing, and the proportions of a drawing with `height: 1em` are a division by zero. -/
theorem C181_relative_fails (o : Order) (diag : Pt → Rat) (s : Style) (cs : List El)
    (containing pos : Pt) (l : Length) (v : Rat) (u : RelUnit) (w : Option Rat)
    (hw : s.width = .calc (.one (.val (.length l))))
    (hh : s.height = .calc (.one (.val (.length (.rel v u))))) :
    run o diag s cs (w, none) containing pos = .error .infinite := by
  cases w <;> simp [run, hw, hh, aspectRatio, absoluteValue, extractValue, absPixels, ratio,
    defaultSizing, heightFor, Except.map]

end Verif.Svg
