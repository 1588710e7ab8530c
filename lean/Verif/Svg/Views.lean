import Verif.Svg.Attrs
import Verif.Svg.Props

/-!
# Drawings: what percentages refer to
-/

namespace Verif.Svg.Spec
open Verif.Values Verif.Transform

/-- A length in user units, where a whole is `w` units long. -/
inductive Amount (w : Rat) : PL → Rat → Prop
  | user : Amount w (.length (.abs v .px)) v
  | part : Amount w (.percent p) (w * p / 100)

/-- The same of `width` and `height`. -/
inductive Extent (w : Rat) : Size → Rat → Prop
  | amount : Amount w v x → Extent w (.calc (.one (.val v))) x

/-- The view of a drawing that is `w` wide and `h` high: its view box, if it has one. -/
inductive View (w h : Rat) : Option ViewBox → Rat → Rat → Prop
  | box : View w h (some vb) vb.width vb.height
  | none : View w h .none w h

/-- The rectangle an element with `x`, `y`, `width` and `height` asks for in a view that is `w` wide
and `h` high. -/
structure Asked (w h : Rat) (s : Style) (r : Rect) : Prop where
  x : Amount w s.x r.x
  y : Amount h s.y r.y
  width : Extent w s.width r.width
  height : Extent h s.height r.height

/-- `f` is what is laid out of `e` in a view that is `w` wide and `h` high. -/
inductive Shown (w h : Rat) : El → Frag → Prop
  | rect : Asked w h s r → Shown w h (.rect s) (.rect s r b)
  | circle : Amount w s.cx x → Amount h s.cy y → Shown w h (.circle s) (.circle s x y r b)
  | foreign : Asked w h s r → Shown w h (.foreign s) (.foreign s r)
  | root : Asked w h s r → Shown w h (.root s cs) (.root s m r fs)

/-- All of `x`, `y`, `cx`, `cy`, `width` and `height` that an element has are numbers of user units or
percentages. -/
def Plainly : PL → Prop
  | .length (.abs _ .px) => True
  | .percent _ => True
  | _ => False

inductive Plain : El → Prop
  | rect : Plainly s.x → Plainly s.y → s.width = .calc (.one (.val a)) → Plainly a →
      s.height = .calc (.one (.val b)) → Plainly b → Plain (.rect s)
  | circle : Plainly s.cx → Plainly s.cy → Plain (.circle s)
  | foreign : Plainly s.x → Plainly s.y → s.width = .calc (.one (.val a)) → Plainly a →
      s.height = .calc (.one (.val b)) → Plainly b → Plain (.foreign s)
  | root : Plainly s.x → Plainly s.y → s.width = .calc (.one (.val a)) → Plainly a →
      s.height = .calc (.one (.val b)) → Plainly b → Plain (.root s cs)

mutual
/-- The shapes of what is laid out, in the order of the document. -/
def shapes : Frag → List Frag
  | .rect s r w => [.rect s r w]
  | .circle s cx cy r w => [.circle s cx cy r w]
  | .path s b w => [.path s b w]
  | .group _ cs => shapesOf cs
  | .root _ _ _ cs => shapesOf cs
  | .foreign _ _ => []
def shapesOf : List Frag → List Frag
  | [] => []
  | f :: fs => shapes f ++ shapesOf fs
end

end Verif.Svg.Spec

namespace Verif.Svg
open Verif.Values Verif.Transform Verif.Svg.Spec

theorem amount_resolve {v : PL} (h : Plainly v) (w : Rat) : Amount w v (resolve v w) := by
  match v, h with
  | .length (.abs _ .px), _ => exact .user
  | .percent p, _ =>
    have : w * (p / 100) = w * p / 100 := by grind
    simp only [resolve, this]
    exact .part

theorem asked {s : Style} {rel : Pt} {r : Rect} (hr : resolveRectangle s rel = .ok r)
    (hx : Plainly s.x) (hy : Plainly s.y) (ha : s.width = .calc (.one (.val a))) (pa : Plainly a)
    (hb : s.height = .calc (.one (.val b))) (pb : Plainly b) : Asked rel.1 rel.2 s r := by
  simp only [resolveRectangle, ha, hb, fromSize, extractValue, Option.getD_some] at hr
  cases hr
  exact ⟨amount_resolve hx _, amount_resolve hy _, ha ▸ .amount (amount_resolve pa _),
    hb ▸ .amount (amount_resolve pb _)⟩

theorem shown {o : Order} {diag : Pt → Rat} {rel : Pt} {e : El} {f : Frag}
    (h : commit o diag rel e = .ok f) (hp : Plain e) : Shown rel.1 rel.2 e f := by
  cases hp with
  | rect hx hy ha pa hb pb =>
    rw [commit] at h
    split at h
    · next r hr => cases h; exact .rect (asked hr hx hy ha pa hb pb)
    · cases h
  | circle hx hy =>
    rw [commit] at h
    cases h
    exact .circle (amount_resolve hx _) (amount_resolve hy _)
  | foreign hx hy ha pa hb pb =>
    rw [commit] at h
    split at h
    · next r hr => cases h; exact .foreign (asked hr hx hy ha pa hb pb)
    · cases h
  | root hx hy ha pa hb pb =>
    rw [commit] at h
    split at h
    · cases h
    · next r hr =>
      split at h
      · cases h
      · split at h
        · cases h
        · cases h; exact .root (asked hr hx hy ha pa hb pb)

theorem commitAll_mem {o : Order} {diag : Pt → Rat} {rel : Pt} :
    ∀ {cs : List El} {fs : List Frag}, commitAll o diag rel cs = .ok fs → ∀ e ∈ cs,
      ∃ f ∈ fs, commit o diag rel e = .ok f
  | [], _, _, _, h => by cases h
  | c :: cs, fs, h, e, he => by
    rw [commitAll] at h
    split at h
    · cases h
    · next f hf =>
      split at h
      · cases h
      · next fs' hfs =>
        cases h
        rcases List.mem_cons.1 he with rfl | he
        · exact ⟨f, List.mem_cons_self, hf⟩
        · obtain ⟨g, hg, hc⟩ := commitAll_mem hfs e he
          exact ⟨g, List.mem_cons_of_mem _ hg, hc⟩

theorem near_commit {o : Order} {diag : Pt → Rat} {rel : Pt} {e c : El} (hn : Near e c) :
    ∀ {f : Frag}, commit o diag rel c = .ok f → ∃ g, Within g f ∧ commit o diag rel e = .ok g := by
  induction hn with
  | here => intro f hf; exact ⟨f, .here, hf⟩
  | group hc _ ih =>
    intro f hf
    rw [commit] at hf
    split at hf
    · next fs hfs =>
      cases hf
      obtain ⟨g, hg, hcg⟩ := commitAll_mem hfs _ hc
      obtain ⟨k, hk, he⟩ := ih hcg
      exact ⟨k, .group hg hk, he⟩
    · cases hf

theorem all_commit {o : Order} {diag : Pt → Rat} {rel : Pt} {e : El} {s : Style} {cs : List El}
    {fs : List Frag} (hn : Near e (.group s cs)) (hp : Plain e) (h : commitAll o diag rel cs = .ok fs) :
    ∃ g, Within g (.group s fs) ∧ Shown rel.1 rel.2 e g := by
  have hc : commit o diag rel (.group s cs) = .ok (.group s fs) := by rw [commit, h]
  obtain ⟨g, hg, he⟩ := near_commit hn hc
  exact ⟨g, hg, shown he hp⟩

theorem base_view (vb : Option ViewBox) (size : Pt) :
    View size.1 size.2 vb (percentageBase vb size).1 (percentageBase vb size).2 := by
  cases vb with
  | some vb => exact .box
  | none => exact .none

/-- **C182 (in part).** In a drawing that is `size` wide and high, at any depth of groups, the
percentages of `x`, `cx` and `width` are parts of the width of its view and those of `y`, `cy` and
`height` parts of the height, where the view is the view box if there is one. -/
theorem C182_view_partial {o : Order} {diag : Pt → Rat} {s : Style} {cs : List El} {pos size : Pt}
    {root : Frag} {e : El} (h : commitRoot o diag s cs pos size = .ok root)
    (hn : Near e (.group s cs)) (hp : Plain e) :
    ∃ w h m b fs g, View size.1 size.2 s.viewBox w h ∧ root = .root s m b fs ∧
      Within g (.group s fs) ∧ Shown w h e g := by
  rw [commitRoot] at h
  split at h
  · cases h
  · split at h
    · cases h
    · next fs hfs =>
      cases h
      obtain ⟨g, hg, hs⟩ := all_commit hn hp hfs
      exact ⟨_, _, _, _, fs, g, base_view _ _, rfl, hg, hs⟩

/-- **C182 (in part).** The same in a drawing in a drawing: its own place is a part of the view around
it, and percentages in it are parts of its view. -/
theorem C182_nested_partial {o : Order} {diag : Pt → Rat} {rel : Pt} {s : Style} {cs : List El}
    {f : Frag} {e : El} (h : commit o diag rel (.root s cs) = .ok f) (hr : Plain (.root s cs))
    (hn : Near e (.group s cs)) (hp : Plain e) :
    ∃ r w h m fs g, Asked rel.1 rel.2 s r ∧ View r.width r.height s.viewBox w h ∧
      f = .root s m r fs ∧ Within g (.group s fs) ∧ Shown w h e g := by
  have h0 := shown h hr
  rw [commit] at h
  split at h
  · cases h
  · next r _ =>
    split at h
    · cases h
    · split at h
      · cases h
      · next fs hfs =>
        cases h
        cases h0 with
        | root ha =>
          obtain ⟨g, hg, hs⟩ := all_commit hn hp hfs
          exact ⟨r, _, _, _, fs, g, ha, base_view _ (r.width, r.height), rfl, hg, hs⟩

/-- A rectangle over the right half of the upper fifth of a view of 200 by 50, in a group. -/
example :
    let q : Style := { x := .percent 50, y := .length (.abs 0 .px),
                       width := .calc (.one (.val (.percent 50))),
                       height := .calc (.one (.val (.percent 20))) }
    Plain (.rect q) ∧ Near (.rect q) (.group {} [.group {} [.rect q]]) ∧
      Shown 200 50 (.rect q) (.rect q ⟨100, 0, 100, 10⟩ 1) ∧
      ∃ r, commitRoot .before (fun p => p.1) { viewBox := some ⟨0, 0, 200, 50⟩ } [.group {} [.rect q]] (0, 0) (10, 10) = .ok r := by
  refine ⟨.rect trivial trivial rfl trivial rfl trivial, .group (List.mem_singleton.2 rfl) (.group (List.mem_singleton.2 rfl) .here),
    .rect ⟨?_, .user, .amount ?_, .amount ?_⟩, ⟨_, by
      simp [commitRoot, rootTransform, viewportTransform, commitAll, commit, resolveRectangle, fromSize, extractValue]
      rfl⟩⟩
  · exact cast (congrArg _ (by grind : (200 * 50 / 100 : Rat) = 100)) (Amount.part (w := 200) (p := 50))
  · exact cast (congrArg _ (by grind : (200 * 50 / 100 : Rat) = 100)) (Amount.part (w := 200) (p := 50))
  · exact cast (congrArg _ (by grind : (50 * 20 / 100 : Rat) = 10)) (Amount.part (w := 50) (p := 20))

/-! ## Painting -/

mutual
theorem paintEl_shapes {t : Trig} : ∀ {view : Rect} {outer : Mat} {f : Frag} {l : List (Frag × Mat)},
    paintEl t view outer f = some l → l.map Prod.fst = shapes f
  | _, _, .rect .., l, h => by
    simp only [paintEl, Option.bind_eq_bind, Option.bind_eq_some_iff, Option.some.injEq] at h
    obtain ⟨m, _, rfl⟩ := h; rfl
  | _, _, .circle .., l, h => by
    simp only [paintEl, Option.bind_eq_bind, Option.bind_eq_some_iff, Option.some.injEq] at h
    obtain ⟨m, _, rfl⟩ := h; rfl
  | _, _, .path .., l, h => by
    simp only [paintEl, Option.bind_eq_bind, Option.bind_eq_some_iff, Option.some.injEq] at h
    obtain ⟨m, _, rfl⟩ := h; rfl
  | _, _, .group .., l, h => by
    simp only [paintEl, Option.bind_eq_bind, Option.bind_eq_some_iff] at h
    obtain ⟨m, _, h⟩ := h
    exact paintAll_shapes h
  | _, _, .root .., l, h => by
    simp only [paintEl, Option.bind_eq_bind, Option.bind_eq_some_iff] at h
    obtain ⟨m, _, h⟩ := h
    exact paintAll_shapes h
  | _, _, .foreign .., l, h => by
    simp only [paintEl, Option.some.injEq] at h
    subst h; rfl
theorem paintAll_shapes {t : Trig} : ∀ {view : Rect} {outer : Mat} {fs : List Frag} {l : List (Frag × Mat)},
    paintAll t view outer fs = some l → l.map Prod.fst = shapesOf fs
  | _, _, [], l, h => by
    simp only [paintAll, Option.some.injEq] at h
    subst h; rfl
  | _, _, f :: fs, l, h => by
    simp only [paintAll, Option.bind_eq_bind, Option.bind_eq_some_iff, Option.some.injEq] at h
    obtain ⟨a, ha, b, hb, rfl⟩ := h
    rw [List.map_append, paintEl_shapes ha, paintAll_shapes hb, shapesOf]
end

/-- **C180 (in part).** All shapes of a drawing are painted, each once, those that stand later in the
document over those before them. -/
theorem C180_order_partial {t : Trig} {f : Frag} {l : List (Frag × Mat)} (h : paintRoot t f = some l) :
    l.map Prod.fst = shapes f := by
  cases f with
  | root s m b cs => rw [shapes]; exact paintAll_shapes h
  | _ => cases h

/-- **C180 (in part).** In a drawing with a view box, what `transform-origin` counts from is the place
where the coordinates of the view are zero, wherever the view box begins, and its percentages are of
the size of the view box: this point stays where it is when a rectangle is drawn twice as large. -/
theorem C180_origin_partial (t : Trig) (s q : Style) (m : Mat) (b r : Rect) (w x y : Rat) {vb : ViewBox}
    (hv : s.viewBox = some vb) (hb : q.box = .view)
    (ht : q.transform = some [.scale (.one (.val 2)) (.one (.val 2))])
    (ho : q.origin = (.calc (.one (.val (.percent x))), .calc (.one (.val (.percent y))))) :
    ∃ k, paintRoot t (.root s m b [.rect q r w]) = some [(.rect q r w, k)] ∧
      ∀ p : Pt, k.apply p = m.apply (2 * p.1 - vb.width * x / 100, 2 * p.2 - vb.height * y / 100) := by
  refine ⟨_, by
    simp [paintRoot, paintBox, hv, paintAll, paintEl, elementMatrix, ht, hb, ho, applyTransform,
      originOf, originX, originY, resolveCalc, operandPx, painted, reference, resolveTransform, matLoop,
      matOf, CalcOf.resolve, Arg.resolve]
    rfl, ?_⟩
  intro p
  simp only [apply_multiply, apply_translate, apply_scale, Mat.identity]
  congr 1
  ext <;> simp <;> grind

/-- About the middle of a view box that begins at `(5, 5)`, with a rectangle before a circle. -/
example (t : Trig) :
    let q : Style := { transform := some [.scale (.one (.val 2)) (.one (.val 2))], box := .view
                       origin := (.calc (.one (.val (.percent 50))), .calc (.one (.val (.percent 50)))) }
    ({ viewBox := some ⟨5, 5, 10, 20⟩ } : Style).viewBox = some ⟨5, 5, 10, 20⟩ ∧ q.box = .view ∧
    (∃ l, paintRoot t (.root {} .identity ⟨0, 0, 1, 1⟩ [.rect {} ⟨0, 0, 1, 1⟩ 0, .circle {} 0 0 1 0]) = some l) := by
  exact ⟨rfl, rfl, _, rfl⟩

end Verif.Svg
