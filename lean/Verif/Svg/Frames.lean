import Verif.Svg.Spec
import Verif.Transform.Lemmas

/-!
# Drawings: frames, places and sizes (C179, C180, C181)
-/

namespace Verif.Svg
open Verif.Values Verif.Transform Spec

/-! ## The transform of a view box -/

theorem viewport_fitted {vb : ViewBox} (hw : 0 < vb.width) (hh : 0 < vb.height) {pos size : Pt}
    {m : Mat} (h : viewportTransform .before vb pos size = .ok m) :
    Fitted vb ⟨pos.1, pos.2, size.1, size.2⟩ m.apply := by
  have hw' : vb.width ≠ 0 := by grind
  have hh' : vb.height ≠ 0 := by grind
  have ex : size.1 / vb.width * vb.width = size.1 := Rat.div_mul_cancel hw'
  have ey : size.2 / vb.height * vb.height = size.2 := Rat.div_mul_cancel hh'
  simp only [viewportTransform, hw', hh', or_self, if_false, Except.ok.injEq] at h
  subst h
  by_cases c : size.1 / vb.width ≤ size.2 / vb.height
  · simp only [c, if_true]
    refine ⟨size.1 / vb.width, fun p => ?_, by grind, ?_, by grind⟩
    · simp only [Mat.add, apply_multiply, apply_scale, apply_translate, Prod.mk.injEq]
      constructor <;> grind
    · have := Rat.mul_le_mul_of_nonneg_right c (Rat.le_of_lt hh)
      simp only at this ⊢; grind
  · simp only [c, if_false]
    have c' : size.2 / vb.height ≤ size.1 / vb.width := by grind
    refine ⟨size.2 / vb.height, fun p => ?_, ?_, by grind, by grind⟩
    · simp only [Mat.add, apply_multiply, apply_scale, apply_translate, Prod.mk.injEq]
      constructor <;> grind
    · have := Rat.mul_le_mul_of_nonneg_right c' (Rat.le_of_lt hw)
      simp only at this ⊢; grind

/-- What is true of each root as it is made. -/
def RootOk (o : Order) (f : Frag) : Prop :=
  ∀ s m b cs, f = .root s m b cs → rootTransform o s.viewBox (b.x, b.y) (b.width, b.height) = .ok m

mutual
theorem commit_roots (o : Order) (diag : Pt → Rat) (rel : Pt) :
    ∀ (e : El) (g : Frag), commit o diag rel e = .ok g → ∀ f, Inside f g → RootOk o f
  | .rect s, g, h, f, hf => by
    simp only [commit] at h
    split at h
    · cases h; cases hf; intro _ _ _ _ e; cases e
    · cases h
  | .circle s, g, h, f, hf => by
    simp only [commit] at h
    cases h; cases hf; intro _ _ _ _ e; cases e
  | .path s b, g, h, f, hf => by
    simp only [commit] at h
    cases h; cases hf; intro _ _ _ _ e; cases e
  | .group s cs, g, h, f, hf => by
    simp only [commit] at h
    split at h
    · next fs hfs =>
      cases h
      cases hf with
      | here => intro _ _ _ _ e; cases e
      | group hc hi => exact commitAll_roots o diag rel cs fs hfs _ hc f hi
    · cases h
  | .root s cs, g, h, f, hf => by
    simp only [commit] at h
    split at h
    · cases h
    · next r hr =>
      split at h
      · cases h
      · next m hm =>
        split at h
        · cases h
        · next fs hfs =>
          cases h
          cases hf with
          | here => intro _ _ _ _ e; cases e; exact hm
          | root hc hi => exact commitAll_roots o diag _ cs fs hfs _ hc f hi
  | .foreign s, g, h, f, hf => by
    simp only [commit] at h
    split at h
    · cases h; cases hf; intro _ _ _ _ e; cases e
    · cases h
theorem commitAll_roots (o : Order) (diag : Pt → Rat) (rel : Pt) :
    ∀ (es : List El) (fs : List Frag), commitAll o diag rel es = .ok fs →
      ∀ c, c ∈ fs → ∀ f, Inside f c → RootOk o f
  | [], fs, h, c, hc, f, hf => by
    simp only [commitAll] at h
    cases h; cases hc
  | e :: es, fs, h, c, hc, f, hf => by
    simp only [commitAll] at h
    split at h
    · cases h
    · next g hg =>
      split at h
      · cases h
      · next gs hgs =>
        cases h
        rcases List.mem_cons.1 hc with rfl | hc
        · exact commit_roots o diag rel e _ hg f hf
        · exact commitAll_roots o diag rel es gs hgs c hc f hf
end

theorem commitRoot_roots {o : Order} {diag : Pt → Rat} {s : Style} {cs : List El} {pos size : Pt}
    {g : Frag} (h : commitRoot o diag s cs pos size = .ok g) (f : Frag) (hf : Inside f g) :
    RootOk o f := by
  unfold commitRoot at h
  split at h
  · cases h
  · next m hm =>
    split at h
    · cases h
    · next fs hfs =>
      cases h
      cases hf with
      | here => intro _ _ _ _ e; cases e; exact hm
      | root hc hi => exact commitAll_roots o diag _ cs fs hfs _ hc f hi

/-! ## Painting at another place -/

theorem multiply_assoc (a b c : Mat) : (a.multiply b).multiply c = a.multiply (b.multiply c) := by
  simp only [Mat.multiply, Mat.mk.injEq]
  refine ⟨?_, ?_, ?_, ?_, ?_, ?_⟩ <;> grind

/-- Something more done to all shapes. -/
def also (x : Mat) (l : List (Frag × Mat)) : List (Frag × Mat) := l.map fun a => (a.1, a.2.multiply x)

mutual
theorem paintEl_also (t : Trig) (x : Mat) : ∀ (f : Frag) (view : Rect) (m : Mat),
    paintEl t view (m.multiply x) f = (paintEl t view m f).map (also x)
  | .rect s r w, view, m => by
    simp only [paintEl]
    cases elementMatrix t s (objectBox (.rect s r w)) (strokeBox (.rect s r w)) view <;>
      simp [also, multiply_assoc]
  | .circle s cx cy r w, view, m => by
    simp only [paintEl]
    cases elementMatrix t s (objectBox (.circle s cx cy r w)) (strokeBox (.circle s cx cy r w)) view <;>
      simp [also, multiply_assoc]
  | .path s b w, view, m => by
    simp only [paintEl]
    cases elementMatrix t s (objectBox (.path s b w)) (strokeBox (.path s b w)) view <;>
      simp [also, multiply_assoc]
  | .group s cs, view, m => by
    simp only [paintEl]
    cases elementMatrix t s (objectBox (.group s cs)) (strokeBox (.group s cs)) view with
    | none => rfl
    | some a =>
      have := paintAll_also t x cs view (a.multiply m)
      rw [multiply_assoc] at this
      exact this
  | .root s rm b cs, view, m => by
    simp only [paintEl]
    cases elementMatrix t s b b view with
    | none => rfl
    | some a =>
      have := paintAll_also t x cs (paintBox s b) (rm.multiply (a.multiply m))
      rw [multiply_assoc, multiply_assoc] at this
      exact this
  | .foreign s b, view, m => by simp [paintEl, also]
theorem paintAll_also (t : Trig) (x : Mat) : ∀ (fs : List Frag) (view : Rect) (m : Mat),
    paintAll t view (m.multiply x) fs = (paintAll t view m fs).map (also x)
  | [], view, m => by simp [paintAll, also]
  | f :: fs, view, m => by
    simp only [paintAll]
    rw [paintEl_also t x f view m, paintAll_also t x fs view m]
    cases paintEl t view m f with
    | none => rfl
    | some a =>
      cases paintAll t view m fs with
      | none => rfl
      | some b => simp [also]
end

theorem moved_also (d : Pt) (l : List (Frag × Mat)) : Moved d l (also (.translate d.1 d.2) l) := by
  induction l with
  | nil => exact .nil
  | cons a l ih =>
    refine .cons (fun p => ?_) ih
    rw [apply_multiply, apply_translate]

theorem translate_add (x y dx dy : Rat) :
    Mat.translate (x + dx) (y + dy) = (Mat.translate x y).multiply (.translate dx dy) := by
  simp only [Mat.translate, Mat.multiply, Mat.mk.injEq]
  refine ⟨?_, ?_, ?_, ?_, ?_, ?_⟩ <;> grind

theorem viewport_moved (vb : ViewBox) (pos size d : Pt) :
    viewportTransform .before vb (pos.1 + d.1, pos.2 + d.2) size =
      (viewportTransform .before vb pos size).map (·.multiply (.translate d.1 d.2)) := by
  by_cases c : vb.width = 0 ∨ vb.height = 0
  · simp [viewportTransform, c, Except.map]
  · simp only [viewportTransform, c, if_false, Except.map, Except.ok.injEq]
    simp only [Mat.add, Mat.translate, Mat.scale, Mat.multiply, Mat.mk.injEq]
    refine ⟨?_, ?_, ?_, ?_, ?_, ?_⟩ <;> grind

theorem rootTransform_moved (vb : Option ViewBox) (pos size d : Pt) :
    rootTransform .before vb (pos.1 + d.1, pos.2 + d.2) size =
      (rootTransform .before vb pos size).map (·.multiply (.translate d.1 d.2)) := by
  cases vb with
  | some vb => exact viewport_moved vb pos size d
  | none => simp only [rootTransform, Except.map, translate_add]

/-! ## References that do not count -/

/-- No transform of an element of this drawing (of one inside it, any may) is about the view. -/
def FreeOfView (cs : List Frag) : Prop := ∀ c ∈ cs, ∀ f, Within f c → Settled (fragStyle f)

theorem elementMatrix_free {t : Trig} {s : Style} (h : Settled s)
    (a b v v' : Rect) : elementMatrix t s a b v = elementMatrix t s a b v' := by
  unfold elementMatrix
  rcases h with h | h
  · rw [h]
  · cases s.transform with
    | none => rfl
    | some fs =>
      simp only
      cases hb : s.box <;> simp_all [reference]

theorem freeOfView_group {s : Style} {cs fs : List Frag} (h : FreeOfView (.group s cs :: fs)) :
    FreeOfView cs := fun c hc f hf =>
  h _ (List.mem_cons_self ..) f (.group hc hf)

theorem freeOfView_tail {f : Frag} {fs : List Frag} (h : FreeOfView (f :: fs)) : FreeOfView fs :=
  fun c hc => h c (List.mem_cons_of_mem _ hc)

mutual
theorem paintEl_free (t : Trig) : ∀ (f : Frag) (fs : List Frag) (_ : FreeOfView (f :: fs))
    (v v' : Rect) (m : Mat), paintEl t v m f = paintEl t v' m f
  | .rect s r w, fs, h, v, v', m => by
    simp only [paintEl]
    rw [elementMatrix_free (s := s) (h _ (List.mem_cons_self ..) _ .here) _ _ v v']
  | .circle s cx cy r w, fs, h, v, v', m => by
    simp only [paintEl]
    rw [elementMatrix_free (s := s) (h _ (List.mem_cons_self ..) _ .here) _ _ v v']
  | .path s b w, fs, h, v, v', m => by
    simp only [paintEl]
    rw [elementMatrix_free (s := s) (h _ (List.mem_cons_self ..) _ .here) _ _ v v']
  | .group s cs, fs, h, v, v', m => by
    simp only [paintEl]
    rw [elementMatrix_free (s := s) (h _ (List.mem_cons_self ..) _ .here) _ _ v v']
    cases elementMatrix t s (objectBox (.group s cs)) (strokeBox (.group s cs)) v' with
    | none => rfl
    | some a => exact paintAll_free t cs (freeOfView_group h) v v' _
  | .root s rm b cs, fs, h, v, v', m => by
    simp only [paintEl]
    rw [elementMatrix_free (s := s) (h _ (List.mem_cons_self ..) _ .here) _ _ v v']
  | .foreign s b, fs, h, v, v', m => rfl
theorem paintAll_free (t : Trig) : ∀ (fs : List Frag) (_ : FreeOfView fs) (v v' : Rect) (m : Mat),
    paintAll t v m fs = paintAll t v' m fs
  | [], h, v, v', m => rfl
  | f :: fs, h, v, v', m => by
    simp only [paintAll]
    rw [paintEl_free t f fs h v v' m, paintAll_free t fs (freeOfView_tail h) v v' m]
end

mutual
theorem commit_styles (o : Order) (diag : Pt → Rat) (rel : Pt) : ∀ (e : El) (g : Frag),
    commit o diag rel e = .ok g → ∀ f, Within f g → ∃ e', Near e' e ∧ styleOf e' = fragStyle f
  | .rect s, g, h, f, hf => by
    simp only [commit] at h
    split at h
    · cases h; cases hf; exact ⟨_, .here, rfl⟩
    · cases h
  | .circle s, g, h, f, hf => by
    simp only [commit] at h
    cases h; cases hf; exact ⟨_, .here, rfl⟩
  | .path s b, g, h, f, hf => by
    simp only [commit] at h
    cases h; cases hf; exact ⟨_, .here, rfl⟩
  | .group s cs, g, h, f, hf => by
    simp only [commit] at h
    split at h
    · next fs hfs =>
      cases h
      cases hf with
      | here => exact ⟨_, .here, rfl⟩
      | group hc hi =>
        obtain ⟨c, hc, e', he, hs⟩ := commitAll_styles o diag rel cs fs hfs _ hc f hi
        exact ⟨e', .group hc he, hs⟩
    · cases h
  | .root s cs, g, h, f, hf => by
    simp only [commit] at h
    split at h
    · cases h
    · split at h
      · cases h
      · split at h
        · cases h
        · cases h; cases hf; exact ⟨_, .here, rfl⟩
  | .foreign s, g, h, f, hf => by
    simp only [commit] at h
    split at h
    · cases h; cases hf; exact ⟨_, .here, rfl⟩
    · cases h
theorem commitAll_styles (o : Order) (diag : Pt → Rat) (rel : Pt) :
    ∀ (es : List El) (fs : List Frag), commitAll o diag rel es = .ok fs →
      ∀ c, c ∈ fs → ∀ f, Within f c → ∃ e, e ∈ es ∧ ∃ e', Near e' e ∧ styleOf e' = fragStyle f
  | [], fs, h, c, hc, f, hf => by
    simp only [commitAll] at h
    cases h; cases hc
  | e :: es, fs, h, c, hc, f, hf => by
    simp only [commitAll] at h
    split at h
    · cases h
    · next g hg =>
      split at h
      · cases h
      · next gs hgs =>
        cases h
        rcases List.mem_cons.1 hc with rfl | hc
        · exact ⟨e, List.mem_cons_self .., commit_styles o diag rel e _ hg f hf⟩
        · obtain ⟨e', he, r⟩ := commitAll_styles o diag rel es gs hgs c hc f hf
          exact ⟨e', List.mem_cons_of_mem _ he, r⟩
end

end Verif.Svg
