import Verif.Sizing.Model
import Verif.Sizing.Spec
/-!
# Sizes: lemmas
-/
namespace Verif.Sizing
open Spec

theorem le_scale {x a b c : Int} (hb : 0 < b) (h : c * b ≤ x * a) : c ≤ scale x a b :=
  (Int.le_ediv_iff_mul_le hb).2 h

theorem scale_le {x a b c : Int} (hb : 0 < b) (h : x * a ≤ c * b) : scale x a b ≤ c := by
  have h1 : scale x a b ≤ c * b / b := Int.ediv_le_ediv hb h
  rwa [Int.mul_ediv_cancel _ (by omega)] at h1

theorem ge_of_scale {x a b : Int} (hb : 0 < b) (ha : 0 ≤ a) (h : b ≤ x) : a ≤ scale x a b :=
  le_scale hb (by rw [Int.mul_comm a b]; exact Int.mul_le_mul_of_nonneg_right h ha)

theorem le_of_scale {x a b : Int} (hb : 0 < b) (ha : 0 ≤ a) (h : x ≤ b) : scale x a b ≤ a :=
  scale_le hb (by rw [Int.mul_comm a b]; exact Int.mul_le_mul_of_nonneg_right h ha)

theorem scale_floor {x a b : Int} (hb : 0 < b) : scale x a b * b ≤ x * a ∧ x * a < (scale x a b + 1) * b :=
  ⟨Int.ediv_mul_le _ (by omega), Int.lt_ediv_add_one_mul_self _ hb⟩

theorem clamp_in {x lo hi : Int} (h : lo ≤ hi) : lo ≤ clamp x lo hi ∧ clamp x lo hi ≤ hi := by unfold clamp; omega

/-- The bounds as they are used, and what `scale` gives there. -/
theorem applyMinMax_bounds (big : Int) (b : Bounds) (w h : Int) (specW specH : Bool) (hw : 0 ≤ w) (hh : 0 ≤ h)
    (h1 : 0 ≤ b.minW.getD 0) (h2 : 0 ≤ b.minH.getD 0) :
    let r := applyMinMax big b w h specW specH
    (b.minW.getD 0 ≤ r.1 ∧ r.1 ≤ max (b.maxW.getD big) (b.minW.getD 0)) ∧
    (b.minH.getD 0 ≤ r.2 ∧ r.2 ≤ max (b.maxH.getD big) (b.minH.getD 0)) := by
  intro r
  have hr : applyMinMax big b w h specW specH = r := rfl
  clear_value r
  unfold applyMinMax at hr
  dsimp only at hr
  generalize b.minW.getD 0 = minW at *
  generalize b.minH.getD 0 = minH at *
  generalize hmw : max (b.maxW.getD big) minW = maxW at *
  generalize hmh : max (b.maxH.getD big) minH = maxH at *
  have hmw' : minW ≤ maxW := by omega
  have hmh' : minH ≤ maxH := by omega
  clear hmw hmh
  by_cases hc1 : specW = true ∧ specH = true
  · rw [if_pos hc1] at hr; subst hr; exact ⟨clamp_in hmw', clamp_in hmh'⟩
  rw [if_neg hc1] at hr
  by_cases hc2 : specW = true ∧ ¬specH = true
  · rw [if_pos hc2] at hr; subst hr; exact ⟨clamp_in hmw', clamp_in hmh'⟩
  rw [if_neg hc2] at hr
  split at hr
  · subst hr; exact ⟨clamp_in hmw', clamp_in hmh'⟩
  next hz =>
  have hw0 : 0 < w := by omega
  have hh0 : 0 < h := by omega
  split at hr
  · subst hr; refine ⟨⟨?_, ?_⟩, ?_, ?_⟩ <;> simp only <;> omega
  split at hr
  · subst hr; refine ⟨⟨?_, ?_⟩, ?_, ?_⟩ <;> simp only <;> omega
  split at hr
  · next hb =>
    split at hr
    · next hc =>
      have := le_scale hw0 (Int.le_of_lt hc)
      subst hr; refine ⟨⟨?_, ?_⟩, ?_, ?_⟩ <;> simp only <;> omega
    · next hc =>
      have := le_scale hh0 (Int.not_lt.1 hc)
      subst hr; refine ⟨⟨?_, ?_⟩, ?_, ?_⟩ <;> simp only <;> omega
  split at hr
  · split at hr
    · next hc =>
      have := scale_le hh0 (Int.le_of_lt hc)
      subst hr; refine ⟨⟨?_, ?_⟩, ?_, ?_⟩ <;> simp only <;> omega
    · next hc =>
      have := scale_le hw0 (Int.not_lt.1 hc)
      subst hr; refine ⟨⟨?_, ?_⟩, ?_, ?_⟩ <;> simp only <;> omega
  split at hr
  · next hb =>
    have := ge_of_scale hh0 hw (Int.le_of_lt hb)
    subst hr; refine ⟨⟨?_, ?_⟩, ?_, ?_⟩ <;> simp only <;> omega
  split at hr
  · next hb =>
    have := le_of_scale hh0 hw (Int.le_of_lt hb)
    subst hr; refine ⟨⟨?_, ?_⟩, ?_, ?_⟩ <;> simp only <;> omega
  split at hr
  · next hb =>
    have := ge_of_scale hw0 hh (Int.le_of_lt hb)
    subst hr; refine ⟨⟨?_, ?_⟩, ?_, ?_⟩ <;> simp only <;> omega
  split at hr
  · next hb =>
    have := le_of_scale hw0 hh (Int.le_of_lt hb)
    subst hr; refine ⟨⟨?_, ?_⟩, ?_, ?_⟩ <;> simp only <;> omega
  subst hr; refine ⟨⟨?_, ?_⟩, ?_, ?_⟩ <;> simp only <;> omega

theorem near_h {w h x : Int} (hw : 0 < w) : NearRatio w h x (scale x h w) := Or.inl (scale_floor hw)
theorem near_w {w h x : Int} (hh : 0 < h) : NearRatio w h (scale x w h) x := Or.inr (scale_floor hh)

/-- If some size within the bounds has the right proportions, so has the result. -/
theorem applyMinMax_ratio (big : Int) (b : Bounds) (w h : Int) (hw : 0 < w) (hh : 0 < h) (w0 h0 : Int)
    (hr : SameRatio w h w0 h0)
    (hb1 : b.minW.getD 0 ≤ w0 ∧ w0 ≤ max (b.maxW.getD big) (b.minW.getD 0))
    (hb2 : b.minH.getD 0 ≤ h0 ∧ h0 ≤ max (b.maxH.getD big) (b.minH.getD 0)) :
    let r := applyMinMax big b w h false false
    NearRatio w h r.1 r.2 := by
  unfold applyMinMax
  dsimp only
  simp only [Bool.false_eq_true, false_and, if_false]
  generalize b.minW.getD 0 = minW at *
  generalize b.minH.getD 0 = minH at *
  generalize max (b.maxW.getD big) minW = maxW at *
  generalize max (b.maxH.getD big) minH = maxH at *
  unfold SameRatio at hr
  -- moving along the proportions
  have up : ∀ x, x ≤ w0 → scale x h w ≤ h0 := fun x hx =>
    scale_le hw (by rw [← hr]; exact Int.mul_le_mul_of_nonneg_right hx (Int.le_of_lt hh))
  have up' : ∀ x, x ≤ h0 → scale x w h ≤ w0 := fun x hx =>
    scale_le hh (by rw [hr]; exact Int.mul_le_mul_of_nonneg_right hx (Int.le_of_lt hw))
  have dn : ∀ x, w0 ≤ x → h0 ≤ scale x h w := fun x hx =>
    le_scale hw (by rw [← hr]; exact Int.mul_le_mul_of_nonneg_right hx (Int.le_of_lt hh))
  have dn' : ∀ x, h0 ≤ x → w0 ≤ scale x w h := fun x hx =>
    le_scale hh (by rw [hr]; exact Int.mul_le_mul_of_nonneg_right hx (Int.le_of_lt hw))
  have lt : w0 < w → h0 < h := fun hx => by
    have h1 : w0 * h < w * h := Int.mul_lt_mul_of_pos_right hx hh
    rw [hr, Int.mul_comm w h] at h1
    exact Int.lt_of_mul_lt_mul_right h1 (Int.le_of_lt hw)
  have gt : w < w0 → h < h0 := fun hx => by
    have h1 : w * h < w0 * h := Int.mul_lt_mul_of_pos_right hx hh
    rw [hr, Int.mul_comm w h] at h1
    exact Int.lt_of_mul_lt_mul_right h1 (Int.le_of_lt hw)
  split
  · omega
  split
  · have := lt (by omega); omega
  split
  · have := gt (by omega); omega
  split
  · split
    · have := up minW hb1.1
      rw [Int.min_eq_right (by omega)]; exact near_h hw
    · have := up' minH hb2.1
      rw [Int.min_eq_right (by omega)]; exact near_w hh
  split
  · split
    · have := dn' maxH hb2.2
      rw [Int.max_eq_right (by omega)]; exact near_w hh
    · have := dn maxW hb1.2
      rw [Int.max_eq_right (by omega)]; exact near_h hw
  split
  · have := up' minH hb2.1
    rw [Int.min_eq_left (by omega)]; exact near_w hh
  split
  · have := dn' maxH hb2.2
    rw [Int.max_eq_left (by omega)]; exact near_w hh
  split
  · have := up minW hb1.1
    rw [Int.min_eq_left (by omega)]; exact near_h hw
  split
  · have := dn maxW hb1.2
    rw [Int.max_eq_left (by omega)]; exact near_h hw
  refine Or.inl ⟨?_, ?_⟩
  · dsimp only; rw [Int.mul_comm]; omega
  · dsimp only; rw [Int.mul_comm w h, Int.add_mul]; omega

end Verif.Sizing
