import Verif.Forms.Spec
import Mathlib.Tactic.Linarith
import Mathlib.Tactic.Ring
import Mathlib.Algebra.Order.Ring.Abs
/-!
# What an `<input>` shows: lemmas
-/
namespace Verif.Forms
open Spec

theorem get_of_mem {a : Attrs} (hp : Proper a) {n v : Str} (h : (n, v) ∈ a) : Attrs.get n a = some v := by
  induction a with
  | nil => cases h
  | cons p l ih =>
    obtain ⟨m, w⟩ := p
    obtain ⟨h1, h2⟩ := List.pairwise_cons.1 hp
    rcases List.mem_cons.1 h with h | h
    · cases h
      simp only [Attrs.get, if_true]
    · have : m ≠ n := h1 _ h
      simp only [Attrs.get, if_neg this, ih h2 h]

theorem mem_of_get {a : Attrs} {n v : Str} (h : Attrs.get n a = some v) : (n, v) ∈ a := by
  induction a with
  | nil => cases h
  | cons p l ih =>
    obtain ⟨m, w⟩ := p
    simp only [Attrs.get] at h
    split at h
    · cases h; subst_vars; exact List.mem_cons_self
    · exact List.mem_cons_of_mem _ (ih h)

theorem has_eq (a : Attrs) (n : Str) : Attrs.has n a = (Attrs.get n a).isSome := by
  induction a with
  | nil => rfl
  | cons p l ih =>
    obtain ⟨m, w⟩ := p
    simp only [Attrs.has, Attrs.get]
    split
    · simp [*]
    · simp [*]

theorem has_iff {a : Attrs} (hp : Proper a) (n : Str) : Attrs.has n a = true ↔ ∃ v, (n, v) ∈ a := by
  rw [has_eq, Option.isSome_iff_exists]
  exact ⟨fun ⟨v, h⟩ => ⟨v, mem_of_get h⟩, fun ⟨v, h⟩ => ⟨v, get_of_mem hp h⟩⟩

theorem set_names (n v : Str) (a : Attrs) (p : Str × Str) (h : p ∈ Attrs.set n v a) : p.1 = n ∨ ∃ q ∈ a, q.1 = p.1 := by
  induction a with
  | nil =>
    simp only [Attrs.set, List.mem_singleton] at h
    exact .inl (by rw [h])
  | cons q l ih =>
    obtain ⟨m, w⟩ := q
    simp only [Attrs.set] at h
    split at h
    · rcases List.mem_cons.1 h with h | h
      · left; rw [h]; assumption
      · exact .inr ⟨p, List.mem_cons_of_mem _ h, rfl⟩
    · rcases List.mem_cons.1 h with h | h
      · exact .inr ⟨(m, w), List.mem_cons_self, by rw [h]⟩
      · rcases ih h with h | ⟨q, h1, h2⟩
        · exact .inl h
        · exact .inr ⟨q, List.mem_cons_of_mem _ h1, h2⟩

theorem set_proper (n v : Str) {a : Attrs} (hp : Proper a) : Proper (Attrs.set n v a) := by
  induction a with
  | nil => exact List.pairwise_singleton _ _
  | cons q l ih =>
    obtain ⟨m, w⟩ := q
    obtain ⟨h1, h2⟩ := List.pairwise_cons.1 hp
    simp only [Attrs.set]
    split
    · exact List.pairwise_cons.2 ⟨h1, h2⟩
    · refine List.pairwise_cons.2 ⟨fun p hpm => ?_, ih h2⟩
      rcases set_names n v l p hpm with h | ⟨q, hq, h⟩
      · rw [h]; assumption
      · rw [← h]; exact h1 q hq

theorem get_set (n v : Str) (a : Attrs) (m : Str) : Attrs.get m (Attrs.set n v a) = if n = m then some v else Attrs.get m a := by
  induction a with
  | nil => simp only [Attrs.set, Attrs.get]
  | cons q l ih =>
    obtain ⟨k, w⟩ := q
    simp only [Attrs.set]
    by_cases h : k = n
    · subst h
      simp only [if_true, Attrs.get]
      split <;> rfl
    · simp only [if_neg h, Attrs.get, ih]
      by_cases h1 : k = m
      · subst h1
        simp only [if_true, if_neg (Ne.symm h)]
      · simp only [if_neg h1]

theorem beyond_zero (c t : Rat) : beyond c 0 t ^ 2 = (t - c) ^ 2 := by
  unfold beyond
  rw [sub_zero, max_eq_right (abs_nonneg _), sq_abs]

/-- A square whose corners are as round as can be is a disc. -/
theorem round_disc {s r c : Rat} (h : s / 2 ≤ r) (px py : Rat) :
    inRounded (c - s / 2) (c - s / 2) s s r px py ↔ Disc c (s / 2) px py := by
  unfold inRounded Disc
  simp only [min_self, min_eq_right h, sub_self, sub_add_cancel, beyond_zero]

theorem beyond_nonneg (c m t : Rat) : 0 ≤ beyond c m t := le_max_left _ _

theorem beyond_le {c m t : Rat} : |t - c| - m ≤ beyond c m t := le_max_right _ _

theorem beyond_inner {c m t : Rat} (h : |t - c| ≤ m) : beyond c m t = 0 := max_eq_left (by linarith)

/-- A square with round corners lies in the square. -/
theorem rounded_square {s r c px py : Rat} (hr : 0 ≤ r) (hs : 0 ≤ s) (h : inRounded (c - s / 2) (c - s / 2) s s r px py) :
    Square c (s / 2) px py := by
  unfold inRounded at h
  simp only [min_self, sub_add_cancel] at h
  set k := min r (s / 2) with hk
  have hk0 : 0 ≤ k := le_min hr (by linarith)
  have hx := beyond_nonneg c (s / 2 - k) px
  have hy := beyond_nonneg c (s / 2 - k) py
  have hx' := beyond_le (c := c) (m := s / 2 - k) (t := px)
  have hy' := beyond_le (c := c) (m := s / 2 - k) (t := py)
  have h1 : beyond c (s / 2 - k) px ≤ k := abs_le_of_sq_le_sq' (by nlinarith [sq_nonneg (beyond c (s / 2 - k) py)]) hk0 |>.2
  have h2 : beyond c (s / 2 - k) py ≤ k := abs_le_of_sq_le_sq' (by nlinarith [sq_nonneg (beyond c (s / 2 - k) px)]) hk0 |>.2
  exact ⟨by linarith, by linarith⟩

/-- What is in the square and not near a corner is within the round corners. -/
theorem square_rounded {s r c px py : Rat} (hr : 0 ≤ r) (hs : 0 ≤ s) (h : Square c (s / 2) px py)
    (hc : |px - c| ≤ s / 2 - r ∨ |py - c| ≤ s / 2 - r) : inRounded (c - s / 2) (c - s / 2) s s r px py := by
  have hrs : r ≤ s / 2 := by
    rcases hc with h | h
    · linarith [abs_nonneg (px - c)]
    · linarith [abs_nonneg (py - c)]
  unfold inRounded
  simp only [min_self, sub_add_cancel, min_eq_left hrs]
  have hle : ∀ t, |t - c| ≤ s / 2 → beyond c (s / 2 - r) t ^ 2 ≤ r ^ 2 := by
    intro t ht
    have h0 := beyond_nonneg c (s / 2 - r) t
    have : beyond c (s / 2 - r) t ≤ r := max_le hr (by linarith)
    nlinarith
  rcases hc with h1 | h1
  · rw [beyond_inner h1]
    linarith [hle py h.2]
  · rw [beyond_inner h1]
    linarith [hle px h.1]

end Verif.Forms
