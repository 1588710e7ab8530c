import Verif.Cells.Spec
import Mathlib.Tactic.Linarith
import Mathlib.Tactic.FieldSimp
import Mathlib.Tactic.Ring
/-!
# Laying out a table: sums and vectors
-/
namespace Verif.Cells
open Spec
open Verif.Table (Cell Grid Axis)
open Verif.Table.Spec (Rect Shows)

theorem at'_eq (v : List Rat) (j : Nat) : at' v j = entry v j := by
  unfold at' entry; rw [List.getD_eq_getElem?_getD]

/-! ## Sums -/

theorem total_succ (f : Nat → Rat) (a n : Nat) : total f a (n + 1) = total f a n + f (a + n) := by
  induction n generalizing a with
  | zero => simp [total]
  | succ n ih =>
    rw [total, ih (a + 1), total]
    have : a + 1 + n = a + (n + 1) := by omega
    rw [this]; ring

theorem total_append (f : Nat → Rat) (a n m : Nat) : total f a (n + m) = total f a n + total f (a + n) m := by
  induction m with
  | zero => simp [total]
  | succ m ih =>
    rw [← Nat.add_assoc, total_succ, ih, total_succ]
    have : a + (n + m) = a + n + m := by omega
    rw [this]; ring

theorem total_congr {f g : Nat → Rat} {a n : Nat} (h : ∀ k, a ≤ k → k < a + n → f k = g k) : total f a n = total g a n := by
  induction n with
  | zero => rfl
  | succ n ih =>
    rw [total_succ, total_succ, ih (fun k h1 h2 => h k h1 (by omega)), h (a + n) (by omega) (by omega)]

theorem total_mono {f g : Nat → Rat} {a n : Nat} (h : ∀ k, a ≤ k → k < a + n → f k ≤ g k) : total f a n ≤ total g a n := by
  induction n with
  | zero => exact le_refl _
  | succ n ih =>
    rw [total_succ, total_succ]
    have := ih (fun k h1 h2 => h k h1 (by omega))
    have := h (a + n) (by omega) (by omega)
    linarith

theorem total_nonneg {f : Nat → Rat} {a n : Nat} (h : ∀ k, a ≤ k → k < a + n → 0 ≤ f k) : 0 ≤ total f a n := by
  induction n with
  | zero => exact le_refl _
  | succ n ih =>
    rw [total_succ]
    have := ih (fun k h1 h2 => h k h1 (by omega))
    have := h (a + n) (by omega) (by omega)
    linarith

theorem total_le_part {f : Nat → Rat} {a n m : Nat} (hnm : n ≤ m) (h : ∀ k, a ≤ k → k < a + m → 0 ≤ f k) :
    total f a n ≤ total f a m := by
  obtain ⟨d, rfl⟩ : ∃ d, m = n + d := ⟨m - n, by omega⟩
  rw [total_append]
  have := total_nonneg (f := f) (a := a + n) (n := d) (fun k h1 h2 => h k (by omega) (by omega))
  linarith

theorem total_add (f g : Nat → Rat) (a n : Nat) : total (fun k => f k + g k) a n = total f a n + total g a n := by
  induction n with
  | zero => simp [total]
  | succ n ih => rw [total_succ, total_succ, total_succ, ih]; ring

theorem total_mul (f : Nat → Rat) (c : Rat) (a n : Nat) : total (fun k => f k * c) a n = total f a n * c := by
  induction n with
  | zero => simp [total]
  | succ n ih => rw [total_succ, total_succ, ih]; ring

theorem total_const (c : Rat) (a n : Nat) : total (fun _ => c) a n = n * c := by
  induction n with
  | zero => simp [total]
  | succ n ih => rw [total_succ, ih]; push_cast; ring

theorem total_shift (f : Nat → Rat) (a b n : Nat) : total (fun k => f (k + b)) a n = total f (a + b) n := by
  induction n with
  | zero => rfl
  | succ n ih =>
    rw [total_succ, total_succ, ih]
    have : a + n + b = a + b + n := by omega
    rw [this]

theorem spanSum_eq (v : List Rat) (a n : Nat) : spanSum v a n = total (entry v) a n := by
  unfold spanSum
  induction n with
  | zero => rfl
  | succ n ih => rw [List.range_succ, List.map_append, List.sum_append, ih, total_succ]; simp [at'_eq]

theorem rangeSum_eq (f : Nat → Rat) (n : Nat) : ((List.range n).map f).sum = total f 0 n := by
  induction n with
  | zero => rfl
  | succ n ih => rw [List.range_succ, List.map_append, List.sum_append, ih, total_succ]; simp

theorem sum_eq (v : List Rat) : v.sum = total (entry v) 0 v.length := by
  induction v with
  | nil => rfl
  | cons w v ih =>
    rw [List.sum_cons, List.length_cons, total, ih]
    have : entry (w :: v) 0 = w := rfl
    rw [this, ← total_shift]
    congr 1

theorem entry_take (v : List Rat) (n j : Nat) (h : j < n) : entry (v.take n) j = entry v j := by
  unfold entry; rw [List.getElem?_take_of_lt h]

theorem entry_out {v : List Rat} {j : Nat} (h : v.length ≤ j) : entry v j = 0 := by
  unfold entry; rw [List.getElem?_eq_none h]; rfl

/-! ## Changing a range -/

theorem change_length (f : Rat → Rat) (v : List Rat) (a n : Nat) : (change f v a n).length = v.length := by
  simp [change]

theorem entry_change (f : Rat → Rat) (v : List Rat) (a n j : Nat) (h : j < v.length) :
    entry (change f v a n) j = if a ≤ j ∧ j < a + n then f (entry v j) else entry v j := by
  unfold entry change
  rw [List.getElem?_mapIdx, List.getElem?_eq_getElem h]
  rfl

theorem entry_le_change {f : Rat → Rat} (hf : ∀ w, w ≤ f w) (v : List Rat) (a n j : Nat) :
    entry v j ≤ entry (change f v a n) j := by
  by_cases h : j < v.length
  · rw [entry_change _ _ _ _ _ h]; split
    · exact hf _
    · exact le_refl _
  · rw [entry_out (by omega), entry_out (by rw [change_length]; omega)]

/-! ## Vectors that grow -/

/-- As long, and nowhere less. -/
def Le (v w : List Rat) : Prop := v.length = w.length ∧ ∀ j, entry v j ≤ entry w j

theorem Le.refl (v : List Rat) : Le v v := ⟨rfl, fun _ => le_refl _⟩

theorem Le.trans {u v w : List Rat} (h1 : Le u v) (h2 : Le v w) : Le u w :=
  ⟨h1.1.trans h2.1, fun j => le_trans (h1.2 j) (h2.2 j)⟩

theorem Le.change {f : Rat → Rat} (hf : ∀ w, w ≤ f w) (v : List Rat) (a n : Nat) : Le v (change f v a n) :=
  ⟨(change_length ..).symm, entry_le_change hf v a n⟩

theorem Le.foldl {α : Type} {f : List Rat → α → List Rat} (hf : ∀ v a, Le v (f v a)) (l : List α) (v : List Rat) :
    Le v (l.foldl f v) := by
  induction l generalizing v with
  | nil => exact Le.refl v
  | cons a l ih => exact (hf v a).trans (ih (f v a))

theorem Le.total {v w : List Rat} (h : Le v w) (a n : Nat) : total (entry v) a n ≤ total (entry w) a n :=
  total_mono fun k _ _ => h.2 k

/-- What an element of a list has made of the vector stays, in vectors that only grow. -/
theorem foldl_keeps {α : Type} {f : List Rat → α → List Rat} {P : List Rat → Prop} {x : α} {l : List α} (hx : x ∈ l)
    (hf : ∀ v a, Le v (f v a)) (hP : ∀ v w, Le v w → P v → P w) (n : Nat) (hfx : ∀ v, v.length = n → P (f v x))
    {v : List Rat} (hv : v.length = n) : P (l.foldl f v) := by
  induction l generalizing v with
  | nil => cases hx
  | cons a l ih =>
    rw [List.foldl_cons]
    have hl : (f v a).length = n := by rw [← (hf v a).1, hv]
    rcases List.mem_cons.1 hx with rfl | hx
    · exact hP _ _ (Le.foldl hf l _) (hfx v hv)
    · exact ih hx hl

/-! ## Anchors -/

theorem mem_anchors {g : Grid} {a : Nat × Nat × Cell} :
    a ∈ anchors g ↔ a.1 < g.h ∧ a.2.1 < g.w ∧ g.slot a.2.1 a.1 = ⟨a.2.1, a.1, some a.2.2⟩ := by
  obtain ⟨i, j, c⟩ := a
  unfold anchors
  simp only [List.mem_flatMap, List.mem_range, List.mem_filterMap]
  constructor
  · rintro ⟨i', hi', j', hj', h⟩
    cases hb : (g.slot j' i').box with
    | none => rw [hb] at h; cases h
    | some c' =>
      rw [hb] at h
      simp only at h
      split at h
      · rename_i hh
        simp only [Option.some.injEq, Prod.mk.injEq] at h
        obtain ⟨rfl, rfl, rfl⟩ := h
        refine ⟨hi', hj', ?_⟩
        rcases hs : g.slot j' i' with ⟨ax, ay, b⟩
        rw [hs] at hh hb
        simp only at hh hb
        rw [hh.1, hh.2, hb]
      · cases h
  · rintro ⟨h1, h2, h3⟩
    refine ⟨i, h1, j, h2, ?_⟩
    simp [h3]

theorem covers_first {r : Rect} (hc : 1 ≤ r.cell.colSpan) (hr : 1 ≤ r.cell.rowSpan ∧ r.bottom = some (r.y + r.cell.rowSpan)) :
    r.Covers r.x r.y :=
  ⟨Nat.le_refl _, by omega, Nat.le_refl _, fun b hb => by rw [hr.2] at hb; cases hb; omega⟩

theorem covers_last {r : Rect} (hc : 1 ≤ r.cell.colSpan) (hr : 1 ≤ r.cell.rowSpan ∧ r.bottom = some (r.y + r.cell.rowSpan)) :
    r.Covers (r.x + r.cell.colSpan - 1) (r.y + r.cell.rowSpan - 1) :=
  ⟨by omega, by omega, by omega, fun b hb => by rw [hr.2] at hb; cases hb; omega⟩

/-- The anchors are the first slots of the cells. -/
theorem anchor_iff {t : Table} {rs : List Rect} (h : Cells t rs) {a : Nat × Nat × Cell} :
    a ∈ anchors t.grid ↔ ∃ r ∈ rs, a = (r.y, r.x, r.cell) := by
  rw [mem_anchors]
  constructor
  · rintro ⟨h1, h2, h3⟩
    rcases h.shows.slots a.2.1 a.1 h2 h1 with ⟨hn, -⟩ | ⟨r, hr, -, he⟩
    · rw [h3] at hn; cases hn
    · refine ⟨r, hr, ?_⟩
      rw [h3] at he
      simp only [Table.Slot.mk.injEq, Option.some.injEq] at he
      obtain ⟨e1, e2, e3⟩ := he
      rw [← e1, ← e2, ← e3]
  · rintro ⟨r, hr, rfl⟩
    have hin := h.shows.inside r hr _ _ (covers_first (h.cols r hr) (h.rows r hr))
    exact ⟨hin.2, hin.1, h.shows.first r hr⟩

theorem rect_inside {t : Table} {rs : List Rect} (h : Cells t rs) {r : Rect} (hr : r ∈ rs) :
    r.x + r.cell.colSpan ≤ t.grid.w ∧ r.y + r.cell.rowSpan ≤ t.grid.h := by
  have hin := h.shows.inside r hr _ _ (covers_last (h.cols r hr) (h.rows r hr))
  have := h.cols r hr
  have := (h.rows r hr).1
  omega

theorem not_hasZero {t : Table} {rs : List Rect} (h : Cells t rs) : hasZero t = false := by
  unfold hasZero
  rw [List.any_eq_false]
  intro a ha
  obtain ⟨r, hr, rfl⟩ := (anchor_iff h).1 ha
  have := (h.rows r hr).1
  simp; omega

end Verif.Cells
