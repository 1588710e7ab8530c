import Verif.Cells.Vec
/-!
# Laying out a table: where the cells go
-/
namespace Verif.Cells
open Spec
open Verif.Table (Cell Grid Axis)
open Verif.Table.Spec (Rect Shows)

/-! ## Rectangles -/

theorem pairwise_ne {α : Type} {R : α → α → Prop} {l : List α} (h : l.Pairwise R) {a b : α} (ha : a ∈ l) (hb : b ∈ l) (hne : a ≠ b) :
    R a b ∨ R b a := by
  induction h with
  | nil => cases ha
  | @cons x l hx _ ih =>
    rcases List.mem_cons.1 ha with rfl | ha'
    · rcases List.mem_cons.1 hb with rfl | hb'
      · exact absurd rfl hne
      · exact Or.inl (hx _ hb')
    · rcases List.mem_cons.1 hb with rfl | hb'
      · exact Or.inr (hx _ ha')
      · exact ih ha' hb'

theorem same_slot {t : Table} {rs : List Rect} (h : Cells t rs) {a b : Rect} (ha : a ∈ rs) (hb : b ∈ rs) {x y : Nat}
    (h1 : a.Covers x y) (h2 : b.Covers x y) : a = b := by
  by_contra hne
  rcases pairwise_ne h.apart ha hb hne with h | h
  · exact h x y h1 h2
  · exact h x y h2 h1

theorem covers_iff {t : Table} {rs : List Rect} (h : Cells t rs) {r : Rect} (hr : r ∈ rs) {x y : Nat} :
    r.Covers x y ↔ r.x ≤ x ∧ x < r.x + r.cell.colSpan ∧ r.y ≤ y ∧ y < r.y + r.cell.rowSpan := by
  unfold Rect.Covers
  rw [(h.rows r hr).2]
  simp

/-- Two cells have no column in common, or no row. -/
theorem rect_apart {t : Table} {rs : List Rect} (h : Cells t rs) {a b : Rect} (ha : a ∈ rs) (hb : b ∈ rs) (hne : a ≠ b) :
    a.x + a.cell.colSpan ≤ b.x ∨ b.x + b.cell.colSpan ≤ a.x ∨ a.y + a.cell.rowSpan ≤ b.y ∨ b.y + b.cell.rowSpan ≤ a.y := by
  by_contra hc
  apply hne
  have := h.cols a ha
  have := h.cols b hb
  have := (h.rows a ha).1
  have := (h.rows b hb).1
  apply same_slot h ha hb (x := max a.x b.x) (y := max a.y b.y)
  · rw [covers_iff h ha]; omega
  · rw [covers_iff h hb]; omega

/-- The slot a cell shows at. -/
theorem slot_of {t : Table} {rs : List Rect} (h : Cells t rs) {r : Rect} (hr : r ∈ rs) {x y : Nat} (hc : r.Covers x y) :
    t.grid.slot x y = ⟨r.x, r.y, some r.cell⟩ := by
  have hin := h.shows.inside r hr x y hc
  rcases h.shows.slots x y hin.1 hin.2 with ⟨-, hn⟩ | ⟨r', hr', hc', he⟩
  · exact absurd hc (hn r hr)
  · rw [he, same_slot h hr hr' hc hc']

/-! ## The cells of a row -/

/-- Where column `j` begins. -/
def colX (t : Table) (cw : List Rat) (x : Rat) (j : Nat) : Rat := x + t.sx + total (fun k => entry cw k + t.sx) 0 j

/-- The box of a cell, given where the rows begin. -/
def boxOf (t : Table) (cw rh s : List Rat) (x : Rat) (r : Rect) : Placed :=
  { cell := r.cell, ax := r.x, ay := r.y, x := colX t cw x r.x, y := entry s r.y
    w := total (entry cw) r.x r.cell.colSpan + t.sx * (r.cell.colSpan - 1 : Nat)
    h := total (entry rh) r.y r.cell.rowSpan + t.sy * (r.cell.rowSpan - 1 : Nat) }

theorem layCell_eq (t : Table) (cw rh s : List Rat) (x : Rat) (r : Rect) :
    layCell t cw rh s (x + t.sx + ((List.range r.x).map fun k => at' cw k + t.sx).sum) r.x r.y r.cell = boxOf t cw rh s x r := by
  unfold layCell boxOf colX
  simp only [rangeSum_eq, spanSum_eq, at'_eq]

theorem mem_layRow {t : Table} {rs : List Rect} (h : Cells t rs) (cw rh s : List Rat) (x : Rat) {i : Nat} (hi : i < t.grid.h) (all : Bool)
    {p : Placed} : p ∈ layRow t cw rh s x i all ↔
      ∃ r ∈ rs, r.y ≤ i ∧ i < r.y + r.cell.rowSpan ∧ (r.y + r.cell.rowSpan = i + 1 ∨ all = true) ∧ p = boxOf t cw rh s x r := by
  unfold layRow
  rw [List.mem_filterMap]
  constructor
  · rintro ⟨j, hj, he⟩
    rw [List.mem_range] at hj
    rcases h.shows.slots j i hj hi with ⟨hn, -⟩ | ⟨r, hr, hc, hs⟩
    · simp [hn] at he
    · rw [hs] at he
      simp only at he
      rw [covers_iff h hr] at hc
      split at he
      · cases he
      · rename_i hx
        have hx : r.x = j := by simpa using hx
        split at he
        · rename_i hb
          subst hx
          cases he
          refine ⟨r, hr, hc.2.2.1, hc.2.2.2, ?_, layCell_eq ..⟩
          rcases hb with hb | hb
          · left; omega
          · right; exact hb
        · cases he
  · rintro ⟨r, hr, h1, h2, h3, rfl⟩
    have hc : r.Covers r.x i := by
      rw [covers_iff h hr]
      have := h.cols r hr
      omega
    refine ⟨r.x, List.mem_range.2 (h.shows.inside r hr _ _ hc).1, ?_⟩
    rw [slot_of h hr hc]
    simp only [ne_eq, not_true_eq_false, if_false]
    rw [if_pos, layCell_eq]
    rcases h3 with h3 | h3
    · left; omega
    · right; exact h3

theorem layRow_congr {t : Table} {rs : List Rect} (h : Cells t rs) (cw rh : List Rat) {s s' : List Rat} (x : Rat) {i : Nat}
    (hi : i < t.grid.h) (all : Bool) (hs : ∀ k, k ≤ i → entry s k = entry s' k) :
    layRow t cw rh s x i all = layRow t cw rh s' x i all := by
  unfold layRow
  apply List.filterMap_congr
  intro j hj
  rw [List.mem_range] at hj
  rcases h.shows.slots j i hj hi with ⟨hn, -⟩ | ⟨r, hr, hc, hsl⟩
  · simp [hn]
  · rw [hsl]
    simp only
    have : r.y ≤ i := hc.2.2.1
    have he : ∀ x', layCell t cw rh s x' j r.y r.cell = layCell t cw rh s' x' j r.y r.cell := by
      intro x'
      unfold layCell
      rw [at'_eq, at'_eq, hs _ this]
    rw [he]

/-! ## The rows one below the other -/

theorem entry_set (v : List Rat) (i j : Nat) (y : Rat) (hi : i < v.length) : entry (v.set i y) j = if i = j then y else entry v j := by
  unfold entry
  rw [List.getElem?_set]
  split
  · first | rfl | (rw [if_pos hi]; rfl)
  · rfl

/-- The loop over rows: where each of them begins, and the cells of each. -/
theorem rowsLoop_spec {t : Table} {rs : List Rect} (h : Cells t rs) (cw rh : List Rat) (x : Rat) (adv : Nat → Rat → Rat) (all : Nat → Bool)
    (n a : Nat) (y : Rat) (s : List Rat) (hs : s.length = t.grid.h) (han : a + n ≤ t.grid.h) :
    ∃ (cells : List Placed) (y' : Rat) (s' : List Rat) (P : Nat → Rat),
      rowsLoop t cw rh x adv all (List.range' a n) y s = (cells, y', s') ∧ s'.length = t.grid.h ∧
      (∀ j, j < a ∨ a + n ≤ j → entry s' j = entry s j) ∧
      cells = (List.range' a n).flatMap (fun i => layRow t cw rh s' x i (all i)) ∧
      P 0 = y ∧ P n = y' ∧ ∀ k, k < n → entry s' (a + k) = P k ∧
        P (k + 1) = P k + adv (a + k) (sizeY (P k) (layRow t cw rh s' x (a + k) (all (a + k)))) := by
  induction n generalizing a y s with
  | zero => exact ⟨[], y, s, fun _ => y, rfl, hs, fun _ _ => rfl, rfl, rfl, rfl, fun k hk => absurd hk (by omega)⟩
  | succ n ih =>
    have hl : (s.set a y).length = t.grid.h := by rw [List.length_set, hs]
    obtain ⟨cells, y', s', P, he, hl', hout, hcells, hP0, hPn, hP⟩ :=
      ih (a + 1) (y + adv a (sizeY y (layRow t cw rh (s.set a y) x a (all a)))) (s.set a y) hl (by omega)
    have hsame : ∀ k, k ≤ a → entry (s.set a y) k = entry s' k := fun k hk => (hout k (by omega)).symm
    have hrow := layRow_congr h cw rh (s := s.set a y) (s' := s') x (by omega : a < t.grid.h) (all a) hsame
    refine ⟨layRow t cw rh (s.set a y) x a (all a) ++ cells, y', s', fun k => if k = 0 then y else P (k - 1), ?_, hl', ?_, ?_, ?_, ?_, ?_⟩
    · rw [List.range'_succ, rowsLoop, he]
    · intro j hj
      rw [hout j (by omega), entry_set _ _ _ _ (by omega), if_neg (by omega)]
    · rw [List.range'_succ, List.flatMap_cons, hrow, hcells]
    · rfl
    · simpa using hPn
    · intro k hk
      cases k with
      | zero =>
        simp only [Nat.add_zero]
        refine ⟨?_, ?_⟩
        · rw [← hsame a (Nat.le_refl _), entry_set _ _ _ _ (by omega)]; simp
        · simp only [if_true, Nat.zero_add, Nat.sub_self, Nat.one_ne_zero, if_false]
          rw [hP0, hrow]
      | succ k =>
        have := hP k (by omega)
        have e : a + (k + 1) = a + 1 + k := by omega
        rw [e]
        simpa using this

/-! ## No two cells overlap -/

theorem colX_mono {t : Table} (hsx : 0 ≤ t.sx) {cw : List Rat} (hcw : ∀ j, j < t.grid.w → 0 ≤ entry cw j) (x : Rat) {j k : Nat} (hjk : j ≤ k)
    (hk : k ≤ t.grid.w) : colX t cw x j ≤ colX t cw x k := by
  unfold colX
  have := total_le_part (f := fun k => entry cw k + t.sx) (a := 0) hjk (fun i _ hi => add_nonneg (hcw i (by omega)) hsx)
  linarith

theorem box_right {t : Table} (cw rh s : List Rat) (x : Rat) {r : Rect} (hc : 1 ≤ r.cell.colSpan) :
    (boxOf t cw rh s x r).x + (boxOf t cw rh s x r).w + t.sx = colX t cw x (r.x + r.cell.colSpan) := by
  unfold boxOf colX
  simp only
  rw [total_append, Nat.zero_add, total_add, total_add (f := entry cw) (a := r.x), total_const, total_const]
  have : ((r.cell.colSpan - 1 : Nat) : Rat) = r.cell.colSpan - 1 := by
    rw [Nat.cast_sub hc]; simp
  rw [this]; ring

theorem apart_cols {t : Table} {rs : List Rect} (h : Cells t rs) (hsx : 0 ≤ t.sx) {cw : List Rat} (hcw : ∀ j, j < t.grid.w → 0 ≤ entry cw j)
    (rh s s' : List Rat) (x : Rat) {a b : Rect} (ha : a ∈ rs) (hb : b ∈ rs) (hab : a.x + a.cell.colSpan ≤ b.x) :
    (boxOf t cw rh s x a).x + (boxOf t cw rh s x a).w ≤ (boxOf t cw rh s' x b).x := by
  have h1 := box_right (t := t) cw rh s x (h.cols a ha)
  have h2 : colX t cw x (a.x + a.cell.colSpan) ≤ colX t cw x b.x :=
    colX_mono hsx hcw x hab (by have := (rect_inside h hb).1; omega)
  have h3 : (boxOf t cw rh s' x b).x = colX t cw x b.x := rfl
  linarith

theorem le_sizeY {y : Rat} {cells : List Placed} : 0 ≤ sizeY y cells ∧ ∀ p ∈ cells, p.y + p.h - y ≤ sizeY y cells := by
  unfold sizeY
  have aux : ∀ (l : List Placed) (m : Rat), m ≤ l.foldl (fun m p => max m (p.y + p.h - y)) m ∧
      ∀ p ∈ l, p.y + p.h - y ≤ l.foldl (fun m p => max m (p.y + p.h - y)) m := by
    intro l
    induction l with
    | nil => intro m; exact ⟨le_refl _, by simp⟩
    | cons q l ih =>
      intro m
      obtain ⟨h1, h2⟩ := ih (max m (q.y + q.h - y))
      refine ⟨le_trans (le_max_left _ _) h1, fun p hp => ?_⟩
      rcases List.mem_cons.1 hp with rfl | hp
      · exact le_trans (le_max_right _ _) h1
      · exact h2 p hp
  exact aux cells 0

/-- Rows that are laid out one below the other, with every cell within them. -/
structure Band (t : Table) (rs : List Rect) (cw rh : List Rat) (x : Rat) (a n : Nat) (y y' : Rat) (s : List Rat) (cells : List Placed) : Prop where
  le : y ≤ y'
  mem : ∀ p ∈ cells, ∃ r ∈ rs, a ≤ r.y ∧ r.y + r.cell.rowSpan ≤ a + n ∧ p = boxOf t cw rh s x r
  within : ∀ p ∈ cells, y ≤ p.y ∧ p.y + p.h ≤ y'
  below : ∀ r ∈ rs, ∀ q ∈ rs, a ≤ r.y → r.y + r.cell.rowSpan ≤ q.y → q.y + q.cell.rowSpan ≤ a + n →
    (boxOf t cw rh s x r).y + (boxOf t cw rh s x r).h ≤ (boxOf t cw rh s x q).y

/-- No cell crosses the top or the bottom of these rows. -/
def Uncut (rs : List Rect) (a b : Nat) : Prop :=
  ∀ r ∈ rs, (r.y + r.cell.rowSpan ≤ a ∨ a ≤ r.y) ∧ (r.y + r.cell.rowSpan ≤ b ∨ b ≤ r.y)

theorem mono_steps {P : Nat → Rat} {n : Nat} (h : ∀ k, k < n → P k ≤ P (k + 1)) {i j : Nat} (hij : i ≤ j) (hj : j ≤ n) : P i ≤ P j := by
  induction j with
  | zero => rw [show i = 0 by omega]
  | succ j ih =>
    by_cases he : i = j + 1
    · rw [he]
    · exact le_trans (ih (by omega) (by omega)) (h j (by omega))

theorem band_of {t : Table} {rs : List Rect} (h : Cells t rs) {cw rh : List Rat} {x : Rat} {a n : Nat} {s : List Rat} {P : Nat → Rat}
    {all : Nat → Bool} (han : a + n ≤ t.grid.h) (hcut : Uncut rs a (a + n)) (hs : ∀ k, k < n → entry s (a + k) = P k)
    (hmono : ∀ k, k < n → P k ≤ P (k + 1))
    (hbot : ∀ k, k < n → ∀ r ∈ rs, a ≤ r.y → r.y + r.cell.rowSpan = a + k + 1 → entry s r.y + (boxOf t cw rh s x r).h ≤ P (k + 1))
    (hall : ∀ i, a ≤ i → i < a + n → all i = true → i + 1 = a + n) :
    Band t rs cw rh x a n (P 0) (P n) s ((List.range' a n).flatMap fun i => layRow t cw rh s x i (all i)) := by
  have hmem : ∀ p ∈ (List.range' a n).flatMap fun i => layRow t cw rh s x i (all i),
      ∃ r ∈ rs, a ≤ r.y ∧ r.y + r.cell.rowSpan ≤ a + n ∧ p = boxOf t cw rh s x r := by
    intro p hp
    rw [List.mem_flatMap] at hp
    obtain ⟨i, hi, hp⟩ := hp
    rw [List.mem_range'_1] at hi
    obtain ⟨r, hr, h1, h2, h3, rfl⟩ := (mem_layRow h cw rh s x (by omega) _).1 hp
    have := hcut r hr
    exact ⟨r, hr, by omega, by omega, rfl⟩
  refine ⟨mono_steps hmono (Nat.zero_le _) (Nat.le_refl _), hmem, ?_, ?_⟩
  · intro p hp
    obtain ⟨r, hr, h1, h2, rfl⟩ := hmem p hp
    have h3 := (h.rows r hr).1
    have e := hs (r.y - a) (by omega)
    rw [show a + (r.y - a) = r.y by omega] at e
    constructor
    · show P 0 ≤ entry s r.y
      rw [e]
      exact mono_steps hmono (Nat.zero_le _) (by omega)
    · have := hbot (r.y + r.cell.rowSpan - 1 - a) (by omega) r hr h1 (by omega)
      exact le_trans this (mono_steps hmono (by omega) (Nat.le_refl _))
  · intro r hr q hq h1 h2 h3
    have h4 := (h.rows r hr).1
    have h5 := (h.rows q hq).1
    have := hbot (r.y + r.cell.rowSpan - 1 - a) (by omega) r hr h1 (by omega)
    have e := hs (q.y - a) (by omega)
    rw [show a + (q.y - a) = q.y by omega] at e
    refine le_trans this ?_
    show _ ≤ entry s q.y
    rw [e]
    exact mono_steps hmono (by omega) (by omega)

/-- The rows of `layoutRows`. -/
theorem layoutRows_band {t : Table} {rs : List Rect} (h : Cells t rs) (hsy : 0 ≤ t.sy) (cw rh : List Rat) (x : Rat) {start stop : Nat}
    (hss : start ≤ stop) (hstop : stop ≤ t.grid.h) (hcut : Uncut rs start stop) (y : Rat) (s : List Rat) (hs : s.length = t.grid.h) :
    ∃ cells y' s', layoutRows t cw rh x start stop y s = (cells, y', s') ∧ s'.length = t.grid.h ∧
      (∀ j, j < start ∨ stop ≤ j → entry s' j = entry s j) ∧
      cells = (List.range' start (stop - start)).flatMap (fun i => layRow t cw rh s' x i (decide (i + 1 = stop))) ∧
      Band t rs cw rh x start (stop - start) y y' s' cells ∧
      ∃ P : Nat → Rat, P 0 = y ∧ P (stop - start) = y' ∧ ∀ k, k < stop - start → entry s' (start + k) = P k ∧
        P (k + 1) = P k + (sizeY (P k) (layRow t cw rh s' x (start + k) (decide (start + k + 1 = stop))) + t.sy) := by
  obtain ⟨cells, y', s', P, he, hl, hout, hc, hP0, hPn, hP⟩ := rowsLoop_spec h cw rh x (fun _ size => size + t.sy)
    (fun i => decide (i + 1 = stop)) (stop - start) start y s hs (by omega)
  refine ⟨cells, y', s', he, hl, fun j hj => hout j (by omega), hc, ?_, P, hP0, hPn, hP⟩
  rw [hc, ← hP0, ← hPn]
  refine band_of h (by omega) (by rw [show start + (stop - start) = stop by omega]; exact hcut) (fun k hk => (hP k hk).1) ?_ ?_ ?_
  · intro k hk
    rw [(hP k hk).2]
    have := (le_sizeY (y := P k) (cells := layRow t cw rh s' x (start + k) (decide (start + k + 1 = stop)))).1
    linarith
  · intro k hk r hr h1 h2
    rw [(hP k hk).2]
    have h3 := (h.rows r hr).1
    have hm : boxOf t cw rh s' x r ∈ layRow t cw rh s' x (start + k) (decide (start + k + 1 = stop)) :=
      (mem_layRow h cw rh s' x (by omega) _).2 ⟨r, hr, by omega, by omega, Or.inl (by omega), rfl⟩
    have := (le_sizeY (y := P k)).2 _ hm
    have e : (boxOf t cw rh s' x r).y = entry s' r.y := rfl
    rw [e] at this
    linarith
  · intro i h1 h2 h3
    simp only [decide_eq_true_eq] at h3
    omega

theorem sum_steps {P f : Nat → Rat} {a n : Nat} (h : ∀ k, k < n → P (k + 1) = P k + f (a + k)) {i j : Nat} (hij : i ≤ j) (hj : j ≤ n) :
    P j = P i + total f (a + i) (j - i) := by
  induction j with
  | zero => rw [show i = 0 by omega]; simp [total]
  | succ j ih =>
    by_cases he : i = j + 1
    · rw [he]; simp [total]
    · rw [h j (by omega), ih (by omega) (by omega), show j + 1 - i = (j - i) + 1 by omega, total_succ,
        show a + i + (j - i) = a + j by omega]
      ring

/-- The rows of `layoutHeaderFooterRows`, where it moves on by the heights of the rows. -/
theorem headerRows_band {t : Table} {rs : List Rect} (h : Cells t rs) (hsy : 0 ≤ t.sy) (cw rh : List Rat) (hrh : ∀ j, 0 ≤ entry rh j) (x : Rat)
    {a n : Nat} (han : a + n ≤ t.grid.h) (hok : ∀ k, k < n → entry rh (a + k) ≤ entry rh k) (hcut : Uncut rs a (a + n)) (y : Rat) (s : List Rat)
    (hs : s.length = t.grid.h) :
    ∃ cells y' s', layoutHeaderFooterRows t cw rh x a n y s = (cells, y', s') ∧ s'.length = t.grid.h ∧
      (∀ j, j < a ∨ a + n ≤ j → entry s' j = entry s j) ∧
      cells = (List.range' a n).flatMap (fun i => layRow t cw rh s' x i false) ∧ Band t rs cw rh x a n y y' s' cells := by
  obtain ⟨cells, y', s', P, he, hl, hout, hc, hP0, hPn, hP⟩ := rowsLoop_spec h cw rh x (fun i _ => at' rh (i - a) + t.sy)
    (fun _ => false) n a y s hs han
  refine ⟨cells, y', s', he, hl, hout, hc, ?_⟩
  rw [hc, ← hP0, ← hPn]
  have hstep : ∀ k, k < n → P (k + 1) = P k + (fun i => at' rh (i - a) + t.sy) (a + k) := fun k hk => (hP k hk).2
  refine band_of h han hcut (fun k hk => (hP k hk).1) ?_ ?_ (fun i _ _ h3 => by cases h3)
  · intro k hk
    rw [hstep k hk]
    simp only [at'_eq]
    have := hrh (a + k - a)
    linarith
  · intro k hk r hr h1 h2
    have h3 := (h.rows r hr).1
    have hsum := sum_steps (f := fun i => at' rh (i - a) + t.sy) (a := a) (n := n) hstep (i := r.y - a) (j := k + 1) (by omega) (by omega)
    have e := (hP (r.y - a) (by omega)).1
    rw [show a + (r.y - a) = r.y by omega] at e hsum
    rw [hsum, e]
    have hcount : k + 1 - (r.y - a) = r.cell.rowSpan := by omega
    rw [hcount]
    show _ + (total (entry rh) r.y r.cell.rowSpan + t.sy * ((r.cell.rowSpan - 1 : Nat) : Rat)) ≤ _
    rw [total_add, total_const]
    have hcast : ((r.cell.rowSpan - 1 : Nat) : Rat) = r.cell.rowSpan - 1 := by rw [Nat.cast_sub h3]; simp
    rw [hcast]
    have : total (entry rh) r.y r.cell.rowSpan ≤ total (fun i => at' rh (i - a)) r.y r.cell.rowSpan := by
      refine total_mono fun k' hk1 hk2 => ?_
      simp only [at'_eq]
      have := hok (k' - a) (by omega)
      rwa [show a + (k' - a) = k' by omega] at this
    linarith

/-- Cells of rows that are laid out one below the other do not overlap. -/
theorem band_apart {t : Table} {rs : List Rect} (h : Cells t rs) (hsx : 0 ≤ t.sx) {cw rh : List Rat} (hcw : ∀ j, j < t.grid.w → 0 ≤ entry cw j)
    {x : Rat} {a n : Nat} {y y' : Rat} {s : List Rat} {cells : List Placed} (hb : Band t rs cw rh x a n y y' s cells) :
    ∀ p ∈ cells, ∀ q ∈ cells, p ≠ q → Apart p q := by
  intro p hp q hq hne
  obtain ⟨r, hr, r1, r2, rfl⟩ := hb.mem p hp
  obtain ⟨r', hr', r1', r2', rfl⟩ := hb.mem q hq
  have hrr : r ≠ r' := by rintro rfl; exact hne rfl
  rcases rect_apart h hr hr' hrr with h1 | h1 | h1 | h1
  · exact Or.inl (apart_cols h hsx hcw rh s s x hr hr' h1)
  · exact Or.inr (Or.inl (apart_cols h hsx hcw rh s s x hr' hr h1))
  · exact Or.inr (Or.inr (Or.inl (hb.below r hr r' hr' r1 h1 r2')))
  · exact Or.inr (Or.inr (Or.inr (hb.below r' hr' r hr r1' h1 r2)))

end Verif.Cells
