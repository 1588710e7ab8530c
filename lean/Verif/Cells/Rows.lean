import Verif.Cells.Whole
/-!
# Laying out a table: the heights of the rows
-/
namespace Verif.Cells
open Spec
open Verif.Table (Cell Grid Axis)
open Verif.Table.Spec (Rect Shows)

theorem cellHeights_le (t : Table) (st : Keep) (v : List Rat) (a : Nat × Nat × Cell) : Le v (cellHeights t st v a) := by
  unfold cellHeights
  simp only
  refine Le.trans ?_ (Le.change (fun w => le_max_left _ _) _ _ _)
  split
  · exact Le.change (fun w => le_max_left _ _) _ _ _
  · exact Le.refl _

theorem rowStart_length (t : Table) : (t.rows.foldl saidHeight (List.replicate t.grid.h 0)).length = t.grid.h := by
  have : ∀ (l : List (Axis × Option Rat)) (v : List Rat), (l.foldl saidHeight v).length = v.length := by
    intro l
    induction l with
    | nil => intro v; rfl
    | cons r l ih =>
      intro v
      rw [List.foldl_cons, ih]
      unfold saidHeight
      split
      · rw [change_length]
      · rfl
  rw [this]; simp

theorem rowHeights_length (t : Table) (st : Keep) : (rowHeights t st).length = t.grid.h := by
  unfold rowHeights
  rw [← (Le.foldl (cellHeights_le t st) _ _).1]
  exact rowStart_length t

/-- Every row of a cell has its part of what the cell needs. -/
theorem rowHeights_cell {t : Table} {rs : List Rect} (h : Cells t rs) (st : Keep) {r : Rect} (hr : r ∈ rs) {k : Nat} (h1 : r.y ≤ k)
    (h2 : k < r.y + r.cell.rowSpan) :
    (t.box r.cell.id).tall (entry st.colWidth r.x) st.used / r.cell.rowSpan ≤ entry (rowHeights t st) k ∧
      ∀ g, (t.box r.cell.id).height = some g → g / r.cell.rowSpan ≤ entry (rowHeights t st) k := by
  unfold rowHeights
  have ha := (anchor_iff h).2 ⟨r, hr, rfl⟩
  have hin := (rect_inside h hr).2
  refine foldl_keeps (P := fun v => (t.box r.cell.id).tall (entry st.colWidth r.x) st.used / r.cell.rowSpan ≤ entry v k ∧
      ∀ g, (t.box r.cell.id).height = some g → g / r.cell.rowSpan ≤ entry v k) ha (cellHeights_le t st) ?_ t.grid.h ?_ (rowStart_length t)
  · intro v w hl hv
    exact ⟨le_trans hv.1 (hl.2 k), fun g hg => le_trans (hv.2 g hg) (hl.2 k)⟩
  · intro v hv
    unfold cellHeights
    cases hh : (t.box r.cell.id).height with
    | none =>
      simp only [hh]
      rw [entry_change _ _ _ _ _ (by omega), if_pos ⟨h1, h2⟩, at'_eq]
      exact ⟨le_max_right _ _, fun g hg => by cases hg⟩
    | some g' =>
      simp only [hh]
      rw [entry_change _ _ _ _ _ (by rw [change_length]; omega), if_pos ⟨h1, h2⟩, at'_eq, entry_change _ _ _ _ _ (by omega), if_pos ⟨h1, h2⟩]
      refine ⟨le_max_right _ _, fun g hg => ?_⟩
      cases hg
      exact le_trans (le_max_right _ _) (le_max_left _ _)

theorem parts (q : Rat) {n : Nat} (hn : 1 ≤ n) : (n : Rat) * (q / n) = q := by
  have : (n : Rat) ≠ 0 := by exact_mod_cast (by omega : n ≠ 0)
  field_simp

/-- The rows of a cell together are as high as it needs. -/
theorem rows_cell {t : Table} {rs : List Rect} (h : Cells t rs) {st : Keep} {rh : List Rat} (hle : Le (rowHeights t st) rh) {r : Rect}
    (hr : r ∈ rs) :
    (t.box r.cell.id).tall (entry st.colWidth r.x) st.used ≤ total (entry rh) r.y r.cell.rowSpan ∧
      ∀ g, (t.box r.cell.id).height = some g → g ≤ total (entry rh) r.y r.cell.rowSpan := by
  have h1 := (h.rows r hr).1
  constructor
  · have := total_mono (f := fun _ => (t.box r.cell.id).tall (entry st.colWidth r.x) st.used / r.cell.rowSpan) (g := entry rh) (a := r.y)
      (n := r.cell.rowSpan) (fun k h1 h2 => le_trans (rowHeights_cell h st hr h1 h2).1 (hle.2 k))
    rw [total_const, parts _ h1] at this
    exact this
  · intro g hg
    have := total_mono (f := fun _ => g / r.cell.rowSpan) (g := entry rh) (a := r.y)
      (n := r.cell.rowSpan) (fun k h1 h2 => le_trans ((rowHeights_cell h st hr h1 h2).2 g hg) (hle.2 k))
    rw [total_const, parts _ h1] at this
    exact this

/-- A row some cell covers is not negative. -/
theorem row_nonneg {t : Table} {rs : List Rect} (h : Cells t rs) (hs : Sane t) {st : Keep} {rh : List Rat} (hle : Le (rowHeights t st) rh)
    {r : Rect} (hr : r ∈ rs) {k : Nat} (h1 : r.y ≤ k) (h2 : k < r.y + r.cell.rowSpan) : 0 ≤ entry rh k :=
  le_trans (le_trans (div_nonneg (hs.tall _ _ _) (Nat.cast_nonneg _)) (rowHeights_cell h st hr h1 h2).1) (hle.2 k)

/-! ## No row is higher than needed -/

theorem rowHeights_tight {t : Table} {rs : List Rect} (h : Cells t rs) (st : Keep)
    (hone : ∀ r ∈ rs, r.cell.rowSpan = 1 ∧ (t.box r.cell.id).height = none) (hrows : ∀ q ∈ t.rows, q.2 = none) (i : Nat) :
    entry (rowHeights t st) i = 0 ∨
      ∃ r ∈ rs, r.y = i ∧ entry (rowHeights t st) i = (t.box r.cell.id).tall (entry st.colWidth r.x) st.used := by
  have h0 : ∀ l : List (Axis × Option Rat), (∀ q ∈ l, q.2 = none) → ∀ v : List Rat, l.foldl saidHeight v = v := by
    intro l
    induction l with
    | nil => intro _ v; rfl
    | cons q l ih =>
      intro hq v
      have hs : saidHeight v q = v := by unfold saidHeight; rw [hq q (List.mem_cons_self ..)]
      rw [List.foldl_cons, hs]
      exact ih (fun q' hq' => hq q' (List.mem_cons_of_mem _ hq')) v
  unfold rowHeights
  rw [h0 t.rows hrows]
  have hm : ∀ a ∈ anchors t.grid, ∃ r ∈ rs, a = (r.y, r.x, r.cell) := fun a ha => (anchor_iff h).1 ha
  have key : ∀ (l : List (Nat × Nat × Cell)) (v : List Rat), (∀ a ∈ l, ∃ r ∈ rs, a = (r.y, r.x, r.cell)) →
      (∀ i, entry v i = 0 ∨ ∃ r ∈ rs, r.y = i ∧ entry v i = (t.box r.cell.id).tall (entry st.colWidth r.x) st.used) →
      ∀ i, entry (l.foldl (cellHeights t st) v) i = 0 ∨
        ∃ r ∈ rs, r.y = i ∧ entry (l.foldl (cellHeights t st) v) i = (t.box r.cell.id).tall (entry st.colWidth r.x) st.used := by
    intro l
    induction l with
    | nil => intro v _ hv i; exact hv i
    | cons a l ih =>
      intro v hl hv i
      rw [List.foldl_cons]
      refine ih _ (fun b hb => hl b (List.mem_cons_of_mem _ hb)) (fun i => ?_) i
      obtain ⟨r, hr, rfl⟩ := hl a (List.mem_cons_self ..)
      obtain ⟨h1, h2⟩ := hone r hr
      unfold cellHeights
      simp only [h1, h2, Nat.cast_one, div_one]
      by_cases hi : i < v.length
      · rw [entry_change _ _ _ _ _ hi, at'_eq]
        split
        · rename_i hri
          rcases max_choice (entry v i) ((t.box r.cell.id).tall (entry st.colWidth r.x) st.used) with hc | hc
          · rw [hc]; exact hv i
          · rw [hc]; exact Or.inr ⟨r, hr, by omega, rfl⟩
        · exact hv i
      · left; exact entry_out (by rw [change_length]; omega)
  exact key _ _ hm (fun i => Or.inl (zero_entry _ _)) i

/-! ## A given height -/

theorem sum_marked (d : Rat) (rows : List (Axis × Option Rat)) (v : List Rat) (hl : rows.length = v.length) :
    (growAuto rows d v).sum = v.sum + (rows.countP fun r => r.2.isNone : Nat) * d := by
  unfold growAuto
  induction v generalizing rows with
  | nil =>
    cases rows with
    | nil => simp
    | cons => simp at hl
  | cons w v ih =>
    cases rows with
    | nil => simp at hl
    | cons q rows =>
      rw [List.mapIdx_cons, List.sum_cons, List.sum_cons, List.countP_cons]
      have := ih rows (by simpa using hl)
      simp only [List.getElem?_cons_succ, List.getElem?_cons_zero] at this ⊢
      rw [this]
      obtain ⟨a, o⟩ := q
      cases o with
      | none => simp; ring
      | some h => simp; ring

theorem heights_given {t : Table} {st st2 : Keep} {k : Rat} {rh : List Rat} (h0 : st.autoRows = 0) (hrows : t.rows.length = t.grid.h)
    (he : heights t st (some k) = some (st2, rh)) (hk : (rowHeights t st).sum + t.sy * (t.grid.h + 1) ≤ k) :
    rh.sum + t.sy * (t.grid.h + 1) = k := by
  unfold heights at he
  simp only [h0, Nat.zero_add] at he
  split at he
  · split at he
    · rename_i hpos
      cases he
      rw [sum_marked _ _ _ (by rw [rowHeights_length, hrows])]
      change _ + (autoCount t : Rat) * _ + _ = _
      rw [parts _ hpos]; ring
    · split at he
      · cases he
      · rename_i hne
        cases he
        have : ∀ (v : List Rat) (d : Rat), (v.map (· + d)).sum = v.sum + v.length * d := by
          intro v d
          induction v with
          | nil => simp
          | cons w v ih => simp only [List.map_cons, List.sum_cons, ih, List.length_cons]; push_cast; ring
        rw [this, rowHeights_length, hrows, parts _ (by omega)]; ring
  · rename_i hng
    cases he
    exact le_antisymm hk (not_lt.1 hng)

/-! ## Rows that all have a cell that ends in them -/

theorem sizeY_eq {y q : Rat} {cells : List Placed} (hq : 0 ≤ q) (h1 : ∀ p ∈ cells, p.y + p.h - y = q) (h2 : cells ≠ []) : sizeY y cells = q := by
  apply le_antisymm
  · unfold sizeY
    have : ∀ (l : List Placed) (m : Rat), m ≤ q → (∀ p ∈ l, p.y + p.h - y = q) → l.foldl (fun m p => max m (p.y + p.h - y)) m ≤ q := by
      intro l
      induction l with
      | nil => intro m hm _; exact hm
      | cons p l ih =>
        intro m hm hp
        refine ih _ (max_le hm (hp p (List.mem_cons_self ..)).le) (fun p' hp' => hp p' (List.mem_cons_of_mem _ hp'))
    exact this cells 0 hq h1
  · obtain ⟨p, hp⟩ := List.exists_mem_of_ne_nil _ h2
    rw [← h1 p hp]
    exact le_sizeY.2 p hp

/-- Where rows begin when a cell ends in every row: each below the one before. -/
theorem dense_rows {t : Table} {rs : List Rect} (h : Cells t rs) {cw rh s : List Rat} {x y0 : Rat} {P : Nat → Rat}
    (hd : ∀ i, i < t.grid.h → ∃ r ∈ rs, r.y + r.cell.rowSpan = i + 1) (hrh : ∀ i, i < t.grid.h → 0 ≤ entry rh i)
    (hP0 : P 0 = y0) (hP : ∀ k, k < t.grid.h → entry s k = P k ∧
      P (k + 1) = P k + (sizeY (P k) (layRow t cw rh s x k (decide (k + 1 = t.grid.h))) + t.sy)) :
    ∀ k, k ≤ t.grid.h → P k = y0 + total (fun i => entry rh i + t.sy) 0 k := by
  intro k
  induction k using Nat.strong_induction_on with
  | _ k ih =>
  intro hk
  cases k with
  | zero => rw [hP0]; simp [total]
  | succ k =>
    have hPk := ih k (by omega) (by omega)
    rw [(hP k (by omega)).2, total_succ, Nat.zero_add]
    have hsz : sizeY (P k) (layRow t cw rh s x k (decide (k + 1 = t.grid.h))) = entry rh k := by
      apply sizeY_eq (hrh k (by omega))
      · intro p hp
        obtain ⟨r, hr, h1, h2, h3, rfl⟩ := (mem_layRow h cw rh s x (by omega) _).1 hp
        have hin := (rect_inside h hr).2
        have hbot : r.y + r.cell.rowSpan = k + 1 := by
          rcases h3 with h3 | h3
          · exact h3
          · simp only [decide_eq_true_eq] at h3; omega
        have hrow := (h.rows r hr).1
        show entry s r.y + (total (entry rh) r.y r.cell.rowSpan + t.sy * ((r.cell.rowSpan - 1 : Nat) : Rat)) - P k = _
        rw [(hP r.y (by omega)).1, ih r.y (by omega) (by omega), hPk]
        obtain ⟨n, hn⟩ : ∃ n, r.cell.rowSpan = n + 1 := ⟨r.cell.rowSpan - 1, by omega⟩
        have hk' : k = r.y + n := by omega
        have e1 := total_append (fun i => entry rh i + t.sy) 0 r.y n
        have e2 := total_add (entry rh) (fun _ => t.sy) (0 + r.y) n
        rw [total_const] at e2
        rw [e2, Nat.zero_add] at e1
        rw [hn, hk', e1, total_succ]
        simp only [Nat.add_sub_cancel]
        ring
      · obtain ⟨r, hr, he⟩ := hd k (by omega)
        have hrow := (h.rows r hr).1
        exact List.ne_nil_of_mem ((mem_layRow h cw rh s x (by omega) _).2 ⟨r, hr, by omega, by omega, Or.inl he, rfl⟩)
    rw [hsz, hPk]; ring

end Verif.Cells
