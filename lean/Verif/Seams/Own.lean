import Verif.Seams.Grids
import Verif.Table.Build
/-!
# Collapsed borders: the grids the code builds
-/
namespace Verif.Seams
open Verif.Table
open Verif.Table.Spec

/-- Slots without a cell are their own. -/
def Own (g : Grid) : Prop := ∀ x y, (g.slot x y).box = none → g.slot x y = ⟨x, y, none⟩

theorem Own.width {g : Grid} (h : Own g) (n : Nat) : Own (g.increaseWidth n) := by
  intro x y hb
  unfold Grid.increaseWidth at hb ⊢
  simp only at hb ⊢
  split
  · rfl
  · rename_i hc
    rw [if_neg hc] at hb
    exact h x y hb

theorem Own.height {g : Grid} (h : Own g) (n : Nat) : Own (g.increaseHeight n) := by
  intro x y hb
  unfold Grid.increaseHeight at hb ⊢
  simp only at hb ⊢
  split
  · rfl
  · rename_i hc
    rw [if_neg hc] at hb
    exact h x y hb

theorem Own.fill {g g' : Grid} (h : Own g) (ps : List (Nat × Nat)) {s : Slot} (hs : s.box.isSome) (e : g.fill s ps = some g') : Own g' := by
  induction ps generalizing g with
  | nil => rw [Grid.fill] at e; cases e; exact h
  | cons p ps ih =>
    obtain ⟨x, y⟩ := p
    rw [Grid.fill, Grid.set] at e
    split at e
    · cases e
    · refine ih ?_ e
      intro x' y' hb
      simp only at hb ⊢
      split
      · rename_i hc
        rw [if_pos hc] at hb
        rw [hb] at hs; cases hs
      · rename_i hc
        rw [if_neg hc] at hb
        exact h x' y' hb

/-- The state while there is no cell that goes to the end of its group. -/
def Plain (st : Core) : Prop := Own st.grid ∧ st.growing = []

theorem Plain.cell {st st' : Core} {x x' : Nat} {c : Cell} (h : Plain st) (hc : c.rowSpan ≠ 0)
    (e : placeCell st x c = some (st', x')) : Plain st' := by
  unfold placeCell at e
  cases hsk : skipOccupied st.grid st.cy (st.grid.w - x) x with
  | none => rw [hsk] at e; cases e
  | some x1 =>
    rw [hsk] at e
    simp only [Option.bind_some, hc, if_false] at e
    rw [Option.bind_eq_some_iff] at e
    obtain ⟨g', hg, e⟩ := e
    cases e
    refine ⟨Own.fill ?_ _ rfl hg, h.2⟩
    have h1 : Own (if x1 = st.grid.w then st.grid.increaseWidth 1 else st.grid) := by
      split
      · exact h.1.width 1
      · exact h.1
    have h2 : ∀ g : Grid, Own g → ∀ n, Own (if g.w < x1 + c.colSpan then g.increaseWidth n else g) := by
      intro g hg n
      split
      · exact hg.width n
      · exact hg
    have h3 : ∀ g : Grid, Own g → ∀ n, Own (if g.h < st.cy + c.rowSpan then g.increaseHeight n else g) := by
      intro g hg n
      split
      · exact hg.height n
      · exact hg
    exact h3 _ (h2 _ h1 _) _

theorem Plain.cells {st st' : Core} {x : Nat} {cs : List Cell} (h : Plain st) (hc : ∀ c ∈ cs, c.rowSpan ≠ 0)
    (e : placeCells st x cs = some st') : Plain st' := by
  induction cs generalizing st x with
  | nil => rw [placeCells] at e; cases e; exact h
  | cons c cs ih =>
    rw [placeCells, Option.bind_eq_some_iff] at e
    obtain ⟨⟨st1, x1⟩, h1, e⟩ := e
    exact ih (h.cell (hc c (by simp)) h1) (fun c' h' => hc c' (by simp [h'])) e

theorem Plain.row {st st' : Core} {cs : List Cell} (h : Plain st) (hc : ∀ c ∈ cs, c.rowSpan ≠ 0)
    (e : processRow st cs = some st') : Plain st' := by
  unfold processRow at e
  simp only [h.2, growAll, Option.bind_some] at e
  rw [Option.bind_eq_some_iff] at e
  obtain ⟨st1, h1, e⟩ := e
  cases e
  have hp : Plain { grid := if st.grid.h = st.cy then st.grid.increaseHeight 1 else st.grid, cy := st.cy, growing := [] } := by
    refine ⟨?_, rfl⟩
    simp only
    split
    · exact h.1.height 1
    · exact h.1
  exact ⟨(hp.cells hc h1).1, (hp.cells hc h1).2⟩

theorem Plain.rows {st st' : Core} {rows : List (List Cell)} (h : Plain st) (hc : ∀ row ∈ rows, ∀ c ∈ row, c.rowSpan ≠ 0)
    (e : coreRows st rows = some st') : Plain st' := by
  induction rows generalizing st with
  | nil => rw [coreRows] at e; cases e; exact h
  | cons row rows ih =>
    rw [coreRows, Option.bind_eq_some_iff] at e
    obtain ⟨st1, h1, e⟩ := e
    exact ih (h.row (hc row (by simp)) h1) (fun r h' => hc r (by simp [h'])) e

theorem Plain.endLoop {n : Nat} {st st' : Core} (h : Plain st) (e : endLoop n st = some st') : Plain st' := by
  induction n generalizing st with
  | zero => rw [Table.endLoop] at e; cases e; exact h
  | succ n ih =>
    rw [Table.endLoop] at e
    split at e
    · rw [h.2, growAll, Option.bind_some] at e
      exact ih (⟨h.1, rfl⟩ : Plain { st with grid := st.grid, cy := st.cy + 1, growing := [] }) e
    · cases e; exact h

theorem Plain.segs {b : Bool} {gs : List (List (List Cell))} {st st' : Core} (h : Plain st)
    (hc : ∀ g ∈ gs, ∀ row ∈ g, ∀ c ∈ row, c.rowSpan ≠ 0) (e : runSegs b st gs = some st') : Plain st' := by
  induction gs generalizing st with
  | nil => rw [runSegs] at e; cases e; exact h
  | cons g gs ih =>
    rw [runSegs, Option.bind_eq_some_iff] at e
    obtain ⟨st1, h1, e⟩ := e
    have hp := h.rows (hc g (by simp)) h1
    split at e
    · cases e; exact hp
    · rw [Option.bind_eq_some_iff] at e
      obtain ⟨st2, h2, e⟩ := e
      exact ih (hp.endLoop h2) (fun g' h' => hc g' (by simp [h'])) e

theorem own_groupCols {st : St} (h : Own st.core.grid) (cs : List Nat) : Own (groupCols st cs).core.grid := by
  induction cs generalizing st with
  | nil => exact h
  | cons c cs ih =>
    rw [groupCols]
    exact ih (h.width c)

theorem own_colGroups {st : St} (h : Own st.core.grid) (items : List Item) : Own (colGroups st items).1.core.grid := by
  induction items generalizing st with
  | nil => exact h
  | cons i items ih =>
    cases i with
    | colGroup cs span =>
      rw [colGroups]
      apply ih
      cases cs with
      | nil => exact h.width span
      | cons c cs => exact own_groupCols h (c :: cs)
    | row cs => exact h
    | head rs => exact h
    | body rs => exact h
    | foot rs => exact h

theorem rowPlaced_bottom {above : List Rect} {y x : Nat} {cs : List Cell} {rs : List Rect} (h : RowPlaced above y x cs rs) :
    ∀ r ∈ rs, r.cell.rowSpan ≠ 0 → r.bottom = some (r.y + r.cell.rowSpan) := by
  induction h with
  | nil => intro r hr; cases hr
  | cons _ _ _ _ ih =>
    intro r hr h0
    rcases List.mem_cons.1 hr with rfl | hr
    · simp only [rectAt] at h0 ⊢
      rw [if_neg h0]
    · exact ih r hr h0

theorem rowsPlaced_bottom {above : List Rect} {y : Nat} {rows : List (List Cell)} {rs : List Rect} (h : RowsPlaced above y rows rs) :
    ∀ r ∈ rs, r.cell.rowSpan ≠ 0 → r.bottom = some (r.y + r.cell.rowSpan) := by
  induction h with
  | nil => intro r hr; cases hr
  | cons h1 _ ih =>
    intro r hr h0
    rcases List.mem_append.1 hr with hr | hr
    · exact rowPlaced_bottom h1 r hr h0
    · exact ih r hr h0

theorem placed_bottom {above : List Rect} {y h : Nat} {gs : List (List (List Cell))} {rs : List Rect} (hp : Placed above y gs rs h) :
    ∀ r ∈ rs, r.cell.rowSpan ≠ 0 → r.bottom = some (r.y + r.cell.rowSpan) := by
  induction hp with
  | nil => intro r hr; cases hr
  | cons h1 _ _ ih =>
    intro r hr h0
    rcases List.mem_append.1 hr with hr | hr
    · obtain ⟨r', hr', rfl⟩ := List.mem_map.1 hr
      have := rowsPlaced_bottom h1 r' hr' h0
      simp only [Rect.close] at h0 ⊢
      rw [this]; rfl
    · exact ih r hr h0

/-- The grid that the code builds for a table without `rowspan=0` and without overlapping cells. -/
theorem tiles_of_build {items : List Item} {st : St} {rs : List Rect} (hb : build items = some st)
    (hp : Placed [] 0 (groups items) rs st.core.grid.h) (hs : Shows st.core.grid rs)
    (hv : ∀ g ∈ groups items, ValidRows g) (hz : ∀ g ∈ groups items, ¬HasZero g)
    (ha : rs.Pairwise fun a b => ∀ x y, a.Covers x y → ¬b.Covers x y) : Tiles st.core.grid rs := by
  obtain ⟨st', b, hb', -, hr⟩ := build_segs items
  rw [hb] at hb'
  cases hb'
  have hcell : ∀ r ∈ rs, ∃ g ∈ groups items, ∃ row ∈ g, r.cell ∈ row := by
    intro r hr
    have hm : r.cell ∈ (groups items).flatten.flatten := by
      rw [← placed_cells hp]; exact List.mem_map_of_mem hr
    obtain ⟨row, hrow, hcr⟩ := List.mem_flatten.mp hm
    obtain ⟨g, hg, hrg⟩ := List.mem_flatten.mp hrow
    exact ⟨g, hg, row, hrg, hcr⟩
  have hz' : ∀ g ∈ groups items, ∀ row ∈ g, ∀ c ∈ row, c.rowSpan ≠ 0 :=
    fun g hg row hrow c hc h0 => hz g hg ⟨row, hrow, c, hc, h0⟩
  have hown : Plain st.core := by
    refine Plain.segs ⟨?_, (start_blank items).grow⟩ hz' hr
    exact own_colGroups (st := {}) (fun x y _ => rfl) items
  refine ⟨hs, ?_, ?_, ha, ?_⟩
  · intro r hr
    obtain ⟨g, hg, row, hrow, hc⟩ := hcell r hr
    exact hv g hg row hrow _ hc
  · intro r hr
    obtain ⟨g, hg, row, hrow, hc⟩ := hcell r hr
    have h0 := hz' g hg row hrow _ hc
    exact ⟨by omega, placed_bottom hp r hr h0⟩
  · intro x y _ _ hb
    rw [hown.1 x y hb]
    exact ⟨rfl, rfl⟩

end Verif.Seams
