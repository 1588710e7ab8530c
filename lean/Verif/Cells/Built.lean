import Verif.Cells.Places
import Verif.Table.Props
/-!
# Laying out a table: the tables that are formed from rows of cells
-/
namespace Verif.Cells
open Spec
open Verif.Table (Cell Grid Axis Item)
open Verif.Table.Spec

/-! ## Checking a table -/

def Check1 (g : Grid) (rs : List Rect) : Prop :=
  ∀ r ∈ rs, 1 ≤ r.cell.colSpan ∧ 1 ≤ r.cell.rowSpan ∧ r.bottom = some (r.y + r.cell.rowSpan) ∧ r.x + r.cell.colSpan ≤ g.w ∧
    r.y + r.cell.rowSpan ≤ g.h ∧ g.slot r.x r.y = ⟨r.x, r.y, some r.cell⟩

def Check2 (rs : List Rect) : Prop :=
  rs.Pairwise (fun a b => a.x + a.cell.colSpan ≤ b.x ∨ b.x + b.cell.colSpan ≤ a.x ∨ a.y + a.cell.rowSpan ≤ b.y ∨ b.y + b.cell.rowSpan ≤ a.y)

def Check3 (g : Grid) (rs : List Rect) (x y : Nat) : Prop :=
  ((g.slot x y).box = none ∧ ∀ r ∈ rs, ¬(r.x ≤ x ∧ x < r.x + r.cell.colSpan ∧ r.y ≤ y ∧ y < r.y + r.cell.rowSpan)) ∨
    ∃ r ∈ rs, (r.x ≤ x ∧ x < r.x + r.cell.colSpan ∧ r.y ≤ y ∧ y < r.y + r.cell.rowSpan) ∧ g.slot x y = ⟨r.x, r.y, some r.cell⟩

instance (g : Grid) (rs : List Rect) : Decidable (Check1 g rs) := by unfold Check1; infer_instance
instance (rs : List Rect) : Decidable (Check2 rs) := by unfold Check2; infer_instance
instance (g : Grid) (rs : List Rect) (x y : Nat) : Decidable (Check3 g rs x y) := by unfold Check3; infer_instance

/-- `Cells`, for tables that are written down. -/
def Check (g : Grid) (rs : List Rect) : Prop :=
  Check1 g rs ∧ Check2 rs ∧ ∀ x, x < g.w → ∀ y, y < g.h → Check3 g rs x y

instance (g : Grid) (rs : List Rect) : Decidable (Check g rs) := by unfold Check; infer_instance

theorem cells_check {t : Table} {rs : List Rect} (h : Check t.grid rs) : Cells t rs := by
  obtain ⟨h1, h2, h3⟩ := h
  have hcov : ∀ r ∈ rs, ∀ x y, r.Covers x y ↔ r.x ≤ x ∧ x < r.x + r.cell.colSpan ∧ r.y ≤ y ∧ y < r.y + r.cell.rowSpan := by
    intro r hr x y
    unfold Rect.Covers
    rw [(h1 r hr).2.2.1]
    simp
  refine ⟨⟨fun x y hx hy => ?_, fun r hr => (h1 r hr).2.2.2.2.2, fun r hr x y hc => ?_⟩, fun r hr => (h1 r hr).1,
    fun r hr => ⟨(h1 r hr).2.1, (h1 r hr).2.2.1⟩, ?_⟩
  · rcases h3 x hx y hy with ⟨ha, hb⟩ | ⟨r, hr, hc, he⟩
    · exact Or.inl ⟨ha, fun r hr => by rw [hcov r hr]; exact hb r hr⟩
    · exact Or.inr ⟨r, hr, (hcov r hr x y).2 hc, he⟩
  · rw [hcov r hr] at hc
    have := h1 r hr
    omega
  · refine h2.imp_of_mem fun {a b} ha hb hab x y hx hy => ?_
    rw [hcov a ha] at hx
    rw [hcov b hb] at hy
    omega

/-! ## Tables made of rows -/

theorem rowPlaced_bottom {above : List Rect} {x y : Nat} {cs : List Cell} {rs : List Rect} (h : RowPlaced above y x cs rs) :
    ∀ r ∈ rs, r.cell.rowSpan ≠ 0 → r.bottom = some (r.y + r.cell.rowSpan) := by
  induction h with
  | nil => simp
  | cons _ _ _ _ ih =>
    intro r hr
    rcases List.mem_cons.1 hr with rfl | hr
    · intro hz
      simp only [rectAt] at hz ⊢
      rw [if_neg hz]
    · exact ih r hr

theorem rowsPlaced_bottom {above : List Rect} {y : Nat} {rows : List (List Cell)} {rs : List Rect} (h : RowsPlaced above y rows rs) :
    ∀ r ∈ rs, r.cell.rowSpan ≠ 0 → r.bottom = some (r.y + r.cell.rowSpan) := by
  induction h with
  | nil => simp
  | cons h1 _ ih =>
    intro r hr
    rcases List.mem_append.1 hr with hr | hr
    · exact rowPlaced_bottom h1 r hr
    · exact ih r hr

theorem placed_bottom {above : List Rect} {y h : Nat} {gs : List (List (List Cell))} {rs : List Rect} (hp : Table.Spec.Placed above y gs rs h) :
    ∀ r ∈ rs, r.cell.rowSpan ≠ 0 → r.bottom = some (r.y + r.cell.rowSpan) := by
  induction hp with
  | nil => simp
  | cons h1 _ _ ih =>
    intro r hr
    rcases List.mem_append.1 hr with hr | hr
    · rw [List.mem_map] at hr
      obtain ⟨q, hq, rfl⟩ := hr
      intro hz
      have := rowsPlaced_bottom h1 q hq hz
      simp only [Rect.close, this, Option.getD_some]
    · exact ih r hr

/-- A table formed from rows whose cells span numbers of rows and columns, and either no cell spans
more than one row or no cell more than one column, has its cells apart. -/
theorem built {items : List Item} (hc : ∀ g ∈ groups items, ∀ row ∈ g, ∀ c ∈ row, 1 ≤ c.colSpan ∧ 1 ≤ c.rowSpan)
    (h1 : (∀ g ∈ groups items, ∀ row ∈ g, ∀ c ∈ row, c.rowSpan = 1) ∨ (∀ g ∈ groups items, ∀ row ∈ g, ∀ c ∈ row, c.colSpan = 1)) :
    ∃ st rs, Verif.Table.build items = some st ∧ rs.map Rect.cell = (groups items).flatten.flatten ∧
      ∀ t : Table, t.grid = st.core.grid → Cells t rs := by
  obtain ⟨st, rs, hb, hp, hs⟩ := Verif.Table.C28_cells_placed_partial items (fun g hg row hr c hc' => (hc g hg row hr c hc').1)
    (Verif.Table.C28_no_zero_tame _ _ (fun g hg ⟨row, hr, c, hc', hz⟩ => by have := (hc g hg row hr c hc').2; omega))
  have hcells := Verif.Table.C28_no_cell_lost hp
  have hmem : ∀ r ∈ rs, ∃ g ∈ groups items, ∃ row ∈ g, r.cell ∈ row := by
    intro r hr
    have : r.cell ∈ (groups items).flatten.flatten := by rw [← hcells]; exact List.mem_map_of_mem hr
    rw [List.mem_flatten] at this
    obtain ⟨row, h1, h2⟩ := this
    rw [List.mem_flatten] at h1
    obtain ⟨g, h3, h4⟩ := h1
    exact ⟨g, h3, row, h4, h2⟩
  have hsp : ∀ r ∈ rs, 1 ≤ r.cell.colSpan ∧ 1 ≤ r.cell.rowSpan := by
    intro r hr
    obtain ⟨g, a, row, b, c⟩ := hmem r hr
    exact hc g a row b _ c
  have hbot : ∀ r ∈ rs, r.bottom = some (r.y + r.cell.rowSpan) := fun r hr => placed_bottom hp r hr (by have := (hsp r hr).2; omega)
  refine ⟨st, rs, hb, hcells, fun t ht => ⟨by rw [ht]; exact hs, fun r hr => (hsp r hr).1, fun r hr => ⟨(hsp r hr).2, hbot r hr⟩, ?_⟩⟩
  refine (Verif.Table.C28_overlaps hp).imp_of_mem fun {a b} ha hb' hab x y hx hy => ?_
  obtain ⟨k1, k2, k3⟩ := hab x y hx hy
  rcases h1 with h1 | h1
  · obtain ⟨g, a1, row, a2, a3⟩ := hmem a ha
    have e := h1 g a1 row a2 _ a3
    have := k3.2.2.2 _ (hbot a ha)
    omega
  · obtain ⟨g, a1, row, a2, a3⟩ := hmem b hb'
    have e := h1 g a1 row a2 _ a3
    have := hy.2.1
    omega

end Verif.Cells
