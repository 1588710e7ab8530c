import Verif.Seams.Model
import Verif.Table.Spec
/-!
# Collapsed borders between the cells of a table: what is meant

The cells of a table are rectangles that do not overlap (`Table.Spec.Rect`, C28).  Two cells touch along a line if one ends
and the other begins at it and they have a slot in common along it.
-/
namespace Verif.Seams
open Verif.Table (Grid Border)
open Verif.Table.Spec (Rect Shows)

/-- The grid of a table whose cells cover at least one slot each and do not overlap.  A slot no cell covers is its own. -/
structure Tiles (g : Grid) (rs : List Rect) : Prop where
  shows : Shows g rs
  cols : ∀ r ∈ rs, 1 ≤ r.cell.colSpan
  rows : ∀ r ∈ rs, 1 ≤ r.cell.rowSpan ∧ r.bottom = some (r.y + r.cell.rowSpan)
  apart : rs.Pairwise fun a b => ∀ x y, a.Covers x y → ¬b.Covers x y
  empty : ∀ x y, x < g.w → y < g.h → (g.slot x y).box = none → (g.slot x y).ax = x ∧ (g.slot x y).ay = y

/-- The first cell ends where the second begins, one above the other, and they have a column in common. -/
def Above (r q : Rect) : Prop :=
  r.y + r.cell.rowSpan = q.y ∧ ∃ x, (r.x ≤ x ∧ x < r.x + r.cell.colSpan) ∧ (q.x ≤ x ∧ x < q.x + q.cell.colSpan)

/-- The same with columns. -/
def Beside (r q : Rect) : Prop :=
  r.x + r.cell.colSpan = q.x ∧ ∃ y, (r.y ≤ y ∧ y < r.y + r.cell.rowSpan) ∧ (q.y ≤ y ∧ y < q.y + q.cell.rowSpan)

/-- A border that stands against others: it hides them all, or is as wide as each. -/
def Beats (b : Border) (others : List Border) : Prop :=
  b.style = .hidden ∨ ∀ o ∈ others, o.style ≠ .hidden ∧ o.width ≤ b.width

/-- A border of some cell on either side of the line, of a row, column or group beside it, or none. -/
def Known (B : Borders) (b : Border) : Prop :=
  (∃ c, b = B.after c) ∨ (∃ c, b = B.before c) ∨ b ∈ B.lines ∨ b = ⟨0, .none, 0⟩

end Verif.Seams
