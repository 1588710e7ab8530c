import Verif.Rims.Model
import Verif.Seams.Spec
/-!
# Borders at the sides of cells and tables: what is meant
-/
namespace Verif.Rims
open Verif.Table (Grid Border)
open Verif.Table.Spec (Rect)

/-- The slot, one of the cell, is at this side of the cell. -/
def OnSide : Side → Rect → Nat → Nat → Prop
  | .top, r, _, y => y = r.y
  | .bottom, r, _, y => y + 1 = r.y + r.cell.rowSpan
  | .start, r, x, _ => x = r.x
  | .fin, r, x, _ => x + 1 = r.x + r.cell.colSpan

/-- The cell is at this side of the table. -/
def AtEdge (g : Grid) : Side → Rect → Prop
  | .top, r => r.y = 0
  | .bottom, r => r.y + r.cell.rowSpan = g.h
  | .start, r => r.x = 0
  | .fin, r => r.x + r.cell.colSpan = g.w

/-- Where along the side the cell begins. -/
def begins : Side → Rect → Nat
  | .top, r | .bottom, r => r.x
  | .start, r | .fin, r => r.y

end Verif.Rims
