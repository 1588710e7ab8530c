import Verif.Seams.Model
/-!
# Separate borders of cells, and the borders around a table: model

`layout/table.cpp` 608–672, 677–720, 723–785.  Paths are relative to `src/vaev-engine`.

The four sides of a cell are four grids of numbers (`bordersGrid.width`, 698–711), each a vector of `w * h` places; a write
outside of the vector panics.  Each side is followed for itself: the list of writes to it, in order.

Simplified: borders of cells are given, by the number of the cell, as `computeBorders` and `resolve` make them.
-/
namespace Verif.Rims
open Verif.Table (Slot Grid Border Cell harmonize)
open Verif.Seams (Res pred64 colSpan rowSpan)

inductive Side where
  | top | fin | bottom | start
deriving DecidableEq

/-- Numbers of 64 bits. -/
def wrap (n : Nat) : Nat := n % 2 ^ 64

/-- `i * gridWidth + j`, 688–694, 707–709. -/
def place (g : Grid) (i j : Nat) : Nat := wrap (i * g.w + j)

/-- How often the loops 764–772 turn for a side. -/
def turns (c : Cell) : Side → Nat
  | .top | .bottom => c.colSpan
  | .start | .fin => c.rowSpan

/-- Where turn `k` writes, 765–766, 770–771, for the cell at column `j` and row `i`. -/
def spot (g : Grid) (c : Cell) (j i k : Nat) : Side → Nat
  | .top => place g i (j + k)
  | .bottom => place g (pred64 (i + c.rowSpan)) (j + k)
  | .start => place g (i + k) j
  | .fin => place g (i + k) (pred64 (j + c.colSpan))

/-- The body of the loop 750–773, the writes for one side. -/
def cellWrites (g : Grid) (f : Nat → Side → Int) (s : Side) (j i : Nat) : List (Nat × Int) :=
  match (g.slot j i).box with
  | none => []
  | some c =>
    if (g.slot j i).ax = j ∧ (g.slot j i).ay = i then (List.range (turns c s)).map fun k => (spot g c j i k s, f c.id s) else []

/-- The loops 749–750. -/
def allWrites (g : Grid) (f : Nat → Side → Int) (s : Side) : List (Nat × Int) :=
  (List.range g.h).flatMap fun i => (List.range g.w).flatMap fun j => cellWrites g f s j i

/-- `computeBordersStructsSeparate`, 748–775. -/
def separate (g : Grid) (f : Nat → Side → Int) (s : Side) : Res (List (Nat × Int)) :=
  if (allWrites g f s).all (fun p => p.1 < g.w * g.h) then .ok (allWrites g f s) else .panic

/-- What a place holds after writes; `init` makes all widths nought, 702–705. -/
def filled (ws : List (Nat × Int)) (k : Nat) : Int := ws.foldl (fun acc w => if w.1 = k then w.2 else acc) 0

/-- `buildBordersWidthsForCell`, 713–720: where the width of a side is read. -/
def readAt (g : Grid) (c : Cell) (j i : Nat) : Side → Nat
  | .top | .start => place g i j
  | .bottom | .fin => place g (pred64 (i + c.rowSpan)) (pred64 (j + c.colSpan))

/-! ## The borders around a table whose borders collapse -/

/-- The slot at position `k` along a side of the table, 610–615, 643–648; `none` is the panic of `at`. -/
def along (g : Grid) (s : Side) (k : Nat) : Option Slot :=
  match s with
  | .top => g.get k 0
  | .bottom => g.get k (pred64 g.h)
  | .start => g.get 0 k
  | .fin => g.get (pred64 g.w) k

def length (g : Grid) : Side → Nat
  | .top | .bottom => g.w
  | .start | .fin => g.h

def spanAlong (s : Side) (t : Slot) : Nat :=
  match s with
  | .top | .bottom => colSpan t
  | .start | .fin => rowSpan t

/-- The loops 612–639, 646–672: the positions and slots of cells they find; no turns left is no end. -/
def walk (g : Grid) (s : Side) : Nat → Nat → Res (List (Nat × Slot))
  | 0, _ => .hang
  | n + 1, k =>
    if k < length g s then
      match along g s k with
      | none => .panic
      | some t => (walk g s n (k + spanAlong s t)).bind fun l => .ok (if t.box.isSome then (k, t) :: l else l)
    else .ok []

/-- The borders along a side of the table: that side of the cells, by number, of the table, and of rows, groups of rows,
columns and groups of columns at a position (`addAxisAndGroupBorder`, 625–626, 659–660). -/
structure Borders where
  cell : Nat → Border
  table : Border
  lines : Nat → List Border

/-- `finalBorder`, 620–628, 654–662. -/
def final (B : Borders) (k : Nat) (t : Slot) : Border :=
  harmonize ((match t.box with | some c => [B.cell c.id] | none => []) ++ [B.table] ++ B.lines k)

/-- Where it is written, 630–635, 664–669. -/
def target (g : Grid) (s : Side) (k : Nat) (t : Slot) : Nat :=
  match s with
  | .top => place g 0 k
  | .bottom => place g (pred64 g.h) (pred64 (t.ax + colSpan t))
  | .start => place g k 0
  | .fin => place g (pred64 (t.ay + rowSpan t)) (pred64 g.w)

/-- `resolveConflictForTableBordersAtHorizontalAxis` and `…VerticalAxis`, 608–672: the writes for a side. -/
def edge (g : Grid) (s : Side) (B : Borders) : Res (List (Nat × Border)) :=
  (walk g s (length g s + 1) 0).bind fun l =>
    let ws := l.map fun p => (target g s p.1 p.2, final B p.1 p.2)
    if ws.all (fun p => p.1 < g.w * g.h) then .ok ws else .panic

end Verif.Rims
