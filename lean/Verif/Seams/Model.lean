import Verif.Table.Model
/-!
# Collapsed borders between the cells of a table: model

`layout/table.cpp` 18–27, 381–397, 459–555, 558–607, 677–743, 1410–1423.  Paths are relative to `src/vaev-engine`.

The two functions for the lines between two rows and between two columns (507–555, 558–607) are one definition here,
`Line`: what differs is which coordinate and which span they look at, and the last statement of the loop that looks for
the end of a stretch (`force`).  The choice among borders, `harmonize`, is that of the area `Table` (C30).

Simplified: a cell is known by its number; borders of cells, rows and groups are given, as `resolve` (18–27) makes them: a
border whose style is `none` has no width, any other style leaves it its width.  Coordinates are natural numbers; only the
subtraction of one can wrap around.
-/
namespace Verif.Seams
open Verif.Table (Slot Grid Border harmonize)

/-- What a loop of the code comes to: a result, `panic("bad coordinates for table slot")` (table.cpp 80–84), or no end. -/
inductive Res (α : Type) where
  | ok (a : α)
  | panic
  | hang
deriving DecidableEq

def Res.bind {α β : Type} : Res α → (α → Res β) → Res β
  | .ok a, f => f a
  | .panic, _ => .panic
  | .hang, _ => .hang

/-- `n - 1` for `usize`. -/
def pred64 (n : Nat) : Nat := if n = 0 then 2 ^ 64 - 1 else n - 1

/-- A line between two rows or columns of the grid: the slots on one side (`a`, above or before) and on the other (`b`), the
coordinate of an anchor along the line (`anchorIdx.x` or `.y`), the span along it (`colSpanAt`, `rowSpanAt`, 496–504). -/
structure Line where
  len : Nat
  a : Nat → Slot
  b : Nat → Slot
  lead : Slot → Nat
  span : Slot → Nat
  force : Bool

/-- `colSpanAt`, 496–499. -/
def colSpan (s : Slot) : Nat := match s.box with | some c => c.colSpan | none => 1

/-- `rowSpanAt`, 501–504. -/
def rowSpan (s : Slot) : Nat := match s.box with | some c => c.rowSpan | none => 1

/-- The line below row `i`, 507–555. -/
def rowLine (g : Grid) (i : Nat) : Line :=
  ⟨g.w, fun x => g.slot x i, fun x => g.slot x (i + 1), Slot.ax, colSpan, false⟩

/-- The line behind column `j`, 558–607. -/
def colLine (g : Grid) (j : Nat) : Line :=
  ⟨g.h, fun y => g.slot j y, fun y => g.slot (j + 1) y, Slot.ay, rowSpan, true⟩

/-- Equality of `anchorIdx`. -/
def sameAnchor (s t : Slot) : Bool := s.ax == t.ax && s.ay == t.ay

/-- The condition of 512–513 and 563–564: there is no border between the slots. -/
def through (L : Line) (x : Nat) : Bool :=
  sameAnchor (L.a x) (L.b x) || ((L.a x).box.isNone && (L.b x).box.isNone)

/-- The loop 510–514, 561–565; `n` bounds the turns, the code stops at the end of the line. -/
def skip (L : Line) : Nat → Nat → Nat
  | 0, s => s
  | n + 1, s => if s < L.len ∧ through L s = true then skip L n (s + 1) else s

/-- The last slot of a cell along the line: `anchorIdx.x + colSpanAt(…) - 1`, 521–522, 572–573. -/
def tail (L : Line) (s : Slot) : Nat := pred64 (L.lead s + L.span s)

/-- The loop 519–528, 570–580, that looks for the end of the stretch; `none` turns left is no end. -/
def extend (L : Line) : Nat → Nat → Res Nat
  | 0, _ => .hang
  | n + 1, e =>
    if e ≥ L.len then .panic
    else if sameAnchor (L.a e) (L.b e) then .ok e
    else if tail L (L.a e) = tail L (L.b e) then .ok e
    else
      let next := max (tail L (L.a e)) (tail L (L.b e))
      extend L n (if L.force then (if next > e then next else e + 1) else next)

/-- The loops `for (usize j = start; j <= end; j += colSpanAt(j, i)) if (grid.at(j, i).box)`, 531–538, 545–551 and
584–590, 597–603: where they find cells. -/
def visit (L : Line) (row : Nat → Slot) (e : Nat) : Nat → Nat → Res (List Nat)
  | 0, _ => .hang
  | n + 1, j =>
    if j ≤ e then
      if j ≥ L.len then .panic
      else (visit L row e n (j + L.span (row j))).bind fun l => .ok (if (row j).box.isSome then j :: l else l)
    else .ok []

/-- A stretch of the line that gets one border: where it ends, and the places of its cells on both sides. -/
structure Stretch where
  start : Nat
  stop : Nat
  as : List Nat
  bs : List Nat
deriving DecidableEq

/-- One turn of the loop 509–554, 560–606, without the borders; the limit on the turns of the inner loops is generous. -/
def stretch (L : Line) (s : Nat) : Res Stretch :=
  (extend L (L.len + 2) s).bind fun e =>
  (visit L L.a e (L.len + 2) s).bind fun as =>
  (visit L L.b e (L.len + 2) s).bind fun bs =>
  .ok ⟨s, e, as, bs⟩

/-- The loop 509–554, 560–606. -/
def stretches (L : Line) : Nat → Nat → Res (List Stretch)
  | 0, _ => .hang
  | n + 1, start =>
    let s := skip L L.len start
    if s < L.len then
      (stretch L s).bind fun t => (stretches L n (t.stop + 1)).bind fun l => .ok (t :: l)
    else .ok []

def run (L : Line) : Res (List Stretch) := stretches L (L.len + 1) 0

/-- The borders along the line: those of the cells (their `BOTTOM` and `TOP`, or `END` and `START`), by the number of the
cell, and those of the rows or columns on both sides and of their groups (`addAxisAndGroupBorder`, 459–470), in that
order. -/
structure Borders where
  after : Nat → Border
  before : Nat → Border
  lines : List Border

def cellBorder (f : Nat → Border) (s : Slot) : List Border :=
  match s.box with
  | some c => [f c.id]
  | none => []

/-- `finalBorder`, 530–543, 582–595. -/
def finalBorder (L : Line) (B : Borders) (t : Stretch) : Border :=
  harmonize (t.as.flatMap (fun j => cellBorder B.after (L.a j)) ++ t.bs.flatMap (fun j => cellBorder B.before (L.b j)) ++
    B.lines)

/-- The writes `paintCellBottom(i, j + colSpanAt(j, i) - 1, …)`, `paintCellEnd(…)`, 545–547, 597–599. -/
def writesA (L : Line) (B : Borders) (t : Stretch) : List (Nat × Border) :=
  t.as.map fun j => (pred64 (j + L.span (L.a j)), finalBorder L B t)

/-- The writes `paintCellTop(i + 1, j, …)`, `paintCellStart(…)`, 549–551, 601–603. -/
def writesB (L : Line) (B : Borders) (t : Stretch) : List (Nat × Border) :=
  t.bs.map fun j => (j, finalBorder L B t)

/-- What a place holds after writes; the grids begin with no border (`init`, 682–686, 702–705). -/
def written (ws : List (Nat × Border)) (k : Nat) : Border :=
  ws.foldl (fun acc w => if w.1 = k then w.2 else acc) ⟨0, .none, 0⟩

/-- A line, its borders, and where in the grids of borders the places along it are (`i * gridWidth + j`, 688–694, 707–709). -/
structure Entry where
  line : Line
  borders : Borders
  place : Nat → Nat

/-- All lines one after the other, 725–728; `w` are the writes on one side.  Places are not checked against the size of the
table but by the vector, which panics. -/
def flat (size : Nat) (w : Line → Borders → Stretch → List (Nat × Border)) : List Entry → Res (List (Nat × Border))
  | [] => .ok []
  | E :: rest => (run E.line).bind fun ts =>
    let ws := (ts.flatMap (w E.line E.borders)).map fun p => (E.place p.1, p.2)
    if ws.all (fun p => p.1 < size) then (flat size w rest).bind fun l => .ok (ws ++ l) else .panic

/-- The bottoms of all cells but those in the last row, 545–547 with 725–726 and 490–494. -/
def bottoms (g : Grid) (B : Nat → Borders) : Res (List (Nat × Border)) :=
  flat (g.w * g.h) writesA ((List.range (g.h - 1)).map fun i => ⟨rowLine g i, B i, fun k => i * g.w + k⟩)

/-- The tops of all cells but those in the first row, 549–551 with 725–726 and 484–488. -/
def tops (g : Grid) (B : Nat → Borders) : Res (List (Nat × Border)) :=
  flat (g.w * g.h) writesB ((List.range (g.h - 1)).map fun i => ⟨rowLine g i, B i, fun k => (i + 1) * g.w + k⟩)

/-- The ends of all cells but those in the last column, 597–599 with 727–728 and 472–476. -/
def ends (g : Grid) (B : Nat → Borders) : Res (List (Nat × Border)) :=
  flat (g.w * g.h) writesA ((List.range (g.w - 1)).map fun j => ⟨colLine g j, B j, fun k => k * g.w + j⟩)

/-- The starts of all cells but those in the first column, 601–603 with 727–728 and 478–482. -/
def starts (g : Grid) (B : Nat → Borders) : Res (List (Nat × Border)) :=
  flat (g.w * g.h) writesB ((List.range (g.w - 1)).map fun j => ⟨colLine g j, B j, fun k => k * g.w + (j + 1)⟩)

/-! The border a cell takes: `buildUsedCollapsedBordersForCell` (1410–1423, with 713–720) reads the bottom and the end at the last slot of the
cell, the top and the start at its first. -/

def bottomAt (g : Grid) (ws : List (Nat × Border)) (x y colSpan rowSpan : Nat) : Border :=
  written ws ((y + rowSpan - 1) * g.w + (x + colSpan - 1))

def endAt (g : Grid) (ws : List (Nat × Border)) (x y colSpan rowSpan : Nat) : Border :=
  written ws ((y + rowSpan - 1) * g.w + (x + colSpan - 1))

def topAt (g : Grid) (ws : List (Nat × Border)) (x y : Nat) : Border := written ws (y * g.w + x)

def startAt (g : Grid) (ws : List (Nat × Border)) (x y : Nat) : Border := written ws (y * g.w + x)

/-- The width a cell takes for it: half, 730–737 (`Au / 2`; the model divides exactly where it can). -/
def half (b : Border) : Int := b.width / 2

/-- `addAxisAndGroupBorder`, 459–470, for both sides of a line: row and group on either side, if there are. -/
def axisBorders (axisA groupA axisB groupB : Option Border) : List Border :=
  axisA.toList ++ groupA.toList ++ axisB.toList ++ groupB.toList

/-- The entry of `AxisAndGroupsIdxs::build`, 385–396, for one row or column: the last range that contains it. -/
def lastCovering (axes : List Table.Axis) (i : Nat) : Option Nat :=
  axes.zipIdx.foldl (fun acc p => if p.1.start ≤ i ∧ i ≤ p.1.last then some p.2 else acc) none

/-- The borders of rows and groups for the line below row `i`, 540–541; rows and groups by their number. -/
def rowBorders (st : Table.St) (rowBottom rowTop groupBottom groupTop : Nat → Border) (i : Nat) : List Border :=
  axisBorders ((lastCovering st.rows i).map rowBottom) ((lastCovering st.rowGroups i).map groupBottom)
    ((lastCovering st.rows (i + 1)).map rowTop) ((lastCovering st.rowGroups (i + 1)).map groupTop)

end Verif.Seams
