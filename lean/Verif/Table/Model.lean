/-!
# Forming the grid of a table: model

`/repo/src/vaev-engine/layout/table.cpp` lines 44–379 and 401–457, 642–673, and the reading of the
spans, `/repo/src/vaev-engine/style/computer.cpp` lines 263–293.

* A box is known by a number and its spans; the boxes of a row that are not cells, of a group that
  are not rows and of a table that are none of its parts are left out: `advanceUntil` skips them.
* `TableGrid::rows` is a vector of vectors that all have the length `size.x` (each of the two
  functions that change the size keeps it so): here a function of the position. Positions outside
  of the size mean nothing.
* `TableGrid::at` panics outside of the size: `none` here.
-/
namespace Verif.Table

/-- A cell of a row: the box and its `rowSpan` and `colSpan`. -/
structure Cell where
  id : Nat
  rowSpan : Nat
  colSpan : Nat
deriving DecidableEq, Repr

/-- `TableCell`, table.cpp lines 29–42. -/
structure Slot where
  ax : Nat
  ay : Nat
  box : Option Cell
deriving DecidableEq, Repr

/-- `TableGrid`, table.cpp lines 54–56. -/
structure Grid where
  w : Nat
  h : Nat
  slot : Nat → Nat → Slot

/-- `TableGrid::increaseWidth`, table.cpp lines 58–65. -/
def Grid.increaseWidth (g : Grid) (span : Nat) : Grid :=
  { g with
    w := g.w + span
    slot := fun x y => if g.w ≤ x ∧ x < g.w + span then ⟨x, y, none⟩ else g.slot x y }

/-- `TableGrid::increaseHeight`, table.cpp lines 67–77. -/
def Grid.increaseHeight (g : Grid) (span : Nat) : Grid :=
  { g with
    h := g.h + span
    slot := fun x y => if g.h ≤ y ∧ y < g.h + span then ⟨x, y, none⟩ else g.slot x y }

/-- `TableGrid::at`, table.cpp lines 79–91, to read. -/
def Grid.get (g : Grid) (x y : Nat) : Option Slot :=
  if x ≥ g.w ∨ y ≥ g.h then none else some (g.slot x y)

/-- `TableGrid::at`, table.cpp lines 79–84, to write. -/
def Grid.set (g : Grid) (x y : Nat) (s : Slot) : Option Grid :=
  if x ≥ g.w ∨ y ≥ g.h then none
  else some { g with slot := fun x' y' => if x' = x ∧ y' = y then s else g.slot x' y' }

/-- `TableAxis`, `TableGroup`, table.cpp lines 44–52, without the box. -/
structure Axis where
  start : Nat
  last : Nat
deriving DecidableEq, Repr

/-- `DownwardsGrowingCell`, table.cpp lines 124–127. -/
structure Grow where
  ax : Nat
  ay : Nat
  x : Nat
  width : Nat
deriving DecidableEq, Repr

/-- The fields of `TableFormatingContext` the rows work on, table.cpp lines 113, 122 and 129; `cy` is
`current.y` (`current.x` is local to a row). -/
structure Core where
  grid : Grid := ⟨0, 0, fun x y => ⟨x, y, none⟩⟩
  cy : Nat := 0
  growing : List Grow := []

/-- The same with the ranges of rows and columns, table.cpp lines 115–118. -/
structure St where
  core : Core := {}
  cols : List Axis := []
  rows : List Axis := []
  rowGroups : List Axis := []
  colGroups : List Axis := []

/-- The positions `[a, a + n)`. -/
def range (a n : Nat) : List Nat := List.range' a n

/-- A loop writing the same slot at several positions. -/
def Grid.fill (g : Grid) (s : Slot) : List (Nat × Nat) → Option Grid
  | [] => some g
  | (x, y) :: rest => (g.set x y s).bind fun g => g.fill s rest

/-- One turn of `growDownwardGrowingCells`, table.cpp lines 140–141. -/
def growOne (g : Grid) (y : Nat) (k : Grow) : List Nat → Option Grid
  | [] => some g
  | x :: rest => (g.get k.ax k.ay).bind fun s => (g.set x y s).bind fun g => growOne g y k rest

/-- `growDownwardGrowingCells`, table.cpp lines 138–143. -/
def growAll (y : Nat) : List Grow → Grid → Option Grid
  | [], g => some g
  | k :: rest, g => (growOne g y k (range k.x k.width)).bind fun g => growAll y rest g

/-- The search of a free slot, table.cpp lines 162–163; `n` bounds the turns (the code stops at
`size.x`). -/
def skipOccupied (g : Grid) (y : Nat) : Nat → Nat → Option Nat
  | 0, x => some x
  | n + 1, x => if x < g.w then
      (g.get x y).bind fun s => if s.box.isSome then skipOccupied g y n (x + 1) else some x
    else some x

/-- One cell, table.cpp lines 162–207. Gives the state and the next `current.x`. -/
def placeCell (st : Core) (x : Nat) (c : Cell) : Option (Core × Nat) :=
  (skipOccupied st.grid st.cy (st.grid.w - x) x).bind fun x =>
  let g := if x = st.grid.w then st.grid.increaseWidth 1 else st.grid
  let grows := c.rowSpan = 0
  let rowSpan := if grows then 1 else c.rowSpan
  let g := if g.w < x + c.colSpan then g.increaseWidth (x + c.colSpan - g.w) else g
  let g := if g.h < st.cy + rowSpan then g.increaseHeight (st.cy + rowSpan - g.h) else g
  (g.fill ⟨x, st.cy, some c⟩ ((range x c.colSpan).flatMap fun x => (range st.cy rowSpan).map fun y => (x, y))).bind fun g =>
  let growing := if grows then st.growing ++ [⟨x, st.cy, x, c.colSpan⟩] else st.growing
  some ({ st with grid := g, growing := growing }, x + c.colSpan)

/-- The cells of a row, table.cpp lines 161–213. -/
def placeCells (st : Core) (x : Nat) : List Cell → Option Core
  | [] => some st
  | c :: cs => (placeCell st x c).bind fun (st, x) => placeCells st x cs

/-- `processRows`, table.cpp lines 146–215. -/
def processRow (st : Core) (cells : List Cell) : Option Core :=
  let g := if st.grid.h = st.cy then st.grid.increaseHeight 1 else st.grid
  (growAll st.cy st.growing g).bind fun g =>
  (placeCells { st with grid := g } 0 cells).bind fun st =>
  some { st with cy := st.cy + 1 }

/-- `endRowGroup`, table.cpp lines 218–224; `n` bounds the turns. -/
def endLoop : Nat → Core → Option Core
  | 0, st => some st
  | n + 1, st =>
    if st.cy < st.grid.h then
      (growAll st.cy st.growing st.grid).bind fun g =>
        endLoop n { st with grid := g, cy := st.cy + 1, growing := [] }
    else some st

def endRowGroup (st : Core) : Option Core := endLoop (st.grid.h - st.cy) st

/-- The rows of a group, table.cpp lines 237–246. -/
def groupRows (st : St) : List (List Cell) → Option St
  | [] => some st
  | r :: rs => (processRow st.core r).bind fun k =>
    groupRows { st with core := k, rows := st.rows ++ [⟨st.core.grid.h, k.grid.h - 1⟩] } rs

/-- `processRowGroup`, table.cpp lines 227–253. -/
def processRowGroup (st : St) (rows : List (List Cell)) : Option St :=
  (groupRows st rows).bind fun st' =>
  (endRowGroup st'.core).bind fun k =>
  some { st' with
    core := k
    rowGroups := if st'.core.grid.h > st.core.grid.h then
        st'.rowGroups ++ [⟨st.core.grid.h, st'.core.grid.h - 1⟩]
      else st'.rowGroups }

/-- A child of the table box that matters, by its `display`. A column group has the spans of its
columns and its own. -/
inductive Item where
  | colGroup (columns : List Nat) (span : Nat)
  | row (cells : List Cell)
  | head (rows : List (List Cell))
  | body (rows : List (List Cell))
  | foot (rows : List (List Cell))
deriving Repr

/-- The columns of a group, table.cpp lines 299–309. -/
def groupCols (st : St) : List Nat → St
  | [] => st
  | span :: rest =>
    let g := st.core.grid.increaseWidth span
    groupCols { st with core := { st.core with grid := g }, cols := st.cols ++ [⟨g.w - span, g.w - 1⟩] } rest

/-- One column group, table.cpp lines 288–317. -/
def colGroup (st : St) (columns : List Nat) (span : Nat) : St :=
  match columns with
  | _ :: _ =>
    let st' := groupCols st columns
    { st' with colGroups := st'.colGroups ++ [⟨st.core.grid.w, st'.core.grid.w - 1⟩] }
  | [] =>
    let g := st.core.grid.increaseWidth span
    { st with core := { st.core with grid := g }, colGroups := st.colGroups ++ [⟨g.w - span + 1, g.w - 1⟩] }

/-- The loop over the column groups at the beginning, table.cpp lines 287–323. -/
def colGroups (st : St) : List Item → St × List Item
  | .colGroup columns span :: rest => colGroups (colGroup st columns span) rest
  | items => (st, items)

/-- The rows of the first header group (`findFirstHeader`, table.cpp lines 255–267). -/
def firstHead : List Item → Option (List (List Cell))
  | [] => none
  | .head rows :: _ => some rows
  | _ :: rest => firstHead rest

/-- The loop over rows and groups, table.cpp lines 334–372; `headDone` tells whether the first
header group has been passed. Gives the footers kept for the end. -/
def rowsLoop (st : St) (headDone : Bool) (foots : List (List (List Cell))) : List Item → Option (St × List (List (List Cell)))
  | [] => some (st, foots)
  | .colGroup _ _ :: rest => rowsLoop st headDone foots rest
  | .row cells :: rest => (processRow st.core cells).bind fun k => rowsLoop { st with core := k } headDone foots rest
  | .foot rows :: rest => (endRowGroup st.core).bind fun k => rowsLoop { st with core := k } headDone (foots ++ [rows]) rest
  | .head rows :: rest => (endRowGroup st.core).bind fun k =>
    if headDone then (processRowGroup { st with core := k } rows).bind fun st => rowsLoop st true foots rest
    else rowsLoop { st with core := k } true foots rest
  | .body rows :: rest => (endRowGroup st.core).bind fun k =>
    (processRowGroup { st with core := k } rows).bind fun st => rowsLoop st headDone foots rest

/-- The footers, table.cpp lines 375–377. -/
def footLoop (st : St) : List (List (List Cell)) → Option St
  | [] => some st
  | rows :: rest => (processRowGroup st rows).bind fun st => footLoop st rest

/-- `buildHTMLTable`, table.cpp lines 270–379. (A first header group cannot stand among the column
groups of lines 287–323.) -/
def build (items : List Item) : Option St :=
  let (st, rest) := colGroups {} items
  let st := { st with core := { st.core with cy := 0 } }
  (match firstHead items with
    | some rows => processRowGroup st rows
    | none => some st).bind fun st =>
  (rowsLoop st false [] rest).bind fun (st, foots) =>
  footLoop st foots

/-! ## Spans -/

/-- `_considerElementAttributes`, computer.cpp lines 267–272 and 277–282: `v` is what the attribute
was read as, `none` when it is not a number. -/
def colSpanOf (v : Option Int) : Nat :=
  let value := v.getD 0
  (if value ≤ 0 ∨ value > 1000 then 1 else value).toNat

/-- `_considerElementAttributes`, computer.cpp lines 286–293. -/
def rowSpanOf (v : Option Int) : Nat :=
  let value := v.getD 0
  let value := if value < 0 then 0 else value
  (if value > 65534 then 65534 else value).toNat

/-! ## Borders -/

/-- `Gfx::BorderStyle` (Karm), as far as the code names them. -/
inductive Style where
  | double | solid | dashed | dotted | ridge | outset | groove | inset | none | hidden
deriving DecidableEq, Repr

/-- `ORDERED_STYLES`, table.cpp lines 401–411. -/
def orderedStyles : List Style := [.double, .solid, .dashed, .dotted, .ridge, .outset, .groove, .inset, .none]

/-- `UsedBorder`; the colour is a number, the width is in units of layout. -/
structure Border where
  width : Int
  style : Style
  color : Nat
deriving DecidableEq, Repr

/-- One turn of `harmonizeConflictingBorders`, table.cpp lines 422–454. The comparison of styles of
lines 444–449 only skips the rest of the turn, which is empty. -/
def harmonizeStep (best cand : Border) : Border :=
  let bestHidden := best.style = .hidden
  let candHidden := cand.style = .hidden
  if (bestHidden ∧ ¬candHidden) ∨ (¬bestHidden ∧ candHidden) then
    if candHidden then cand else best
  else if best.width > cand.width then best
  else if cand.width > best.width then cand
  else if orderedStyles.idxOf cand.style < orderedStyles.idxOf best.style then best
  else best

/-- `harmonizeConflictingBorders`, table.cpp lines 414–457. -/
def harmonize (borders : List Border) : Border := borders.foldl harmonizeStep ⟨0, .none, 0⟩

/-- The loop of `resolveConflictForTableBordersAtVerticalAxis`, table.cpp lines 646–672, on the
column `j`: the rows whose cells get their border, in order; `n` bounds the turns. `rowSpanAt` is
table.cpp lines 501–504. -/
def verticalEdge (g : Grid) (j : Nat) : Nat → Nat → Option (List Nat)
  | 0, _ => none
  | n + 1, i =>
    if i < g.h then
      (g.get j i).bind fun s =>
        match s.box with
        | some c => (verticalEdge g j n (i + c.rowSpan)).map (i :: ·)
        | none => verticalEdge g j n (i + 1)
    else some []

end Verif.Table
