import Mathlib.Algebra.Order.Field.Rat
import Mathlib.Algebra.BigOperators.Group.List.Basic
import Verif.Table.Model
/-!
# Laying out a table: model

`/repo/src/vaev-engine/layout/table.cpp` lines 713–720, 786–1408, 1427–1572 and 1682–1816.

* Lengths are rational numbers; the rounding of `Au` is left out.
* The grid is the one of `Verif.Table.Model`. What the layout asks of the box of a cell is a
  parameter (`CellBox`), and so are the widths of the borders (`edges`, the horizontal part of
  `bordersGrid`).
* `width` and `height` are `auto` (`none`) or lengths and percentages; the other keywords, which the
  code warns of and takes as `auto`, are left out.
* The fields of the formatting context that live from one layout of the table to the next are in
  `Keep`.
* A layout that panics, divides by zero or computes a length from a wrapped-around number has no
  result (`none`).
* Not modelled: pages that begin in the middle of a cell (a cell is always laid out in one piece),
  the choice of the breakpoints, relative positions, the fragments.
-/
namespace Verif.Cells
open Verif.Table (Cell Grid Axis)

/-- What the layout of a table asks of a cell. -/
structure CellBox where
  /-- The intrinsic widths of its content, table.cpp lines 923–933. -/
  minContent : Rat
  maxContent : Rat
  /-- Its padding on both sides, given the width of the table. -/
  padding : Rat → Rat
  /-- Its `width`, given what percentages refer to. -/
  width : Option (Rat → Rat)
  /-- Its `height`, with percentages taken of zero (table.cpp lines 1237–1243). -/
  height : Option Rat
  /-- The height of its border box when it is laid out at a width in a table of a width, table.cpp
  lines 1250–1263. -/
  tall : Rat → Rat → Rat

/-- A table as it is after `build`. -/
structure Table where
  grid : Grid
  cols : List (Axis × Option (Rat → Rat))
  colGroups : List (Axis × Option (Rat → Rat))
  rows : List (Axis × Option Rat)
  heads : Nat
  feet : Nat
  /-- The borders at the start and at the end of a slot, by row and column. -/
  edges : Nat → Nat → Rat × Rat
  box : Nat → CellBox
  /-- `spacing`, table.cpp lines 1272 and 1298–1302. -/
  sx : Rat
  sy : Rat
  fixed : Bool

/-- `IntrinsicSize`. -/
inductive Mode where
  | auto | min | max
deriving DecidableEq, Repr

/-- The part of `Input` a table uses; `page` is the height of the page when the table may be broken,
and `start` and `stop` are the rows the breakpoints ask for. -/
structure Input where
  mode : Mode := .auto
  knownX : Option Rat := none
  knownY : Option Rat := none
  capmin : Option Rat := some 0
  cbX : Rat := 0
  x : Rat := 0
  y : Rat := 0
  page : Option Rat := none
  start : Nat := 0
  stop : Option Nat := none

/-- The fields that outlive a layout: `colWidth` and `tableUsedWidth` (table.cpp lines 812–813),
`intrinsicSizes` (1102), `autoHeightRows` (1185), `lastInput` (1317), `startPositionOfRow` (1277,
1311–1312). -/
structure Keep where
  colWidth : List Rat := []
  used : Rat := 0
  intrinsic : Option (List Rat × List Rat) := none
  autoRows : Nat := 0
  last : Option (Rat × Rat × Option Rat) := none
  starts : List Rat := []
deriving DecidableEq, Repr

/-! ## Vectors -/

/-- The entry of a vector. -/
def at' (v : List Rat) (j : Nat) : Rat := v.getD j 0

/-- The loops that add up `n` entries from `a` on. -/
def spanSum (v : List Rat) (a n : Nat) : Rat := ((List.range n).map fun k => at' v (a + k)).sum

/-- The loops that change the entries from `a` on, `n` of them. -/
def change (f : Rat → Rat) (v : List Rat) (a n : Nat) : List Rat :=
  v.mapIdx fun x w => if a ≤ x ∧ x < a + n then f w else w

/-- How many entries a range has, in the loops `for (x = start; x <= end; x++)`. -/
def Axis.count (a : Axis) : Nat := a.last + 1 - a.start

/-- The slots that are the first of their cell, in the order of the loops (table.cpp lines 964–972,
992–1000, 1220–1228): row, column, cell. -/
def anchors (g : Grid) : List (Nat × Nat × Cell) :=
  (List.range g.h).flatMap fun i => (List.range g.w).filterMap fun j =>
    match (g.slot j i).box with
    | some c => if (g.slot j i).ax = j ∧ (g.slot j i).ay = i then some (i, j, c) else none
    | none => none

/-! ## The widths of the columns -/

/-- `buildBordersWidthsForCell`, table.cpp lines 713–720, its horizontal part. -/
def cellEdges (t : Table) (i j : Nat) (c : Cell) : Rat :=
  (t.edges i j).1 + (t.edges (i + c.rowSpan - 1) (j + c.colSpan - 1)).2

/-- `getCellMinMaxAutoWidth`, table.cpp lines 922–961, for one of the two intrinsic widths; a cell has
no margins (lines 978–981). `used` is `tableUsedWidth` at that time, `tw` is `tableWidth`. -/
def cellWidth (t : Table) (content : CellBox → Rat) (used tw : Rat) (a : Nat × Nat × Cell) : Rat :=
  let b := t.box a.2.2.id
  let w := content b + b.padding used + cellEdges t a.1 a.2.1 a.2.2
  match b.width with
  | some f => max w (f tw)
  | none => w

/-- `computeAutoWidthOfCellsSpan1`, table.cpp lines 963–989, for one of the two vectors, which do not
meet. -/
def span1 (need : Nat × Nat × Cell → Rat) (as : List (Nat × Nat × Cell)) (v : List Rat) : List Rat :=
  as.foldl (fun v a => if a.2.2.colSpan > 1 then v else change (max · (need a)) v a.2.1 1) v

/-- `computeAutoWidthOfCellsSpanN`, table.cpp lines 991–1036, for one of the two vectors. -/
def spanN (need : Nat × Nat × Cell → Rat) (as : List (Nat × Nat × Cell)) (v : List Rat) : List Rat :=
  as.foldl (fun v a =>
    if a.2.2.colSpan ≤ 1 then v
    else
      let sum := spanSum v a.2.1 a.2.2.colSpan
      if need a > sum then change (· + (need a - sum) / a.2.2.colSpan) v a.2.1 a.2.2.colSpan else v) v

/-- `computeAutoWidthOfCols`, table.cpp lines 1066–1085, for one of the two vectors. -/
def ofCols (cols : List (Axis × Option (Rat → Rat))) (tw : Rat) (v : List Rat) : List Rat :=
  cols.foldl (fun v c =>
    match c.2 with
    | some f => change (max · (f tw)) v c.1.start (Axis.count c.1)
    | none => v) v

/-- `computeAutoWidthOfColGroups`, table.cpp lines 1038–1064. It divides by the number of columns of
the group, which may be zero. -/
def ofGroups (tw : Rat) : List (Axis × Option (Rat → Rat)) → List Rat → Option (List Rat)
  | [], v => some v
  | (a, none) :: rest, v => ofGroups tw rest v
  | (a, some f) :: rest, v =>
    let sum := spanSum v a.start (Axis.count a)
    if sum ≥ f tw then ofGroups tw rest v
    else if a.last + 1 - a.start = 0 then none
    else ofGroups tw rest (change (· + (f tw - sum) / (Axis.count a)) v a.start (Axis.count a))

/-- `computeMinMaxAutoWidths`, table.cpp lines 1087–1100. -/
def minMax (t : Table) (used tw : Rat) : Option (List Rat × List Rat) :=
  let as := anchors t.grid
  let zero := List.replicate t.grid.w 0
  let needMin := cellWidth t CellBox.minContent used tw
  let needMax := cellWidth t CellBox.maxContent used tw
  let maxs := spanN needMax as (ofCols t.cols tw (span1 needMax as zero))
  (ofGroups tw t.colGroups (spanN needMin as (ofCols t.cols tw (span1 needMin as zero)))).map fun mins => (mins, maxs)

/-- `computeIntrinsicMinMaxAutoWidths`, table.cpp lines 1104–1108. -/
def intrinsic (t : Table) (st : Keep) : Option (List Rat × List Rat) :=
  match st.intrinsic with
  | some p => some p
  | none => minMax t st.used 0

/-- `computeAutoColWidths`, table.cpp lines 1111–1181. -/
def autoWidths (t : Table) (st : Keep) (known : Option Rat) (capmin cbX : Rat) : Option Keep :=
  (intrinsic t st).bind fun (mins, maxs) =>
  let st := { st with intrinsic := some (mins, maxs) }
  match known with
  | some k =>
    let used := max capmin k
    if mins.sum > used then some { st with used := mins.sum, colWidth := mins }
    else
      (minMax t used k).bind fun (minsP, maxsP) =>
      let useMax := decide (maxs.sum < used)
      let wop := if useMax then maxs else mins
      let wp := if useMax then maxsP else minsP
      if wp.sum > used then
        let totalDiff := wp.sum - wop.sum
        let allowed := used - wop.sum
        some { st with used := used, colWidth := List.zipWith (fun o p => if p ≠ o then o + (p - o) * (allowed / totalDiff) else o) wop wp }
      else if wp.sum = 0 then
        some { st with used := used, colWidth := wp.map fun _ => used / t.grid.w }
      else
        some { st with used := used, colWidth := wp.map fun w => w + (used - wp.sum) * (w / wp.sum) }
  | none =>
    if min maxs.sum capmin < cbX then some { st with colWidth := maxs, used := max maxs.sum capmin }
    else some { st with colWidth := mins, used := max mins.sum capmin }

/-- `getColumnBorders`, table.cpp lines 786–810. -/
def columnBorder (t : Table) (j : Nat) : Rat :=
  (List.range t.grid.h).foldl (fun m i => max m ((t.edges i j).1 + (t.edges i j).2)) 0

/-- The widths the columns say, table.cpp lines 836–850. -/
def fixedCols (t : Table) (used : Rat) : List (Option Rat) :=
  t.cols.foldl (fun v c =>
    match c.2 with
    | some f => v.mapIdx fun x w => if c.1.start ≤ x ∧ x < c.1.start + Axis.count c.1 then some (f used) else w
    | none => v) (List.replicate t.grid.w none)

/-- The widths the cells of the first row say, table.cpp lines 854–889. A cell that is left moves on to
the next column; one that is taken moves on behind its last column, and no other cell begins below it. -/
def fixedCells (t : Table) (used : Rat) (v : List (Option Rat)) : List (Option Rat) :=
  (anchors t.grid).foldl (fun v a =>
    if a.1 ≠ 0 then v
    else
      match (t.box a.2.2.id).width with
      | some f => v.mapIdx fun x w => if a.2.1 ≤ x ∧ x < a.2.1 + a.2.2.colSpan then some (w.getD (f used / a.2.2.colSpan)) else w
      | none => v) v

/-- The sum of what is said, table.cpp lines 891–898, with the borders of these columns. -/
def fixedSum (t : Table) (v : List (Option Rat)) : Rat :=
  (v.mapIdx fun j w => match w with | some w => w + columnBorder t j | none => 0).sum

/-- `computeFixedColWidths`, table.cpp lines 818–919. Without rows it reads outside of the grid; it
divides by the sum of what is said, which may be zero. The widths are put behind the ones that are
there. -/
def fixedWidths (t : Table) (st : Keep) (known : Rat) : Option Keep :=
  if t.grid.h = 0 ∧ t.grid.w ≠ 0 then none
  else
    let v := fixedCells t known (fixedCols t known)
    let sum := fixedSum t v
    let room := known - t.sx * (t.grid.w + 1)
    let empty := v.countP (· = none)
    let put (v : List Rat) : Keep := { st with used := known, colWidth := st.colWidth ++ v }
    if empty > 0 then
      if sum < room then some (put (v.map fun w => w.getD ((room - sum) / empty)))
      else some (put (v.map fun w => w.getD 0))
    else if sum < room ∧ v ≠ [] then
      if sum = 0 then none
      else some (put (v.map fun w => w.getD 0 + (room - sum) * (w.getD 0 / sum)))
    else some (put (v.map fun w => w.getD 0))

/-- The widths, table.cpp lines 1279–1288 and 1325–1351. `capmin` is unwrapped for the key of the cache. -/
def widths (t : Table) (st : Keep) (inp : Input) : Option Keep :=
  match t.fixed, inp.knownX with
  | true, some k => fixedWidths t st k
  | _, _ =>
    match inp.mode with
    | .auto => inp.capmin.bind fun cap =>
      if st.last ≠ some (inp.cbX, cap, inp.knownX) then
        (autoWidths t { st with last := some (inp.cbX, cap, inp.knownX) } inp.knownX cap inp.cbX)
      else some st
    | .min => (intrinsic t st).map fun p =>
      { st with intrinsic := some p, colWidth := p.1, used := p.1.sum }
    | .max => (intrinsic t st).map fun p =>
      { st with intrinsic := some p, colWidth := p.2, used := p.2.sum }

/-! ## The heights of the rows -/

/-- What a cell makes of the heights of its rows, table.cpp lines 1236–1267; it is laid out at the
width of its first column. -/
def cellHeights (t : Table) (st : Keep) (v : List Rat) (a : Nat × Nat × Cell) : List Rat :=
  let b := t.box a.2.2.id
  let v := match b.height with
    | some h => change (max · (h / a.2.2.rowSpan)) v a.1 a.2.2.rowSpan
    | none => v
  change (max · (b.tall (at' st.colWidth a.2.1) st.used / a.2.2.rowSpan)) v a.1 a.2.2.rowSpan

/-- The heights the rows say, table.cpp lines 1203–1217. -/
def saidHeight (v : List Rat) (r : Axis × Option Rat) : List Rat :=
  match r.2 with
  | some h => change (fun _ => h) v r.1.start (Axis.count r.1)
  | none => v

/-- `computeRowHeights`, table.cpp lines 1187–1270, the heights. -/
def rowHeights (t : Table) (st : Keep) : List Rat :=
  (anchors t.grid).foldl (cellHeights t st) (t.rows.foldl saidHeight (List.replicate t.grid.h 0))

/-- The rows whose height is `auto`, table.cpp lines 1202–1213. -/
def autoCount (t : Table) : Nat := t.rows.countP fun r => r.2.isNone

/-- The rows whose height is `auto` are made higher, table.cpp lines 1369–1372: the rows of the grid are
taken in the order of `rows`. -/
def growAuto (rows : List (Axis × Option Rat)) (inc : Rat) (v : List Rat) : List Rat :=
  v.mapIdx fun i h => match rows[i]? with
    | some (_, none) => h + inc
    | _ => h

/-- The heights, table.cpp lines 1353–1384: what is missing to the height of the table is given to the
rows. `st.autoRows` counts on from one layout to the next. -/
def heights (t : Table) (st : Keep) (knownY : Option Rat) : Option (Keep × List Rat) :=
  let rh := rowHeights t st
  let st := { st with autoRows := st.autoRows + autoCount t }
  let usedY := rh.sum + t.sy * (t.grid.h + 1)
  match knownY with
  | some k =>
    if k > usedY then
      let surplus := k - usedY
      if st.autoRows > 0 then
        some (st, growAuto t.rows (surplus / st.autoRows) rh)
      else if t.rows.length = 0 then none
      else some (st, rh.map (· + surplus / t.rows.length))
    else some (st, rh)
  | none => some (st, rh)

/-! ## The places of the cells -/

/-- A cell that is laid out: its first slot and its border box. -/
structure Placed where
  cell : Cell
  ax : Nat
  ay : Nat
  x : Rat
  y : Rat
  w : Rat
  h : Rat
deriving DecidableEq, Repr

/-- `layoutCell`, table.cpp lines 1427–1516; the box of a cell with both sizes known has these sizes.
`PrefixSum::query` gives the sum of a range. -/
def layCell (t : Table) (cw rh starts : List Rat) (x : Rat) (j ay : Nat) (c : Cell) : Placed :=
  { cell := c, ax := j, ay := ay, x := x, y := at' starts ay
    w := spanSum cw j c.colSpan + t.sx * (c.colSpan - 1 : Nat)
    h := spanSum rh ay c.rowSpan + t.sy * (c.rowSpan - 1 : Nat) }

/-- The loop of `layoutRow`, table.cpp lines 1528–1572, when no breakpoints are looked for; `all` is
`isBreakpointedRow`. -/
def layRow (t : Table) (cw rh starts : List Rat) (x : Rat) (i : Nat) (all : Bool) : List Placed :=
  (List.range t.grid.w).filterMap fun j =>
    let s := t.grid.slot j i
    match s.box with
    | some c =>
      if s.ax ≠ j then none
      else if s.ay + c.rowSpan - 1 = i ∨ all then
        some (layCell t cw rh starts (x + t.sx + ((List.range j).map fun k => at' cw k + t.sx).sum) j s.ay c)
      else none
    | none => none

/-- `outputRow.sizeY`, table.cpp lines 1562–1564. -/
def sizeY (y : Rat) (cells : List Placed) : Rat := cells.foldl (fun m p => max m (p.y + p.h - y)) 0

/-- The loops over rows, table.cpp lines 1694–1717 and 1722–1731: `adv` is what is added to the
position behind a row, given the row and its size. -/
def rowsLoop (t : Table) (cw rh : List Rat) (x : Rat) (adv : Nat → Rat → Rat) (all : Nat → Bool) :
    List Nat → Rat → List Rat → List Placed × Rat × List Rat
  | [], y, starts => ([], y, starts)
  | i :: is, y, starts =>
    let starts := starts.set i y
    let cells := layRow t cw rh starts x i (all i)
    let r := rowsLoop t cw rh x adv all is (y + adv i (sizeY y cells)) starts
    (cells ++ r.1, r.2)

/-- `layoutRows`, table.cpp lines 1682–1719, when no breakpoints are looked for. -/
def layoutRows (t : Table) (cw rh : List Rat) (x : Rat) (start stop : Nat) (y : Rat) (starts : List Rat) :
    List Placed × Rat × List Rat :=
  rowsLoop t cw rh x (fun _ size => size + t.sy) (fun i => decide (i + 1 = stop)) (List.range' start (stop - start)) y starts

/-- `layoutHeaderFooterRows`, table.cpp lines 1721–1732: it moves on by the height of the row `i`, not
`start + i`. -/
def layoutHeaderFooterRows (t : Table) (cw rh : List Rat) (x : Rat) (start len : Nat) (y : Rat) (starts : List Rat) :
    List Placed × Rat × List Rat :=
  rowsLoop t cw rh x (fun i _ => at' rh (i - start) + t.sy) (fun _ => false) (List.range' start len) y starts

/-- What comes out: the cells, the size of the table, and the widths and heights of its columns and
rows. -/
structure Out where
  cells : List Placed
  width : Rat
  height : Rat
  cols : List Rat
  rows : List Rat
deriving DecidableEq, Repr

/-- `headerSize.y`, table.cpp lines 1394–1399. -/
def headY (t : Table) (rh : List Rat) : Rat :=
  if t.heads = 0 then 0 else spanSum rh 0 t.heads + t.sy * (t.heads + 1)

/-- `footerSize.y`, table.cpp lines 1401–1407. -/
def footY (t : Table) (rh : List Rat) : Rat :=
  if t.feet = 0 then 0 else spanSum rh (t.grid.h - t.feet) t.feet + t.sy * (t.heads + 1)

/-- Whether header and footer are repeated, table.cpp lines 1762–1765. -/
def repeats (t : Table) (rh : List Rat) (page : Option Rat) : Bool :=
  match page with
  | some p => decide (max (headY t rh) (footY t rh) * 4 ≤ p) && decide (headY t rh + footY t rh * 2 ≤ p)
  | none => false

/-- A cell that spans no rows: the code computes with `rowSpan - 1`. -/
def hasZero (t : Table) : Bool := (anchors t.grid).any fun a => decide (a.2.2.rowSpan = 0)

/-- `run` with `computeLayoutIntervals`, table.cpp lines 1734–1816, when no breakpoints are looked for. -/
def run (t : Table) (st : Keep) (inp : Input) : Option (Keep × Out) :=
  if hasZero t then none
  else
    (widths t st inp).bind fun st =>
    (heights t st inp.knownY).bind fun (st, rh) =>
    let starts := if st.starts = [] then List.replicate t.grid.h 0 else st.starts
    let y0 := inp.y + t.sy
    let cw := st.colWidth
    let (cells, y, starts) :=
      if repeats t rh inp.page then
        let start := inp.start + t.heads
        let stop := t.heads + inp.stop.getD (t.grid.h - t.feet - t.heads)
        let (a, y, starts) := layoutHeaderFooterRows t cw rh inp.x 0 t.heads y0 starts
        let (b, y, starts) := layoutRows t cw rh inp.x start stop y starts
        let (c, y, starts) := layoutHeaderFooterRows t cw rh inp.x (t.grid.h - t.feet) t.feet y starts
        (a ++ b ++ c, y, starts)
      else
        layoutRows t cw rh inp.x inp.start (inp.stop.getD t.grid.h) y0 starts
    some ({ st with starts := starts },
      { cells := cells, width := st.used, height := y - inp.y, cols := cw.take t.grid.w, rows := rh })

end Verif.Cells
