import Verif.Paginate.Model
/-!
# Where tables are broken: model

`layout/table.cpp` 1518–1526, 1573–1680, 1682–1719 (when breaks are looked for), 1734–1748, 1762–1794, with
`layout/base/breaks.cpp` 121–143 and 235–245 and the loop over pages of `driver/print.cpp` 150–211.  Paths are relative to
`src/vaev-engine`.  How rows and cells are placed is the area `Cells`; breaks between blocks are the area `Paginate`.

Simplified: the breaks of cells are known by their appeal only, and laying out a row is given (`RowOut`), as it depends on
the row where the page begins, on the row and on its place.  The table is all there is in the document: the blocks around
it hand its breaks on (`block.cpp` 17–50).  All pages are of one size.  Heights are integers.  Numbers of rows are `usize`
and wrap around.
-/
namespace Verif.Rows
open Verif.Paginate (Appeal Adv Between)

/-- A result or `panic`, or no end of pages. -/
inductive Res (α : Type) where
  | ok (a : α)
  | panic
  | hang
deriving DecidableEq

def Res.bind {α β : Type} : Res α → (α → Res β) → Res β
  | .ok a, f => f a
  | .panic, _ => .panic
  | .hang, _ => .hang

/-- Arithmetic on `usize`. -/
def add64 (a b : Nat) : Nat := (a + b) % 2 ^ 64
def sub64 (a b : Nat) : Nat := if b ≤ a then a - b else 2 ^ 64 - (b - a)

/-- `Breakpoint`, breaks.cpp 67–87; of the breaks inside of it the appeals. -/
structure Bp where
  endIdx : Nat
  appeal : Appeal
  adv : Adv
  kids : List (Option Appeal) := []
deriving DecidableEq

/-- The default values of the members, breaks.cpp 83–86. -/
def Bp.initial : Bp := ⟨0, .empty, .withoutChildren, []⟩

/-- `forced`, breaks.cpp 98–105. -/
def Bp.forced (e : Nat) : Bp := ⟨e, .forced, .withoutChildren, []⟩

/-- `classB`, breaks.cpp 145–153. -/
def Bp.classB (e : Nat) (isAvoid : Bool) : Bp := ⟨e, if isAvoid then .avoid else .classB, .withoutChildren, []⟩

/-- The smallest appeal, breaks.cpp 122–127; `none` is `Appeal::MAX`. -/
def least : List (Option Appeal) → Option Appeal
  | [] => none
  | none :: l => least l
  | some a :: l => match least l with
    | none => some a
    | some b => some (if a.rank ≤ b.rank then a else b)

/-- `fromChildren`, breaks.cpp 121–143. -/
def Bp.fromChildren (kids : List (Option Appeal)) (e : Nat) (isAvoid advance : Bool) : Res Bp :=
  match least kids with
  | none => .panic
  | some a => .ok ⟨e, if isAvoid then .avoid else a, if advance then .withChildren else .dont, kids⟩

/-- `overrideIfBetter`, breaks.cpp 176–183. -/
def Bp.override (cur other : Bp) : Bp :=
  if cur.appeal = .overflow ∧ other.appeal = .overflow then cur
  else if cur.appeal.rank ≤ other.appeal.rank then other
  else cur

/-- `break-before`, `break-after` and whether `break-inside` avoids breaks. -/
structure Breaks where
  before : Between := .auto
  after : Between := .auto
  avoid : Bool := false
deriving DecidableEq

/-- A slot of a row with a cell: whether the cell begins at this slot, and its `rowspan`. -/
structure SlotInfo where
  own : Bool
  rowSpan : Nat
deriving DecidableEq

/-- A row of the grid: its slots, its height (`rowHeight[i]`), the row and the group it belongs to
(`rowGroupIdxs[i]`, 381–397), the group with its number. -/
structure RowInfo where
  slots : List (Option SlotInfo)
  height : Int
  row : Option Breaks := some {}
  group : Option (Nat × Breaks) := none
deriving DecidableEq

/-- A table on pages: `lo` and `hi` are `dataRowsInterval` (1314), `height` is `grid.size.y`, `head` and `foot` are the heights of
header and footer (1394–1407), `width` and `pageH` are the size of the page. -/
structure Table where
  row : Nat → RowInfo
  height : Nat
  lo : Nat
  hi : Nat
  head : Int := 0
  foot : Int := 0
  spacing : Int := 0
  avoid : Bool := false
  width : Int
  pageH : Int

/-- `RowOutput`, 1518–1526. -/
structure RowOut where
  sizeY : Int
  allDone : Bool
  someUndone : Bool
  kids : List (Option Appeal)
  bottom : List Bool

/-- The loop 1586–1597. -/
def selfContained (r : RowInfo) : Bool := r.slots.all fun s =>
  match s with
  | none => true
  | some c => c.own && c.rowSpan == 1

/-- `isFreelyFragmentableRow`, 1575–1600. -/
def free (t : Table) (i : Nat) : Bool := !selfContained (t.row i) || decide (min t.width t.pageH < (t.row i).height * 2)

/-- `rowGroupIdxs[i].axisIdx and rows[…].el.style->break_->after == BreakBetween::PAGE` and the like. -/
def rowHas (f : Breaks → Bool) (r : RowInfo) : Bool := (r.row.map f).getD false
def groupHas (f : Breaks → Bool) (r : RowInfo) : Bool := (r.group.map fun g => f g.2).getD false

/-- `handlePossibleForcedBreakpointAfterRow`, 1602–1636. -/
def forcedAfter (t : Table) (allDone isLast : Bool) (i : Nat) (cur : Bp) : Bp × Bool :=
  if allDone = false ∨ isLast = true then (cur, true)
  else
    let afterRow := rowHas (·.after == .page) (t.row i)
    let beforeRow := decide (i + 1 ≤ t.hi) && rowHas (·.before == .page) (t.row (i + 1))
    let limit := decide (i + 1 ≤ t.hi) && !decide ((t.row i).group.map (·.1) = (t.row (i + 1)).group.map (·.1))
    let afterGroup := limit && groupHas (·.after == .page) (t.row i)
    let beforeGroup := limit && groupHas (·.before == .page) (t.row (i + 1))
    if afterRow || beforeRow || afterGroup || beforeGroup then (.forced (i + 1), false) else (cur, true)

/-- 1666–1669. -/
def dropBottoms : List (Option Appeal) → List Bool → List (Option Appeal)
  | k :: ks, b :: bs => (if b then none else k) :: dropBottoms ks bs
  | ks, _ => ks

/-- `handleUnforcedBreakpointsInsideAndAfterRow`, 1638–1680. -/
def unforced (t : Table) (out : RowOut) (i : Nat) (cur : Bp) : Res (Bp × Bool) :=
  let avoidIn := rowHas (·.avoid) (t.row i) || groupHas (·.avoid) (t.row i) || t.avoid
  (if free t i then (Bp.fromChildren out.kids (i + 1) avoidIn false).bind fun b => .ok (cur.override b) else .ok cur).bind fun cur =>
  if out.someUndone then .ok (cur, false)
  else if out.allDone = false then
    (Bp.fromChildren (dropBottoms out.kids out.bottom) (i + 1) avoidIn true).bind fun b => .ok (cur.override b, true)
  else .ok (cur.override (.classB (i + 1) t.avoid), true)

/-- The loop 1694–1717 of `layoutRows` when breaks are looked for; `n` is at least the number of rows left. -/
def rowsLoop (t : Table) (lay : Nat → Int → RowOut) (stop : Nat) : Nat → Nat → Int → Bp → Res (Bool × Bp)
  | 0, _, _, cur => .ok (true, cur)
  | n + 1, i, y, cur =>
    if i < stop then
      (unforced t (lay i y) i cur).bind fun r =>
        if r.2 = false then .ok (false, r.1)
        else
          let r := forcedAfter t (lay i y).allDone (decide (i + 1 = stop)) i r.1
          if r.2 = false then .ok (false, r.1)
          else rowsLoop t lay stop n (i + 1) (y + (lay i y).sizeY + t.spacing) r.1
    else .ok (true, cur)

/-- `shouldRepeatHeaderAndFooter`, 1762–1765, where breaks are allowed. -/
def Table.repeats (t : Table) : Bool := decide (max t.head t.foot * 4 ≤ t.pageH ∧ t.head + t.foot * 2 ≤ t.pageH)

/-- `computeLayoutIntervals`, 1734–1748: where rows begin, and where they end when breaks are looked for. -/
def startAt (t : Table) (start : Nat) : Nat := if t.repeats then add64 start t.lo else start
def stopAll (t : Table) : Nat := if t.repeats then t.hi + 1 else t.height

/-- Where rows end when a page is made, 1742–1744. -/
def stopAt (t : Table) (stop : Option Nat) : Nat :=
  if t.repeats then add64 t.lo (stop.getD (t.hi - t.lo + 1)) else stop.getD t.height

/-- The place of the first row, 1768–1783: below the spacing and the header if it is repeated (`head` is with its spacing,
1395–1398). -/
def firstY (t : Table) (top : Int) : Int := if t.repeats ∧ t.lo ≠ 0 then top + t.head else top + t.spacing

/-- Looking for the break of one page, 1772–1794: the subtraction of 1793 wraps around. -/
def discover (t : Table) (lay : Nat → Nat → Int → RowOut) (top : Int) (start : Nat) : Res (Bool × Bp) :=
  (rowsLoop t (lay (startAt t start)) (stopAll t) (stopAll t - startAt t start) (startAt t start) (firstY t top) .initial).bind fun r =>
    .ok (r.1, if t.repeats then { r.2 with endIdx := sub64 r.2.endIdx t.lo } else r.2)

/-- `getStart` for the page after the break, breaks.cpp 235–239. -/
def nextStart (b : Bp) : Nat := if b.adv = .dont then sub64 b.endIdx 1 else b.endIdx

/-- A page: the rows of the table on it, and whether header and footer are. -/
structure Page where
  rows : List Nat
  framed : Bool
deriving DecidableEq

/-- The rows that `layoutRows` goes through when the page is made, 1694. -/
def shown (t : Table) (start : Nat) (stop : Option Nat) : Page :=
  ⟨List.range' (startAt t start) (stopAt t stop - startAt t start), t.repeats⟩

/-- The loop of print.cpp 153–211, and the pages made afterwards, 246–293; `top p` is where the table begins on page `p`.
The last page has no break inside of the table (202–203). -/
def pages (t : Table) (lay : Nat → Nat → Int → RowOut) (top : Nat → Int) : Nat → Nat → Nat → Res (List Page)
  | 0, _, _ => .hang
  | n + 1, p, start =>
    (discover t lay (top p) start).bind fun r =>
      if r.1 then .ok [shown t start none]
      else (pages t lay top n (p + 1) (nextStart r.2)).bind fun l => .ok (shown t start (some r.2.endIdx) :: l)

end Verif.Rows
