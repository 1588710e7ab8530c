import Mathlib.Algebra.Order.Field.Rat
/-!
# Flexible boxes: model

`layout/flex.cpp`, `values/flex.cpp`. All paths are relative to `src/vaev-engine`.

What is laid out is a container with its items, in the pass that places things (`generateFragment`, no
intrinsic sizing). The two directions are called main and cross, as in the code, where `FlexAxis` (20–133) turns
them into horizontal and vertical.

Simplified:
* Lengths (`Au`) are rational numbers. `au` is the rounding that takes place when a floating point number, or a
  quotient, is made a length (`Au{…}`, `/`); the model is given it. `Number` is a rational number.
* The sizes that come from elsewhere are given: the base size of an item (`computeFlexBaseSize`, 264–318), its limits
  (`getMinMaxPrefferedSize`, 366–412), its margins and the cross size that laying it out with a main size gives
  (`speculateValues`, 236–261).
* Where the code keeps pointers to items, the model keeps their numbers in the line.
-/
namespace Verif.Flex

/-- `FlexDirection`, `values/flex.cpp` 21–28. -/
inductive Direction | row | rowReverse | column | columnReverse
  deriving DecidableEq, Repr

/-- `FlexWrap`, `values/flex.cpp` 53–59. -/
inductive Wrap | nowrap | wrap | wrapReverse
  deriving DecidableEq, Repr

/-- `Align::Keywords`, `values/align.cpp` 34–61. -/
inductive Align
  | noKeyword | auto | normal | center | start | «end» | selfStart | selfEnd | flexStart | flexEnd | left | right
  | firstBaseline | lastBaseline | stretch | spaceBetween | spaceAround | spaceEvenly
  deriving DecidableEq, Repr, Inhabited

/-- What is known of an item before its container is laid out: `FlexItem`, `layout/flex.cpp` 135–156, and the
properties of its box that the code looks at. A margin is `none` when it is `auto`. -/
structure Item where
  base : Rat
  lo : Rat
  hi : Rat
  grow : Rat
  shrink : Rat
  startMain : Option Rat := some 0
  endMain : Option Rat := some 0
  startCross : Option Rat := some 0
  endCross : Option Rat := some 0
  /-- the margin at the top is `auto` (1347) -/
  topAuto : Bool := false
  /-- the size in the cross direction is `auto` -/
  crossAuto : Bool := true
  crossLo : Rat := 0
  crossHi : Rat
  alignSelf : Align := .auto
  /-- the cross size that laying the item out with a main size gives -/
  cross : Rat → Rat
  deriving Inhabited

/-- Karm `clamp(x, lo, hi)`, taken as `max(lo, min(x, hi))`. -/
def clamp (x lo hi : Rat) : Rat := max lo (min x hi)

/-- `computeHypotheticalMainSize`, 320–327. -/
def Item.hypo (x : Item) : Rat := clamp x.base x.lo x.hi

/-- `getMargin(BOTH_MAIN)` before margins are distributed, 217–219: `computeMargins`
(`layout/base/layout-impl.cpp`) makes `auto` zero. -/
def Item.margins (x : Item) : Rat := x.startMain.getD 0 + x.endMain.getD 0

/-! ## Lines -/

/-- The inner loop of `_collectFlexItemsInfoFlexLinesWrap`, 873–884: how many items go on the line, of those
left, and `size`, the room the line takes so far. `slack` is `Au{0.01}`. -/
def takeLine (main slack : Rat) : Rat → List Item → Nat
  | _, [] => 0
  | size, x :: rest =>
    let c := x.hypo + x.margins
    if size + c ≤ main + slack ∨ size = 0 then takeLine main slack (size + c) rest + 1 else 0

theorem takeLine_pos (main slack : Rat) (x : Item) (rest : List Item) :
    0 < takeLine main slack 0 (x :: rest) := by
  simp [takeLine]

/-- `_collectFlexItemsInfoFlexLinesWrap`, 866–890. -/
def wrapLines (main slack : Rat) (items : List Item) : List (List Item) :=
  match items with
  | [] => []
  | x :: rest =>
    (x :: rest).take (takeLine main slack 0 (x :: rest)) ::
      wrapLines main slack ((x :: rest).drop (takeLine main slack 0 (x :: rest)))
termination_by items.length
decreasing_by
  have := takeLine_pos main slack x rest
  simp only [List.length_drop, List.length_cons]
  omega

/-- `_collectFlexItemsIntoFlexLines`, 892–902. -/
def collect (dir : Direction) (wrap : Wrap) (main slack : Rat) (items : List Item) : List (List Item) :=
  let lines := if wrap = .nowrap then [items] else wrapLines main slack items
  if dir = .rowReverse then lines.map List.reverse else lines

/-! ## The lengths of the items of a line: `_resolveFlexibleLengths`, 907–1073 -/

/-- `clampAndFloorContentBox`, 998–1010. -/
def Item.fit (x : Item) (v : Rat) : Rat := max (clamp v x.lo x.hi) 0

/-- `unfrozenItems`, `frozenItems`, `sumFrozenOuterSizes` and the used sizes, 918–921. -/
structure St where
  unfrozen : List Nat
  frozen : List Nat
  sumFrozen : Rat
  used : Nat → Rat

/-- The line: its items by number, and the main size of the container (`_usedMainSize`). -/
structure Job where
  main : Rat
  count : Nat
  it : Nat → Item

/-- `sumItemsHypotheticalMainSizes`, 909–913. -/
def Job.sumHypo (j : Job) : Rat := ((List.range j.count).map fun i => (j.it i).hypo + (j.it i).margins).sum

/-- `matchedSize`, 915. -/
def Job.matched (j : Job) : Bool := j.sumHypo = j.main

/-- `flexCaseIsGrow`, 916. -/
def Job.growing (j : Job) : Bool := j.sumHypo < j.main

/-- The condition of 923–929: the item is frozen from the beginning. -/
def Job.still (j : Job) (i : Nat) : Bool :=
  j.matched || (j.growing && decide ((j.it i).hypo < (j.it i).base)) ||
    (!j.growing && decide ((j.it i).base < (j.it i).hypo)) ||
    (decide ((j.it i).grow = 0) && j.growing) || (decide ((j.it i).shrink = 0) && !j.growing)

/-- One item of the loop 922–939. -/
def Job.sort (j : Job) (s : St) (i : Nat) : St :=
  if j.still i then
    { s with
      used := fun k => if k = i then (j.it i).hypo else s.used k
      frozen := s.frozen ++ [i]
      sumFrozen := s.sumFrozen + ((j.it i).hypo + (j.it i).margins) }
  else
    { s with
      used := fun k => if k = i then (j.it i).base else s.used k
      unfrozen := s.unfrozen ++ [i] }

/-- 918–939. -/
def Job.init (j : Job) : St := (List.range j.count).foldl j.sort ⟨[], [], 0, fun _ => 0⟩

/-- The factor that counts, 949–951. -/
def Job.factor (j : Job) (i : Nat) : Rat := if j.growing then (j.it i).grow else (j.it i).shrink

/-- First half of `computeStats`, 945–946. -/
def Job.outer (j : Job) (u : List Nat) : Rat := (u.map fun i => (j.it i).base + (j.it i).margins).sum

/-- Second half of `computeStats`, 948–951. -/
def Job.factors (j : Job) (u : List Nat) : Rat := (u.map j.factor).sum

/-- `Number{_usedMainSize} - Number{sumUnfrozenOuterSizes + sumFrozenOuterSizes}`, 959 and 963. -/
def Job.free (j : Job) (s : St) : Rat := j.main - (j.outer s.unfrozen + s.sumFrozen)

/-- Math::abs -/
def abs (x : Rat) : Rat := if x < 0 then -x else x

/-- 963–969: the free space the unfrozen items share. -/
def Job.toShare (j : Job) (initialFree : Rat) (s : St) : Rat :=
  if j.factors s.unfrozen < 1 ∧ abs (initialFree * j.factors s.unfrozen) < abs (j.free s) then
    initialFree * j.factors s.unfrozen
  else j.free s

/-- `getScaledFlexShrinkFactor`, 232–234. -/
def Job.scaled (au : Rat → Rat) (j : Job) (i : Nat) : Rat := au ((j.it i).base * (j.it i).shrink)

/-- The size an unfrozen item is given, 971–994. `Rat` makes `x / 0` zero, the code infinite: that takes factors
that add up to zero without being zero, so negative ones. -/
def Job.target (au : Rat → Rat) (j : Job) (initialFree : Rat) (s : St) (i : Nat) : Rat :=
  if j.growing then
    (j.it i).base + au ((j.it i).grow / j.factors s.unfrozen * j.toShare initialFree s)
  else if (s.unfrozen.map (j.scaled au)).sum = 0 then (j.it i).base
  else
    (j.it i).base -
      au (j.scaled au i / (s.unfrozen.map (j.scaled au)).sum * abs (j.toShare initialFree s))

/-- 971–994 for all unfrozen items. -/
def Job.aim (au : Rat → Rat) (j : Job) (initialFree : Rat) (s : St) : St :=
  { s with used := fun i => if i ∈ s.unfrozen then j.target au initialFree s i else s.used i }

/-- How far an item has to be moved to be allowed, 1015–1016 and 1019–1020. -/
def Job.off (j : Job) (s : St) (i : Nat) : Rat := (j.it i).fit (s.used i) - s.used i

/-- `totalViolation`, 1014–1021. -/
def Job.violation (j : Job) (s : St) : Rat :=
  (s.unfrozen.map (j.off s)).sum + (s.frozen.map (j.off s)).sum

/-- 1024–1028 and 1052–1056: every unfrozen item gets an allowed size. -/
def Job.settle (j : Job) (s : St) : St :=
  { s with used := fun i => if i ∈ s.unfrozen then (j.it i).fit (s.used i) else s.used i }

/-- `std::swap(unfrozenItems[i], unfrozenItems[unfrozenItems.len() - 1]); unfrozenItems.popBack();`, 1067–1068. -/
def swapRemove (l : List Nat) (i : Nat) : List Nat := (l.set i (l.getLastD 0)).dropLast

/-- One turn of the loop 1058–1069. -/
def Job.freeze (j : Job) (s : St) (i : Nat) : St :=
  { s with
    sumFrozen := s.sumFrozen + (s.used (s.unfrozen.getD i 0) + (j.it (s.unfrozen.getD i 0)).margins)
    frozen := s.frozen ++ [s.unfrozen.getD i 0]
    unfrozen := swapRemove s.unfrozen i }

/-- `indexesToFreeze`, 1034–1051: places in `unfrozenItems`. -/
def Job.indexes (j : Job) (s : St) : List Nat :=
  (List.range s.unfrozen.length).filter fun k =>
    if j.violation s < 0 then decide (j.off s (s.unfrozen.getD k 0) < 0)
    else decide (0 < j.off s (s.unfrozen.getD k 0))

/-- 1023–1070. -/
def Job.thaw (j : Job) (s : St) : St :=
  if j.violation s = 0 then
    { j.settle s with frozen := s.frozen ++ s.unfrozen, unfrozen := [] }
  else (j.indexes s).reverse.foldl j.freeze (j.settle s)

/-- One turn of the loop 961–1071. -/
def Job.step (au : Rat → Rat) (j : Job) (initialFree : Rat) (s : St) : St := j.thaw (j.aim au initialFree s)

/-- The loop 961–1071; `none` when it has not come to an end after so many turns. -/
def Job.loop (au : Rat → Rat) (j : Job) (initialFree : Rat) : Nat → St → Option (Nat → Rat)
  | fuel, s =>
    if s.unfrozen = [] then some s.used
    else match fuel with
      | 0 => none
      | fuel + 1 => Job.loop au j initialFree fuel (j.step au initialFree s)

/-- The body of the loop 908–1072, for one line: the main sizes of its items. -/
def resolve (au : Rat → Rat) (fuel : Nat) (main : Rat) (line : List Item) : Option (List Rat) :=
  let j : Job := ⟨main, line.length, fun i => line.getD i default⟩
  (j.loop au (j.free j.init) fuel j.init).map fun used => (List.range line.length).map used

/-! ## Main direction: margins and places -/

/-- An item on its way to its place: `usedSize`, `margin`, `position`, 142–146. -/
structure Box where
  item : Item
  size : Rat
  startMain : Rat
  endMain : Rat
  pos : Rat := 0
  crossSize : Rat := 0
  startCross : Rat := 0
  endCross : Rat := 0
  crossPos : Rat := 0

/-- The item with its main size; margins are what `getMargin` (201–225) gives while none is set. -/
def Box.make (x : Item) (size : Rat) : Box :=
  { item := x, size := size, startMain := x.startMain.getD 0, endMain := x.endMain.getD 0
    startCross := x.startCross.getD 0, endCross := x.endCross.getD 0 }

/-- The main size with margins. -/
def Box.outer (b : Box) : Rat := b.size + (b.startMain + b.endMain)

/-- `occupiedMainSize`, 1260–1264. -/
def occupied (line : List Box) : Rat := (line.map Box.outer).sum

/-- `countOfAutos`, 1268–1273. -/
def autos (line : List Box) : Nat :=
  (line.map fun b => (if b.item.startMain = none then 1 else 0) + (if b.item.endMain = none then 1 else 0)).sum

/-- 1278–1281 and 1291–1294. -/
def Box.withAuto (m : Rat) (b : Box) : Box :=
  { b with
    startMain := if b.item.startMain = none then m else b.startMain
    endMain := if b.item.endMain = none then m else b.endMain }

/-- 1260–1296: the boxes with their margins, and the occupied size. -/
def autoMargins (au : Rat → Rat) (main : Rat) (line : List Box) : List Box × Rat :=
  if occupied line < main ∧ autos line ≠ 0 then
    (line.map (Box.withAuto (au ((main - occupied line) / autos line))), main)
  else (line.map (Box.withAuto 0), occupied line)

/-- The loop that all of `alignMain…` end in, 564–621: items one after the other from `at` on, `gap` apart. -/
def placeMain (gap : Rat) : Rat → List Box → List Box
  | _, [] => []
  | at_, b :: rest => { b with pos := at_ + b.startMain } :: placeMain gap (at_ + (b.size + (b.startMain + b.endMain) + gap)) rest

/-- `justifyContent`, 624–653. -/
def justify (au : Rat → Rat) (how : Align) (main occ : Rat) (line : List Box) : List Box :=
  match how with
  | .spaceAround =>
    if main < occ ∨ line.length = 1 then placeMain 0 (au ((main - occ) / 2)) line
    else placeMain (au ((main - occ) / line.length)) (au (au ((main - occ) / line.length) / 2)) line
  | .center => placeMain 0 (au ((main - occ) / 2)) line
  | .flexEnd => placeMain 0 (main - occ) line
  | .spaceBetween =>
    if main < occ ∨ line.length = 1 then placeMain 0 0 line
    else placeMain (au ((main - occ) / ((line.length - 1 : Nat) : Rat))) 0 line
  | _ => placeMain 0 0 line

/-- 1301–1307. -/
def turned (dir : Direction) (how : Align) : Align :=
  if dir = .rowReverse then
    if how = .flexStart then .flexEnd else if how = .flexEnd then .flexStart else how
  else how

/-- `_distributeRemainingFreeSpace` for one line, 1260–1313. -/
def distribute (au : Rat → Rat) (dir : Direction) (how : Align) (main : Rat) (line : List Box) : List Box :=
  justify au (turned dir how) main (autoMargins au main line).2 (autoMargins au main line).1

/-! ## Cross direction -/

/-- `hasAnyCrossMarginAuto`, 227–230. -/
def Box.crossMarginAuto (b : Box) : Bool := b.item.startCross = none ∨ b.item.endCross = none

/-- The size in the cross direction that laying the item out gives, with margins: 1158–1159. -/
def Box.outerGuess (b : Box) : Rat := b.item.cross b.size + (b.startCross + b.endCross)

/-- `_calculateCrossSizeOfEachFlexLineNonIntrinsicSize` for one line of several, 1137–1167. Items aligned by their
baselines count nothing. -/
def lineCross (line : List Box) : Rat :=
  max (line.foldl (fun m b =>
    if b.item.alignSelf = .firstBaseline ∧ b.crossMarginAuto = false then m else max m b.outerGuess) 0) (0 + 0)

/-- `_calculateCrossSizeOfEachFlexLineNonIntrinsicSize`, 1129–1168. `known` is the known cross size. -/
def crossSizes (known : Option Rat) (lines : List (List Box)) : List (Rat × List Box) :=
  match known, lines with
  | some c, [l] => [(c, l)]
  | _, ls => ls.map fun l => (lineCross l, l)

/-- `_handleAlignContentStretch`, 1182–1199. `room` is the available space in the cross direction. -/
def stretchLines (au : Rat → Rat) (crossAuto : Bool) (known : Option Rat) (how : Align) (room : Rat)
    (lines : List (Rat × List Box)) : List (Rat × List Box) :=
  if (crossAuto ∨ known.isSome) ∧ how = .stretch then
    if (lines.map (·.1)).sum < room then
      lines.map fun l => (l.1 + au ((room - (lines.map (·.1)).sum) / lines.length), l.2)
    else lines
  else lines

/-- `align-self`, or `align-items` of the container, 523–527 and 1214–1216. -/
def Item.alignment (items : Align) (x : Item) : Align := if x.alignSelf = .auto then items else x.alignSelf

/-- `_determineUsedCrossSize` for one item, 1214–1250. -/
def usedCross (items : Align) (line : Rat) (b : Box) : Box :=
  { b with
    crossSize :=
      if b.item.alignment items = .stretch ∧ b.item.crossAuto ∧ b.crossMarginAuto = false then
        clamp (line - (b.startCross + b.endCross)) b.item.crossLo b.item.crossHi
      else b.item.cross b.size }

/-- `_resolveCrossAxisAutoMargins` for one item, 1324–1354. -/
def crossMargins (au : Rat → Rat) (line : Rat) (b : Box) : Box :=
  if b.item.startCross = none ∨ b.item.endCross = none then
    if b.crossSize + (b.startCross + b.endCross) < line then
      if b.item.startCross ≠ none then
        { b with endCross := line - b.crossSize - b.startCross, crossPos := b.startCross }
      else if b.item.endCross ≠ none then
        { b with startCross := line - b.crossSize - b.endCross, crossPos := line - b.crossSize - b.endCross }
      else
        { b with
          startCross := au ((line - b.crossSize) / 2)
          endCross := au ((line - b.crossSize) / 2)
          crossPos := au ((line - b.crossSize) / 2) }
    else
      { b with
        startCross := if b.item.topAuto then 0 else b.startCross
        endCross := if b.crossSize < line then line - b.crossSize else b.endCross }
  else b

/-- `alignItem`, 522–552, with 479–519. -/
def alignItem (au : Rat → Rat) (items : Align) (line : Rat) (b : Box) : Box :=
  match b.item.alignment items with
  | .flexEnd => if b.crossMarginAuto then b else { b with crossPos := line - b.crossSize - b.endCross }
  | .center =>
    if b.crossMarginAuto then b
    else { b with crossPos := au ((line - b.crossSize - (b.startCross + b.endCross)) / 2) + b.startCross }
  | .firstBaseline => b
  | .stretch => { b with crossPos := b.startCross }
  | _ => if b.crossMarginAuto then b else { b with crossPos := b.startCross }

/-- The loops of `_alignAllFlexLines`, 1403–1406 and so on: lines one after the other. -/
def placeLines (gap : Rat) : Rat → List (Rat × List Box) → List (Rat × Rat × List Box)
  | _, [] => []
  | at_, l :: rest => (at_, l) :: placeLines gap (at_ + (l.1 + gap)) rest

/-- `_alignAllFlexLines`, 1399–1467. -/
def alignLines (au : Rat → Rat) (how : Align) (room : Rat) (lines : List (Rat × List Box)) :
    List (Rat × Rat × List Box) :=
  let left := room - (lines.map (·.1)).sum
  match how with
  | .flexEnd => placeLines 0 left lines
  | .center => placeLines 0 (au (left / 2)) lines
  | .spaceAround =>
    if left < 0 then placeLines 0 (au (left / 2)) lines
    else placeLines (au (left / lines.length)) (au (au (left / lines.length) / 2)) lines
  | .spaceBetween =>
    if left < 0 ∨ lines.length = 1 then placeLines 0 0 lines
    else placeLines (au (left / ((lines.length - 1 : Nat) : Rat))) 0 lines
  | _ => placeLines 0 0 lines

/-! ## All of it -/

/-- What the code knows of the container: `FlexProps` (`values/flex.cpp` 99–111), `aligns`, and the sizes of
`_determineAvailableMainAndCrossSpace` and `_determineMainSize` (727–846). -/
structure Container where
  dir : Direction := .row
  wrap : Wrap := .nowrap
  justify : Align := .flexStart
  alignItems : Align := .stretch
  alignContent : Align := .stretch
  main : Rat
  /-- the available space in the cross direction -/
  room : Rat
  /-- the cross size, if it is known -/
  known : Option Rat := none
  /-- the cross size of the container is `auto` -/
  crossAuto : Bool := true

/-- Where an item ends up, in the container: `_commit`, 1480–1482, and its sizes. -/
structure Placed where
  main : Rat
  mainSize : Rat
  cross : Rat
  crossSize : Rat
  /-- margins, along the main direction and across -/
  startMain : Rat
  endMain : Rat
  startCross : Rat
  endCross : Rat
  item : Item

/-- 1482. -/
def Box.commit (line : Rat) (b : Box) : Placed :=
  ⟨b.pos, b.size, b.crossPos + line, b.crossSize, b.startMain, b.endMain, b.startCross, b.endCross, b.item⟩

/-- Steps 7 to 14 for one line that has its cross size. -/
def finishLine (au : Rat → Rat) (c : Container) (l : Rat × List Box) : Rat × List Box :=
  (l.1, (distribute au c.dir c.justify c.main (l.2.map (usedCross c.alignItems l.1))).map
    fun b => alignItem au c.alignItems l.1 (crossMargins au l.1 b))

/-- A line in its place: where it begins in the cross direction, its size there, and its items. -/
structure Row where
  start : Rat
  size : Rat
  items : List Placed

/-- Steps 6 for all lines: the items with their main sizes. -/
def sizeLines (au : Rat → Rat) (fuel : Nat) (main : Rat) : List (List Item) → Option (List (List Box))
  | [] => some []
  | l :: rest => do
    let sizes ← resolve au fuel main l
    let more ← sizeLines au fuel main rest
    return List.zipWith Box.make l sizes :: more

/-- Steps 7 to 16 and `_commit`. -/
def placeAll (au : Rat → Rat) (c : Container) (boxes : List (List Box)) : List Row :=
  let sized := stretchLines au c.crossAuto c.known c.alignContent c.room (crossSizes c.known boxes)
  (alignLines au c.alignContent c.room (sized.map (finishLine au c))).map fun l =>
    ⟨l.1, l.2.1, l.2.2.map (Box.commit l.1)⟩

/-- `FlexFormatingContext::run`, 1548–1599, when there are items; `none` when the lengths are never resolved. -/
def layout (au : Rat → Rat) (slack : Rat) (fuel : Nat) (c : Container) (items : List Item) : Option (List Row) :=
  (sizeLines au fuel c.main (collect c.dir c.wrap c.main slack items)).map (placeAll au c)

end Verif.Flex
