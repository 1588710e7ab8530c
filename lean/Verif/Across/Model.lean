import Verif.Basis.Model
/-!
# How large a flex container is across its items by their content: model

`layout/flex.cpp` 448–477, 707–736, 1100–1127, 1182–1199 and 1380–1394, when the size of the container by its content is asked for
(`IntrinsicSize::MIN_CONTENT` or `MAX_CONTENT`).  Sizes are those in the cross direction and of border boxes.  Lengths are
rational numbers; which items are on which line is given.  Paths are relative to `src/vaev-engine`.
-/
namespace Verif.Across
open Verif.Basis (Size MaxSize Calc Wrap clamp)

/-- `FlexItem`, 135–156: the properties in the cross direction; `minC` and `maxC` are `minContentSize` and `maxContentSize`,
177–190, with borders and paddings. -/
structure Item where
  size : Size := .auto
  minSize : Size := .auto
  maxSize : MaxSize := .none
  minC : Rat
  maxC : Rat
  marginMain : Rat := 0
  marginCross : Rat := 0

/-- `getMinMaxPrefferedSize` in the cross direction, 366–406: the lower limit. -/
def lower (space : Rat) (i : Item) : Rat :=
  match i.minSize with
  | .calc c => c.resolve space
  | .minContent => i.minC
  | .maxContent => i.maxC
  | .fitContent => 0
  | .auto => 0

/-- The upper limit; `big` is `Limits<Au>::MAX`. -/
def upper (big space : Rat) (i : Item) : Rat :=
  match i.maxSize with
  | .calc c => c.resolve space
  | .minContent => i.minC
  | .maxContent => i.maxC
  | .fitContent => 0
  | .none => big

/-- `getCrossSizeMinMaxContentContribution`, 448–477. -/
def contribution (big space : Rat) (isMin : Bool) (i : Item) : Rat :=
  let c0 := i.marginMain + if isMin then i.minC else i.maxC
  let c1 := match i.size with
    | .calc c => max c0 (c.resolve space + i.marginCross)
    | _ => c0
  clamp c1 (lower space i) (upper big space i)

/-- The container: `auto` tells whether its size across is `auto`, `known` and `avail` are those of its input, `stretch` is
`align-content: stretch`. -/
structure Container where
  row : Bool := true
  wrap : Wrap := .nowrap
  auto : Bool := true
  known : Option Rat := none
  avail : Rat := 0
  stretch : Bool := true
  isMin : Bool := false

/-- `availableSpace`, 726–736, with `_determineCrossSpaceForIntrinsicSizes`, 707–724. -/
def space (big : Rat) (c : Container) (items : List Item) : Rat :=
  let a := c.known.getD c.avail
  if c.row = false ∧ c.wrap = .wrap then (items.map (contribution big a c.isMin)).foldl max (-big) else a

/-- `_calculateCrossSizeOfEachFlexLineIntrinsicSize` for one line, 1100–1127. -/
def lineSize (big space : Rat) (isMin : Bool) (items : List Item) : Rat := (items.map (contribution big space isMin)).foldl max 0

/-- `_handleAlignContentStretch`, 1182–1199. -/
def stretched (c : Container) (space : Rat) (ls : List Rat) : List Rat :=
  if c.isMin = false ∧ (c.auto = true ∨ c.known.isSome = true) ∧ c.stretch = true ∧ ls.sum < space then
    ls.map (· + (space - ls.sum) / ls.length)
  else ls

/-- `_usedCrossSize`, 1380–1394. -/
def crossSize (big : Rat) (c : Container) (lines : List (List Item)) : Rat :=
  let sp := space big c lines.flatten
  (stretched c sp (lines.map (lineSize big sp c.isMin))).sum

end Verif.Across
