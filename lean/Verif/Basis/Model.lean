import Mathlib.Algebra.Order.Field.Rat
/-!
# Sizes of flex items and containers before items flex: model

`layout/flex.cpp` 135–445, 666–679 and 726–857: the base size of an item, its limits, what it contributes to the size of its
container, and the main size of the container.  Everything is in the main direction; sizes are border boxes unless said
otherwise.  Paths are relative to `src/vaev-engine`.

Lengths (`Au`) are rational numbers and nothing is rounded.  The intrinsic sizes of the content of an item
(`computeIntrinsicContentSize`) and the size that laying it out gives (`speculateValues`, 236–261) are given.
-/
namespace Verif.Basis

/-- `CalcValue<PercentOr<Length>>`: a length, a percentage, or an expression, which is a sum of both. -/
inductive Calc where
  | length (v : Rat)
  | percent (p : Rat)
  | mix (v p : Rat)

/-- `resolve(tree, box, calc, relative)`, layout/base/values.cpp 77–80. -/
def Calc.resolve (rel : Rat) : Calc → Rat
  | .length v => v
  | .percent p => p / 100 * rel
  | .mix v p => v + p / 100 * rel

/-- `isPurePercentage`, layout/base/values.cpp 85–94. -/
def Calc.pure : Calc → Bool
  | .percent _ => true
  | _ => false

/-- `Size`, values/sizing.cpp 59. -/
inductive Size where
  | auto | calc (c : Calc) | minContent | maxContent | fitContent

/-- `MaxSize`, values/sizing.cpp 60. -/
inductive MaxSize where
  | none | calc (c : Calc) | minContent | maxContent | fitContent

/-- `FlexBasis`, values/flex.cpp 78–82. -/
inductive FlexBasis where
  | content | auto | calc (c : Calc)

/-- `basis.is<Keywords::Content>()`. -/
def FlexBasis.isContent : FlexBasis → Bool
  | .content => true
  | _ => false

/-- `IntrinsicSize`, layout/base/input.cpp 21–26. -/
inductive Intrinsic where
  | auto | minContent | maxContent | stretch
deriving DecidableEq

/-- `FlexItem`, layout/flex.cpp 135–156, with the properties of its box that matter.  `edges` are borders and paddings,
`minC` and `maxC` the sizes of its content, `margin` both margins (`getMargin(BOTH_MAIN)`), `laid` the size that laying it
out has given, `scrolls` whether `overflow` makes it scroll. -/
structure Item where
  basis : FlexBasis := .auto
  size : Size := .auto
  minSize : Size := .auto
  maxSize : MaxSize := .none
  grow : Rat := 0
  shrink : Rat := 1
  contentBox : Bool := true
  edges : Rat := 0
  margin : Rat := 0
  minC : Rat
  maxC : Rat
  laid : Rat := 0
  scrolls : Bool := false

/-- `computeContentSizes`, 177–190. -/
def Item.minContent (i : Item) : Rat := i.minC + i.edges
def Item.maxContent (i : Item) : Rat := i.maxC + i.edges

/-- `getDefiniteFlexBasisSize`, 266–281. -/
def definiteBasis (i : Item) : Option Calc :=
  match i.basis with
  | .content => none
  | .calc c => some c
  | .auto => match i.size with
    | .calc c => some c
    | _ => none

/-- The end of `computeFlexBaseSize`, 303–317, without a definite basis. -/
def contentBase (s : Intrinsic) (i : Item) : Rat :=
  match s with
  | .minContent => i.minContent
  | .maxContent => i.maxContent
  | _ => i.maxContent

/-- `computeFlexBaseSize`, 264–318. -/
def baseSize (container : Option Rat) (s : Intrinsic) (i : Item) : Rat :=
  match definiteBasis i with
  | some c =>
    if c.pure = false ∨ container.isSome = true then
      c.resolve (container.getD 0) + if i.contentBox then i.edges else 0
    else contentBase s i
  | none => contentBase s i

/-- Karm `clamp(x, lo, hi)`, taken as `max(lo, min(x, hi))`. -/
def clamp (x lo hi : Rat) : Rat := max lo (min x hi)

/-- `getMinAutoPrefMainSize`, 330–364. -/
def minAuto (container : Rat) (i : Item) : Rat :=
  let cap (v : Rat) : Rat := match i.maxSize with
    | .calc c => min v (c.resolve container)
    | _ => v
  match i.size with
  | .calc c => min (cap i.minContent) (cap (c.resolve container))
  | _ => cap i.minContent

/-- `getMinMaxPrefferedSize` in the main direction, 366–406: the lower limit. -/
def lower (container : Rat) (i : Item) : Rat :=
  match i.minSize with
  | .calc c => c.resolve container
  | .minContent => i.minContent
  | .maxContent => i.maxContent
  | .fitContent => 0
  | .auto => minAuto container i

/-- The upper limit; `big` is `Limits<Au>::MAX`. -/
def upper (big container : Rat) (i : Item) : Rat :=
  match i.maxSize with
  | .calc c => c.resolve container
  | .minContent => i.minContent
  | .maxContent => i.maxContent
  | .fitContent => 0
  | .none => big

/-- `computeHypotheticalMainSize`, 320–327. -/
def hypoSize (big container base : Rat) (i : Item) : Rat := clamp base (lower container i) (upper big container i)

/-- `getMainSizeMinMaxContentContribution`, 409–445. -/
def contribution (big container base : Rat) (isMin : Bool) (i : Item) : Rat :=
  let c0 := (if isMin then i.minContent else i.maxContent) + i.margin
  let c1 := match i.size with
    | .calc c => max c0 (c.resolve container + i.margin)
    | .minContent => max c0 (i.minContent + i.margin)
    | .auto => if isMin then c0 else max c0 i.laid
    | _ => c0
  let c2 := if i.grow = 0 then min c1 base else c1
  let c3 := if i.shrink = 0 then max c2 base else c2
  clamp c3 (lower container i) (upper big container i)

/-- What an item adds in `_computeIntrinsicSizeWebCompat`, 781–794. -/
def share (big container base : Rat) (isMin : Bool) (i : Item) : Rat :=
  let contrib := contribution big container base isMin i
  if ((i.grow = 0 ∧ base > contrib) ∨ (i.shrink = 0 ∧ base < contrib)) ∧
      i.basis.isContent = false then base
  else contrib

/-- `FlexWrap`, values/flex.cpp 53–59. -/
inductive Wrap where
  | nowrap | wrap | wrapReverse
deriving DecidableEq

/-- The container: `known` and `avail` are `knownSize` and `availableSpace` of its input, content boxes, in the main
direction; `cb` is the size of its containing block and `size` its own property. -/
structure Container where
  row : Bool := true
  wrap : Wrap := .nowrap
  size : Size := .auto
  known : Option Rat := none
  avail : Rat := 0
  cb : Rat := 0
  intrinsic : Intrinsic := .auto

/-- `containerDefiniteMainSize`, 742–750. -/
def Container.definite (c : Container) : Option Rat :=
  match c.size with
  | .calc k => some (k.resolve c.cb)
  | _ => c.known

/-- `availableSpace` in the main direction, 726–731. -/
def Container.space (c : Container) : Rat := c.known.getD c.avail

/-- The base size of an item of a container, 753–757. -/
def Container.base (c : Container) (i : Item) : Rat := baseSize c.definite c.intrinsic i

/-- Its hypothetical main size, 759. -/
def Container.hypo (big : Rat) (c : Container) (i : Item) : Rat := hypoSize big c.space (c.base i) i

/-- `_determineMainSize`, 826–857, with `_computeIntrinsicSizeWebCompat` 778–795, `_computeIntrinsicSizeMinMultiline`
798–815 and `columnFlowIntrinsicSize` 818–824.  `Limits<Au>::MIN` is `-big`. -/
def mainSize (big : Rat) (c : Container) (items : List Item) : Rat :=
  let used := c.known.getD 0
  if c.row = false then
    if c.intrinsic ≠ .auto ∨ (match c.size with | .maxContent | .minContent | .auto => true | _ => false) = true then
      (items.map fun i => c.hypo big i + i.margin).sum
    else used
  else if c.wrap = .wrap ∧ c.intrinsic = .minContent then
    max used ((items.map fun i => contribution big c.space (c.base i) true i).foldl max (-big))
  else if c.intrinsic ≠ .auto then
    (items.map fun i => share big c.space (c.base i) (c.intrinsic = .minContent) i).sum
  else used

/-! ## Percentages of margins and paddings -/

/-- The margin on a side in the main direction when lines are made and lengths are flexed: `computeMargins` with the empty
containing block of the input in 762–768. -/
def flexMargin (m : Calc) : Rat := m.resolve 0

/-- The same margin when items are placed: `_determineHypotheticalCrossSize`, 1078–1095, where the containing block has the
main size `used` of the item. -/
def placedMargin (used : Rat) (m : Calc) : Rat := m.resolve used

/-- A padding: `_generateFlexItems`, 666–679 and 1549, with the containing block of the container, whose width is
`cbWidth`. -/
def padding (cbWidth : Rat) (p : Calc) : Rat := p.resolve cbWidth

end Verif.Basis
