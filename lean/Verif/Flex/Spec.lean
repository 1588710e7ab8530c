import Verif.Flex.Model
/-!
# Flexible boxes: what is asked of them

After CSS Flexible Box Layout 1. Nothing here uses the model's functions, only its records.
-/
namespace Verif.Flex.Spec

/-! ## Sizes -/

/-- The allowed size that is nearest to `v`: not negative, not below the minimum, and otherwise not above the
maximum. -/
def allowed (x : Item) (v : Rat) : Rat := max 0 (max x.lo (min v x.hi))

/-- Margins that are `auto` count nothing when sizes are shared out. -/
def margins (x : Item) : Rat := x.startMain.getD 0 + x.endMain.getD 0

/-- The size an item would like to have, its limits considered. -/
def natural (x : Item) : Rat := max x.lo (min x.base x.hi)

/-- What the items of a line would like to take. -/
def wish (line : List Item) : Rat := (line.map fun x => natural x + margins x).sum

/-- What they take with given sizes. -/
def taken (line : List Item) (sizes : List Rat) : Rat := (List.zipWith (fun x s => s + margins x) line sizes).sum

/-- How strongly an item takes part when room is shared out: by `flex-grow`, or, when there is too little room, by
`flex-shrink` and its base size. -/
def weight (grow : Bool) (x : Item) : Rat := if grow then x.grow else x.base * x.shrink

/-- The size of an item when every item changes by `l` for each unit of its weight, as far as its limits allow. -/
def share (grow : Bool) (x : Item) (l : Rat) : Rat := allowed x (x.base + weight grow x * l)

/-- One share for all: the items change in proportion to their weights, none beyond its limits, and so that the line
is full; if it is not, then because all are at their limits. -/
def Fair (main : Rat) (line : List Item) (sizes : List Rat) : Prop :=
  ∃ l : Rat, (wish line < main → 0 ≤ l) ∧ (main ≤ wish line → l ≤ 0) ∧
    sizes = line.map (share (decide (wish line < main)) · l) ∧
    (taken line sizes = main ∨
      (taken line sizes < main ∧ ∀ l', l ≤ l' → line.map (share (decide (wish line < main)) · l') = sizes) ∨
      (main < taken line sizes ∧ ∀ l', l' ≤ l → line.map (share (decide (wish line < main)) · l') = sizes))

/-- The room that is left when every item has its base size; negative when there is too little. -/
def leftOver (main : Rat) (line : List Item) : Rat := main - (line.map fun x => x.base + margins x).sum

/-- The size of an item when no limit matters: items grow by what is left over, in proportion to `flex-grow`, or
shrink by what is missing, in proportion to `flex-shrink` and base size. Factors that add up to less than one take
only that part of it. -/
def portion (au : Rat → Rat) (main : Rat) (line : List Item) (x : Item) : Rat :=
  if 0 < leftOver main line then
    x.base + au (x.grow / (line.map Item.grow).sum * (leftOver main line * min 1 (line.map Item.grow).sum))
  else
    x.base - au (au (x.base * x.shrink) / (line.map fun y => au (y.base * y.shrink)).sum *
      (-leftOver main line * min 1 (line.map Item.shrink).sum))

/-! ## Lines -/

/-- Lines take as many items as go on them: a line is not too long, unless it is a single item, and the item that
begins the next line did not fit. -/
structure Greedy (main slack : Rat) (lines : List (List Item)) : Prop where
  fits : ∀ l ∈ lines, l ≠ [] ∧ (l.length = 1 ∨ wish l ≤ main + slack)
  full : ∀ k l x rest, lines[k]? = some l → lines[k + 1]? = some (x :: rest) →
    main + slack < wish l + (natural x + margins x)

/-! ## The main direction -/

/-- Items lie side by side from `a` to `b`, margins included, with `g` between each two. -/
def Spaced (g : Rat) : Rat → List Placed → Rat → Prop
  | a, [], b => a = b
  | a, [p], b => p.main - p.startMain = a ∧ p.main + p.mainSize + p.endMain = b
  | a, p :: q :: rest, b => p.main - p.startMain = a ∧ Spaced g (p.main + p.mainSize + p.endMain + g) (q :: rest) b

/-- Where `justify-content` puts the items of a line, given from the beginning of the main direction on. -/
def Justified (how : Align) (main : Rat) (ps : List Placed) : Prop :=
  match how with
  | .flexStart => ∃ b, Spaced 0 0 ps b
  | .flexEnd => ∃ a, Spaced 0 a ps main
  | .center => ∃ a, Spaced 0 a ps (main - a)
  | .spaceBetween => ∃ g b, 0 ≤ g ∧ Spaced g 0 ps b ∧ (b = main ∨ (g = 0 ∧ (main < b ∨ ps.length = 1)))
  | .spaceAround => ∃ g, Spaced (max g 0) (g / 2) ps (main - g / 2)
  | .spaceEvenly => ∃ g, Spaced (max g 0) g ps (main - g)
  | _ => True

/-- Seen from the other end of the main direction. -/
def mirror (main : Rat) (p : Placed) : Placed :=
  { p with main := main - (p.main + p.mainSize), startMain := p.endMain, endMain := p.startMain }

/-! ## The cross direction -/

/-- Where an item without `auto` margins across is in its line. -/
def Across (how : Align) (r : Row) (p : Placed) : Prop :=
  match how with
  | .flexStart => p.cross - p.startCross = r.start
  | .stretch => p.cross - p.startCross = r.start ∧
    (p.item.crossAuto = true → p.crossSize =
      max p.item.crossLo (min (r.size - (p.startCross + p.endCross)) p.item.crossHi))
  | .flexEnd => p.cross + p.crossSize + p.endCross = r.start + r.size
  | .center => (p.cross - p.startCross) - r.start = r.start + r.size - (p.cross + p.crossSize + p.endCross)
  | _ => True

/-- Lines lie one after the other from `a` to `b`, with `g` between each two. -/
def Stacked (g : Rat) : Rat → List Row → Rat → Prop
  | a, [], b => a = b
  | a, [r], b => r.start = a ∧ r.start + r.size = b
  | a, r :: q :: rest, b => r.start = a ∧ Stacked g (r.start + r.size + g) (q :: rest) b

/-- Where `align-content` puts the lines. -/
def Piled (how : Align) (room : Rat) (rs : List Row) : Prop :=
  match how with
  | .flexStart => ∃ b, Stacked 0 0 rs b
  | .stretch => ∃ b, Stacked 0 0 rs b
  | .flexEnd => ∃ a, Stacked 0 a rs room
  | .center => ∃ a, Stacked 0 a rs (room - a)
  | .spaceBetween => ∃ g b, 0 ≤ g ∧ Stacked g 0 rs b ∧ (b = room ∨ (g = 0 ∧ (room < b ∨ rs.length = 1)))
  | .spaceAround => ∃ g, Stacked (max g 0) (g / 2) rs (room - g / 2)
  | _ => True

/-! ## Side by side -/

/-- Two items do not overlap. -/
def Apart (p q : Placed) : Prop :=
  p.main + p.mainSize ≤ q.main ∨ q.main + q.mainSize ≤ p.main ∨
    p.cross + p.crossSize ≤ q.cross ∨ q.cross + q.crossSize ≤ p.cross

/-- Nothing about the item is negative, it is not aligned by its baseline, and laying it out respects the minimum
size across. -/
structure Decent (x : Item) : Prop where
  lo : 0 ≤ x.lo
  startMain : ∀ m ∈ x.startMain, 0 ≤ m
  endMain : ∀ m ∈ x.endMain, 0 ≤ m
  startCross : ∀ m ∈ x.startCross, 0 ≤ m
  endCross : ∀ m ∈ x.endCross, 0 ≤ m
  cross : ∀ s, 0 ≤ x.cross s
  crossLo : ∀ s, x.crossLo ≤ x.cross s
  baseline : x.alignSelf ≠ .firstBaseline

end Verif.Flex.Spec
