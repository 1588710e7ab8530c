/-!
# Sizes of images and the horizontal direction of block layout: model

`layout/base/sizing.cpp`, `layout/base/layout-impl.cpp` 64–219, `layout/block.cpp` 161–232 and 325–378,
`layout/positioned.cpp`. All paths are relative to `src/vaev-engine`.

Lengths (`Au`) are `Int`, in the smallest unit. A length or percentage (`CalcValue<PercentOr<Length>>`) is the
function that `resolve` makes of it: from the length percentages refer to, to a length. Quotients of lengths are
floating point numbers in the code; here they are exact, and a product with one is rounded down.
-/
namespace Verif.Sizing

/-- A length, a percentage or a mixture. -/
abbrev Len := Int → Int

/-- `x * (a / b)`. -/
def scale (x a b : Int) : Int := x * a / b

/-- Karm `clamp(x, lo, hi)`, taken as `max(lo, min(x, hi))`. -/
def clamp (x lo hi : Int) : Int := max lo (min x hi)

/-! ## Images -/

/-- `min-width` and so on, resolved: `none` for values that are no lengths. -/
structure Bounds where
  minW : Option Int := none
  minH : Option Int := none
  maxW : Option Int := none
  maxH : Option Int := none

/-- `applyReplacedMinMaxSizeConstraints`, `layout/base/sizing.cpp` 72–155. `big` is `Limits<Au>::MAX`;
`specW`, `specH`: width and height are specified. -/
def applyMinMax (big : Int) (b : Bounds) (w h : Int) (specW specH : Bool) : Int × Int :=
  let minW := b.minW.getD 0
  let minH := b.minH.getD 0
  let maxW := max (b.maxW.getD big) minW
  let maxH := max (b.maxH.getD big) minH
  if specW ∧ specH then (clamp w minW maxW, clamp h minH maxH)
  else if specW ∧ ¬specH then (clamp w minW maxW, clamp h minH maxH)
  else if w = 0 ∨ h = 0 then (clamp w minW maxW, clamp h minH maxH)
  else if w > maxW ∧ h < minH then (maxW, minH)
  else if w < minW ∧ h > maxH then (minW, maxH)
  else if w < minW ∧ h < minH then
    if minW * h > minH * w then (minW, min maxH (scale minW h w)) else (min maxW (scale minH w h), minH)
  else if w > maxW ∧ h > maxH then
    if maxW * h > maxH * w then (max minW (scale maxH w h), maxH) else (maxW, max minH (scale maxW h w))
  else if h < minH then (min (scale minH w h) maxW, minH)
  else if h > maxH then (max (scale maxH w h) minW, maxH)
  else if w < minW then (minW, min (scale minW h w) maxH)
  else if w > maxW then (maxW, max (scale maxW h w) minH)
  else (w, h)

/-- `ObjectNaturalDimensions`, `sizing.cpp` 158–161; the ratio as numerator and denominator. -/
structure Natural where
  width : Option Int := none
  height : Option Int := none
  ratio : Option (Int × Int) := none

/-- `resolvePartialSpecifiedSize`, `sizing.cpp` 165–214. `px` is the length of a pixel. -/
def partialSize (px : Int) (n : Natural) : Option Int → Option Int → Option (Int × Int)
  | some w, some h => some (w, h)
  | some w, none =>
    match n.ratio, n.height with
    | some (a, b), _ => some (w, scale w b a)
    | none, some h => some (w, h)
    | none, none => some (w, 150 * px)
  | none, some h =>
    match n.ratio, n.width with
    | some (a, b), _ => some (scale h a b, h)
    | none, some w => some (w, h)
    | none, none => some (300 * px, h)
  | none, none => none

/-- `resolveObjectDefaultSizing`, `sizing.cpp` 164–235. -/
def defaultSize (px : Int) (n : Natural) (w h : Option Int) : Int × Int :=
  match partialSize px n w h with
  | some s => s
  | none =>
    match partialSize px n n.width n.height with
    | some s => s
    | none =>
      match n.ratio with
      | some (a, b) => if 300 * px * b > a * (150 * px) then (scale (150 * px) a b, 150 * px) else (300 * px, scale (300 * px) b a)
      | none => (300 * px, 150 * px)

/-- The size of an image, `layout/replaced.cpp` 27–38. The width and height specified are `resolvePreferredSize`,
`sizing.cpp` 53–68. -/
def imageSize (big px : Int) (natW natH : Int) (b : Bounds) (w h : Option Int) : Int × Int :=
  let n : Natural := { width := some natW, height := some natH, ratio := some (natW, natH) }
  let t := defaultSize px n w h
  applyMinMax big b t.1 t.2 w.isSome h.isSome

/-! ## Borders -/

/-- `_snapLengthAsBorderWidth`, `layout/base/layout-impl.cpp` 82–86; Karm `floor` and `ceil` round to whole
pixels of `px` units. -/
def snapBorder (px v : Int) : Int := if v < px then -((-v) / px) * px else v / px * px

/-! ## Margins and paddings -/

/-- The four sides. -/
structure Sides (α : Type) where
  top : α
  end_ : α
  bottom : α
  start : α

/-- `computeMargins`, `layout-impl.cpp` 65–79: `auto` (`none`) resolves to zero. `tableInternal`:
`display.isTableInternal()`. -/
def computeMargins (tableInternal : Bool) (m : Sides (Option Len)) (cbW cbH : Int) : Sides Int :=
  if tableInternal then ⟨0, 0, 0, 0⟩
  else
    { top := (m.top.map (· cbH)).getD 0
      end_ := (m.end_.map (· cbW)).getD 0
      bottom := (m.bottom.map (· cbH)).getD 0
      start := (m.start.map (· cbW)).getD 0 }

/-- `computePaddings`, `layout-impl.cpp` 112–126. -/
def computePaddings (tableInternal tableCell : Bool) (p : Sides Len) (cbW : Int) : Sides Int :=
  if tableInternal && !tableCell then ⟨0, 0, 0, 0⟩
  else { top := p.top cbW, end_ := p.end_ cbW, bottom := p.bottom cbW, start := p.start cbW }

/-! ## Widths in block layout -/

/-- `width`. -/
inductive Width where
  | auto
  | len (l : Len)
  /-- `min-content`, `max-content`: the width of the content -/
  | content (w : Int)
  /-- `fit-content`: stretched, min-content and max-content width -/
  | fit (stretch lo hi : Int)

/-- `computeSpecifiedBorderBoxWidth`, `layout-impl.cpp` 164–191. `edges` are borders and paddings. -/
def specifiedWidth (contentBox : Bool) (cbW edges : Int) : Width → Option Int
  | .len l => some (l cbW + if contentBox then edges else 0)
  | .content w => some (w + edges)
  | .fit s lo hi => some (clamp s lo hi + edges)
  | .auto => none

/-- `display` of a child, as far as `_populateChildSpecifiedSizes` distinguishes: an ordinary box, a table
wrapper with its fit-content width (`none` if the table has a width), a table box. -/
inductive Kind where
  | plain
  | wrapper (fit : Option Int)
  | tableBox

/-- A child in normal flow, horizontally. Minimum and maximum widths are kept with it to show that they are
not looked at. -/
structure Child where
  kind : Kind := .plain
  marginStart : Option Len := some fun _ => 0
  marginEnd : Option Len := some fun _ => 0
  /-- borders and paddings, resolved -/
  edges : Int := 0
  width : Width := .auto
  minWidth : Option Len := none
  maxWidth : Option Len := none
  contentBox : Bool := true
  /-- `isRemovedFromFlow` -/
  removed : Bool := false
  /-- `position: relative`: `left` and `right` -/
  rel : Option (Option Len × Option Len) := none
  /-- the width it takes if its width is not known -/
  natural : Int := 0

/-- `_populateChildSpecifiedSizes`, `layout/block.cpp` 161–198, the width; for `intrinsic == AUTO`. `block` is
the width of the block, `margins` the sum of the margins, `cbParent` and `cb` the widths of the containing
blocks of the parent and of the child. -/
def knownWidth (c : Child) (block : Option Int) (margins cbParent cb : Int) : Option Int :=
  let cb := match c.kind with | .tableBox => cbParent | _ => cb
  match c.width with
  | .auto =>
    match c.kind with
    | .tableBox => none
    | .wrapper f => block.map fun b => f.getD (b - margins)
    | .plain => block.map fun b => b - margins
  | w => specifiedWidth c.contentBox cb c.edges w

/-- `_resolveAutoHorizontalMargins`, `block.cpp` 206–232. -/
def autoMargins (startAuto endAuto : Bool) (block width : Option Int) (ms me : Int) : Int × Int :=
  if !(startAuto || endAuto) then (ms, me)
  else
    match block, width with
    | some b, some w =>
      let free := b - w - (ms + me)
      if free ≤ 0 then (ms, me)
      else if startAuto && endAuto then (free / 2, free - free / 2)
      else if startAuto then (free, me)
      else (ms, free)
    | _, _ => (ms, me)

/-- `_negotiateInsetsForRelativePositioning`, `layout/positioned.cpp` 249–271. -/
def relativeInset (start end_ : Option Len) (relativeTo : Int) : Int :=
  match start, end_ with
  | none, none => 0
  | some s, none => s relativeTo
  | none, some e => -(e relativeTo)
  | some s, some _ => s relativeTo

/-- Where a child stands: its border box, its margins and the known width. -/
structure Placed where
  x : Int
  width : Int
  ms : Int
  me : Int
  known : Option Int
  deriving DecidableEq

/-- One child, `block.cpp` 325–380. `inline` is `inlineSize`. `block.cpp` 366–374 (centred blocks, list markers)
are left out; the width it is laid out with is the known one if there is one. -/
def placeChild (x : Int) (block : Option Int) (cbParent inline : Int) (c : Child) : Placed :=
  let ms := (c.marginStart.map (· inline)).getD 0
  let me := (c.marginEnd.map (· inline)).getD 0
  let w := knownWidth c block (ms + me) cbParent inline
  let m := if c.removed then (ms, me) else autoMargins c.marginStart.isNone c.marginEnd.isNone block w ms me
  let off := match c.rel with | none => 0 | some (s, e) => relativeInset s e cbParent
  { x := x + m.1 + off, width := w.getD c.natural, ms := m.1, me := m.2, known := w }

/-- The loop over the children, `block.cpp` 283–418, with `inlineSize` as it grows at 417. -/
def placeFrom (x : Int) (block : Option Int) (cbParent : Int) : Int → List Child → List Placed
  | _, [] => []
  | inline, c :: rest =>
    let p := placeChild x block cbParent inline c
    p :: placeFrom x block cbParent (max inline (p.width + (p.ms + p.me))) rest

/-- The children of a block of known width `block` (content box), `block.cpp` 262–281. -/
def placeAll (x : Int) (block : Option Int) (cbParent : Int) (l : List Child) : List Placed :=
  placeFrom x block cbParent (block.getD 0) l

/-! ## Absolutely positioned boxes, one direction -/

/-- `justify-self` and `align-self`, as far as distinguished. -/
inductive Align where
  /-- `self-start`, `auto`, `normal`, `stretch` -/
  | start
  | end_
  | center
  | other
  deriving DecidableEq

/-- The containing block (`at_`, `size`), what percentages refer to (the viewport for fixed boxes), the static
position rectangle. -/
structure Frame where
  at_ : Int
  size : Int
  relativeTo : Int
  staticAt : Int
  staticSize : Int

/-- `_computeInsetModifiedContainingBlock`, `positioned.cpp` 12–133, one direction: the insets used. -/
def usedInsets (f : Frame) (al : Align) (start end_ : Option Len) : Int × Int :=
  match start, end_ with
  | none, none =>
    match al with
    | .start => (f.staticAt - f.at_, 0)
    | .end_ => (0, f.at_ + f.size - (f.staticAt + f.staticSize))
    | .center =>
      let c := f.staticAt + f.staticSize / 2
      let sd : Int := (c - f.at_).natAbs
      let ed : Int := (c - (f.at_ + f.size)).natAbs
      if sd ≤ ed then (0, f.size - sd * 2) else (f.size - ed * 2, 0)
    | .other => (0, 0)
  | _, _ => ((start.map (· f.relativeTo)).getD 0, (end_.map (· f.relativeTo)).getD 0)

/-- The border box of an absolutely positioned box: where it begins and its size if it is known. -/
structure AbsBox where
  pos : Int
  size : Option Int
  deriving DecidableEq

/-- `layoutAbsolutePositioned`, `positioned.cpp` 173–246, one direction. `spec` is
`computeSpecifiedBorderBoxWidth` or `…Height`. `RectAu::shrink` moves the edges by the insets. -/
def absolute (f : Frame) (al : Align) (start end_ : Option Len) (spec : Option Int) (ms me : Int) : AbsBox :=
  let i := usedInsets f al start end_
  let availAt := f.at_ + i.1
  let availSize := f.size - i.1 - i.2
  let size := if start.isSome && end_.isSome then some availSize else spec
  let pos :=
    match start, end_, size with
    | none, some _, some s => availAt + availSize - me - s
    | _, _, _ => availAt + ms
  { pos, size }

end Verif.Sizing
