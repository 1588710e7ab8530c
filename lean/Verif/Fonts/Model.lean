import Verif.Values.Model
/-!
# Fonts, font sizes and the lengths that refer to them

`style/computer.cpp` (computing an element's values), `props/base.cpp` (`ComputationContext`), `props/fonts.cpp`,
`values/font.cpp`, `layout/base/values.cpp` (`Resolver`) and `layout/builder/mod.cpp` (the style of a text).

Families, faces, styles and colours are numbers.  The library below (fonts found on the system, metrics, rounding) is
a parameter.
-/
namespace Verif.Fonts
open Verif.Values (Length Ctx resolveLength)

/-- What `Gfx::Font` says of a face at a size.  Karm, not modelled. -/
structure Metrics where
  xHeight : Rat
  capHeight : Rat
  zeroAdvance : Rat
  lineHeight : Rat

/-- `Font::Query` as filled in by `_lookupFontface`, style/computer.cpp 175–179. -/
structure Query where
  weight : Nat
  stretch : Int
  style : Nat
deriving DecidableEq

/-- The parts of Karm that are used, and the viewport (`style/viewport.cpp`). -/
structure Env where
  /-- `Au::fromFloatNearest` -/
  near : Rat → Int
  /-- `Au::cast<f64>` -/
  px : Int → Rat
  /-- `Math::roundi` -/
  round : Rat → Int
  /-- metrics of a face at a size -/
  metrics : Nat → Rat → Metrics
  /-- `_fontDatabase->queryClosest(family, query)` -/
  query : Nat → Query → Option Nat
  /-- `_fontDatabase->queryClosest("system")` -/
  system : Option Nat
  /-- `Gfx::Fontface::fallback()` -/
  fallback : Nat
  /-- `FontWeight::bolder` and `lighter` -/
  bolder : Nat → Nat
  lighter : Nat → Nat
  smallWidth : Rat
  smallHeight : Rat
  largeWidth : Rat
  largeHeight : Rat
  dynamicWidth : Rat
  dynamicHeight : Rat

/-- `FontSize`, values/font.cpp 259–270. -/
inductive Size where
  | length (l : Length) | percent (v : Rat)
  | xxSmall | xSmall | small | medium | large | xLarge | xxLarge | smaller | larger

/-- `FontWeight`, values/font.cpp 190–216. -/
inductive Weight where
  | absolute (n : Nat) | bolder | lighter

/-- `FontProps`, style/computed.cpp 15–21.  `width` is the percentage. -/
structure Font where
  families : List Nat
  weight : Nat
  width : Rat
  style : Nat
  size : Int
deriving DecidableEq

/-- The values of an element that matter here.  Of the properties with lengths, `extent` stands for those that are not
inherited (`width`; none is `auto`), `spacing` for those that are (`border-spacing`, props/border.cpp 1078–1117).
`lineHeight` is a number that multiplies the font size (props/baseline.cpp 17–60; none is `normal`). -/
structure Vals where
  font : Font
  face : Nat
  extent : Option Length
  spacing : Length
  lineHeight : Option Rat

/-- The declarations in force for an element, after the cascade and the expansion of shorthands. -/
structure Decls where
  families : Option (List Nat) := none
  weight : Option Weight := none
  width : Option Rat := none
  style : Option Nat := none
  size : Option Size := none
  extent : Option Length := none
  spacing : Option Length := none
  lineHeight : Option Rat := none

/-- `_lookupFontface`, style/computer.cpp 174–190. -/
def lookup (e : Env) (f : Font) : Nat :=
  let q : Query := ⟨f.weight, e.round (f.width * 10), f.style⟩
  match f.families.findSome? fun n => e.query n q with
  | some face => face
  | none => match e.system with
    | some face => face
    | none => e.fallback

/-- The face an element gets: `_updateFontface`, style/computer.cpp 192–205.  That two fonts are one instance implies that
they are equal, so that test is left out. -/
def updateFace (e : Env) (parent : Vals) (f : Font) : Nat :=
  if parent.font.families ≠ f.families ∨ parent.font.weight ≠ f.weight ∨ parent.font.style ≠ f.style ∨
      parent.font.width ≠ f.width then
    lookup e f
  else parent.face

/-- `populateUsingViewport`, `populateUsingRootComputedValues` and `populateUsingOwnComputedValues`, props/base.cpp
34–71.  `boxAxis` keeps its default (values/length.cpp 104). -/
def context (e : Env) (root own : Vals) : Ctx :=
  let o := e.metrics own.face (e.px own.font.size)
  let r := e.metrics root.face (e.px root.font.size)
  { fontSize := e.px own.font.size, xHeight := o.xHeight, capHeight := o.capHeight, zeroAdvance := o.zeroAdvance,
    lineHeight := o.lineHeight,
    rootFontSize := e.px root.font.size, rootXHeight := r.xHeight, rootCapHeight := r.capHeight,
    rootZeroAdvance := r.zeroAdvance, rootLineHeight := r.lineHeight,
    smallWidth := e.smallWidth, smallHeight := e.smallHeight, largeWidth := e.largeWidth, largeHeight := e.largeHeight,
    dynamicWidth := e.dynamicWidth, dynamicHeight := e.dynamicHeight, horizontal := true }

/-- `resolve(FontSize, ctx)`, values/font.cpp 288–327; `user` and `parent` are `userFontSize` and `parentFontSize`. -/
def resolveSize (e : Env) (c : Ctx) (user parent : Rat) : Size → Int
  | .length l => resolveLength e.near c l
  | .percent v => e.near (parent * (v / 100))
  | .xxSmall => e.near (user * (1 / 2))
  | .xSmall => e.near (user * (3 / 4))
  | .small => e.near (user * (7 / 8))
  | .medium => e.near user
  | .large => e.near (user * (9 / 8))
  | .xLarge => e.near (user * (5 / 4))
  | .xxLarge => e.near (user * (3 / 2))
  | .larger => e.near (parent * (5 / 4))
  | .smaller => e.near (parent * (7 / 8))

/-- `FontWeight::resolve(parent)`, values/font.cpp 207–215. -/
def resolveWeight (e : Env) (parent : Nat) : Weight → Nat
  | .absolute n => n
  | .bolder => e.bolder parent
  | .lighter => e.lighter parent

/-- The initial values, props/base.cpp 682–692 and the `initial()` of each property.  Family 0 is `sans-serif`, weight 400
is `REGULAR`, style 0 is `NORMAL`; the size is that of `medium` in an empty context, whose `userFontSize` is 16
(values/font.cpp 278–281).  The face is that of `ComputedValues()`, style/computed.cpp 82. -/
def initial (e : Env) : Vals :=
  { font := ⟨[0], 400, 100, 0, e.near 16⟩, face := e.fallback, extent := none, spacing := .abs 0 .px, lineHeight := none }

/-- `inheritsComputedValues`, props/base.cpp 697–715: the properties of fonts, `border-spacing` and `line-height` are
inherited; the face is not a property. -/
def inherits (e : Env) (parent : Vals) : Vals :=
  { initial e with font := parent.font, spacing := parent.spacing, lineHeight := parent.lineHeight }

/-- `computeValues`, style/computer.cpp 354–396.  `root` holds the values of the root element, or nothing while these are
computed.  Font properties are applied in a context where the own values are the parent's, and each of them sets
its own field (props/fonts.cpp), the others after the face has been found; they keep their lengths as written. -/
def compute (e : Env) (root : Option Vals) (parent : Vals) (d : Decls) : Vals :=
  let values := inherits e parent
  let rootVals := match root with
    | some r => r
    | none => values
  let cx := context e rootVals parent
  let font : Font :=
    { families := d.families.getD values.font.families
      weight := match d.weight with
        | some w => resolveWeight e parent.font.weight w
        | none => values.font.weight
      width := d.width.getD values.font.width
      style := d.style.getD values.font.style
      size := match d.size with
        | some s => resolveSize e cx 16 (e.px parent.font.size) s
        | none => values.font.size }
  { font := font
    face := updateFace e parent font
    extent := match d.extent with
      | some l => some l
      | none => values.extent
    spacing := d.spacing.getD values.spacing
    lineHeight := match d.lineHeight with
      | some n => some n
      | none => values.lineHeight }

/-- An element: its declarations, those of its pseudo-elements, its child elements. -/
inductive El where
  | mk (d : Decls) (pseudo : List Decls) (kids : List El)

/-- An element that has been styled. -/
inductive Styled where
  | mk (d : Decls) (v : Vals) (pseudo : List (Decls × Vals)) (kids : List Styled)

def Styled.vals : Styled → Vals
  | .mk _ v _ _ => v

mutual
/-- `styleElement`, style/computer.cpp 434–448 (which pseudo-elements are made is the subject of `Verif.Doc`). -/
def styleElement (e : Env) (root : Option Vals) (parent : Vals) : El → Styled
  | .mk d ps ks =>
    let v := compute e root parent d
    let r := match root with
      | some r => r
      | none => v
    .mk d v (ps.map fun p => (p, compute e (some r) v p)) (styleKids e r v ks)

def styleKids (e : Env) (root parent : Vals) : List El → List Styled
  | [] => []
  | k :: ks => styleElement e (some root) parent k :: styleKids e root parent ks
end

/-- What the root element inherits from: the initial values with their face, style/computer.cpp 502–503. -/
def initialStyled (e : Env) : Vals := { initial e with face := lookup e (initial e).font }

/-- `styleDocument`, style/computer.cpp 495–515, for the root element. -/
def styleDocument (e : Env) (el : El) : Styled := styleElement e none (initialStyled e) el

/-! ## During layout -/

/-- `Resolver::from(tree, box)`, layout/base/values.cpp 16–44.  The root font has size 16. -/
def resolver (e : Env) (root box : Vals) : Ctx :=
  let o := e.metrics box.face (e.px box.font.size)
  let r := e.metrics root.face 16
  { fontSize := e.px box.font.size, xHeight := o.xHeight, capHeight := o.capHeight, zeroAdvance := o.zeroAdvance,
    lineHeight := o.lineHeight,
    rootFontSize := 16, rootXHeight := r.xHeight, rootCapHeight := r.capHeight,
    rootZeroAdvance := r.zeroAdvance, rootLineHeight := r.lineHeight,
    smallWidth := e.smallWidth, smallHeight := e.smallHeight, largeWidth := e.largeWidth, largeHeight := e.largeHeight,
    dynamicWidth := e.dynamicWidth, dynamicHeight := e.dynamicHeight, horizontal := true }

/-- `resolve(tree, box, Length)`, layout/base/values.cpp 97–99. -/
def used (e : Env) (root box : Vals) (l : Length) : Int := resolveLength e.near (resolver e root box) l

/-- The resolver `{}` of a text: every field is zero. -/
def emptyResolver : Ctx :=
  { fontSize := 0, xHeight := 0, capHeight := 0, zeroAdvance := 0, lineHeight := 0, rootFontSize := 0, rootXHeight := 0,
    rootCapHeight := 0, rootZeroAdvance := 0, rootLineHeight := 0, smallWidth := 0, smallHeight := 0, largeWidth := 0,
    largeHeight := 0, dynamicWidth := 0, dynamicHeight := 0, horizontal := true }

/-- `TextAlign`, values/text.cpp 15–29. -/
inductive TextAlign where
  | start | end' | left | right | center | justify | matchParent | justifyAll | blockCenter
deriving DecidableEq

/-- `WhiteSpace`, values/text.cpp 46–56. -/
inductive WhiteSpace where
  | normal | pre | nowrap | preWrap | breakSpaces | preLine
deriving DecidableEq

/-- `Gfx::TextAlign`, as far as it is set. -/
inductive Side where
  | left | right | center
deriving DecidableEq

/-- `_allowsWrap`, layout/builder/mod.cpp 35–37. -/
def allowsWrap (w : WhiteSpace) : Bool := w = .normal || w = .preWrap || w = .breakSpaces || w = .preLine

/-- `_proseStyleFromStyle`, layout/builder/mod.cpp 39–66.  `ProseStyle` aligns to the left unless told otherwise. -/
def proseAlign : TextAlign → Side
  | .start | .left => .left
  | .end' | .right => .right
  | .center | .blockCenter => .center
  | _ => .left

/-- What a paragraph is laid out from: its style and the values of the text in it.  A margin is none where it is
`auto`. -/
structure TextVals where
  vals : Vals
  colour : Nat
  align : TextAlign
  white : WhiteSpace
  rtl : Bool
  marginStart : Option Length
  marginEnd : Option Length

/-- `Gfx::SpanStyle` and the alignment of `Gfx::ProseStyle`. -/
structure Text where
  face : Nat
  size : Rat
  colour : Nat
  marginLeft : Int
  marginRight : Int
  wrap : Bool
  align : Side
deriving DecidableEq

/-- `Resolver::resolve(Width, Au)` of the empty resolver for a length, layout/base/values.cpp 58–62. -/
def spanMargin (e : Env) : Option Length → Int
  | none => 0
  | some l => resolveLength e.near emptyResolver l

/-- `_spanStyleFromStyle` and `_proseStyleFromStyle`, layout/builder/mod.cpp 39–82. -/
def textStyle (e : Env) (t : TextVals) : Text :=
  { face := t.vals.face, size := e.px t.vals.font.size, colour := t.colour,
    marginLeft := spanMargin e t.marginStart, marginRight := spanMargin e t.marginEnd,
    wrap := allowsWrap t.white, align := proseAlign t.align }

end Verif.Fonts
