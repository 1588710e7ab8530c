import Verif.Transform.Model

/-!
# Drawings (SVG)

Model of layout/svg.cpp, of the SVG fragments of layout/base/fragment.cpp 189–341, of the painting
of drawings (layout/paint.cpp 130–300, 600–627) and of the reading of their attributes
(props/svg.cpp, props/sizing.cpp 80–84).

Numbers are exact rationals: neither the rounding of `f64` nor that of `Au` (1/64 px) is modelled.
The outline of a `path` (`Math::Path::fromSvg`, Karm) is given by the rectangle that bounds it.
`foreignObject` is laid out as a box of its size, without contents.
-/

namespace Verif.Svg
open Verif.Values Verif.Short Verif.Transform

/-- What stops a layout: `unwrap` of another alternative, or a division by zero, which makes an
infinite or undefined number. -/
inductive Fail where
  | panic | infinite
  deriving DecidableEq, Repr

/-! ## Values -/

/-- `SvgViewBox`, values/svg.cpp 56–65. -/
structure ViewBox where
  minX : Rat
  minY : Rat
  width : Rat
  height : Rat
  deriving DecidableEq, Repr

/-- `c.skip(Css::Token::COMMA)` -/
def skipOne : List Tok → List Tok
  | .comma :: r => r
  | l => l

/-- `SvgViewBoxProperty::Registration::parse`, props/svg.cpp 360–375. -/
def parseViewBox (l : List Tok) : Out ViewBox :=
  match parseNumber l with
  | (none, r) => (none, r)
  | (some x, r) =>
    match parseNumber (skipOne r) with
    | (none, r) => (none, r)
    | (some y, r) =>
      match parseNumber (skipOne r) with
      | (none, r) => (none, r)
      | (some w, r) =>
        match parseNumber (skipOne r) with
        | (none, r) => (none, r)
        | (some h, r) => (some ⟨x, y, w, h⟩, r)

/-- White space at the top is dropped by `consumeDeclarationValue`, css/parser.cpp. -/
def dropWs : List Tok → List Tok
  | [] => []
  | .ws :: r => dropWs r
  | t :: r => t :: dropWs r

/-- `Property::Registration::parsePresentationAttribute`, props/base.cpp 184–190: the value is what
the parser makes of the text; what is left is not looked at. -/
def presented (p : List Tok → Out α) (l : List Tok) : Option α := (p (dropWs l)).1

/-- The attribute `viewBox`. -/
def viewBoxAttr (l : List Tok) : Option ViewBox := presented parseViewBox l

/-- The tokens of a text with `px` behind it, as `Io::format("{}px", style)` makes it: the letters
join a number or a unit that stands at the end of the text, and are a word of their own
otherwise. -/
def withPx : List Tok → List Tok
  | [] => [.ident "px".toList]
  | [.number s] => [.dim (s ++ "px".toList)]
  | [.dim s] => [.dim (s ++ "px".toList)]
  | [.ident s] => [.ident (s ++ "px".toList)]
  | [t] => [t, .ident "px".toList]
  | t :: u :: r => t :: withPx (u :: r)

/-- The attributes `x`, `y`, `cx`, `cy`, `r` and `stroke-width`, props/svg.cpp 37–43, 79–85,
121–127, 163–169, 205–211 and 567–577. -/
def lengthAttr (l : List Tok) : Option PL := presented parsePL (withPx l)

/-- `Size`, values/sizing.cpp 59. -/
inductive Size where
  | auto | minContent | maxContent
  | calc (c : Calc)
  | fit (v : PL)
  deriving DecidableEq, Repr

/-- The parser of `Size`: the alternatives in order. -/
def parseSize (l : List Tok) : Out Size :=
  match skipAny [("auto", Size.auto)] l with
  | some (v, r) => (some v, r)
  | none =>
    match parseCalc l with
    | (some c, r) => (some (.calc c), r)
    | (none, l1) =>
      match skipAny [("min-content", Size.minContent), ("max-content", .maxContent)] l1 with
      | some (v, r) => (some v, r)
      | none =>
        match parseFit l1 with
        | (some v, r) => (some (.fit v), r)
        | (none, r) => (none, r)

/-- The attributes `width` and `height`, props/sizing.cpp 80–84, 125–129: the text as it is, and if
that is no size, with `px` behind it. -/
def sizeAttr (l : List Tok) : Option Size :=
  match presented parseSize l with
  | some v => some v
  | none => presented parseSize (withPx l)

/-! ## Lengths -/

/-- `extractValueFromCalc`, layout/svg.cpp 18–27: `unwrap` of a `calc()` of one number stops the
program. -/
def extractValue : Calc → Except Fail (Option PL)
  | .one (.val v) => .ok (some v)
  | .one (.num _) => .error .panic
  | .two .. => .ok none

/-- `fromSize`, layout/svg.cpp 30–36: all but `auto` is unwrapped as a `calc()`. -/
def fromSize : Size → Except Fail PL
  | .auto => .ok (.percent 100)
  | .calc c =>
    match extractValue c with
    | .error e => .error e
    | .ok v => .ok (v.getD (.percent 100))
  | _ => .error .panic

/-- `Layout::resolve`, layout/svg.cpp 40–44. -/
def resolve (v : PL) (relative : Rat) : Rat :=
  match v with
  | .length (.abs v u) => pixels v u
  | .length (.rel _ _) => 0
  | .percent p => relative * (p / 100)

/-! ## Elements and fragments -/

/-- `TransformBox`, values/transform.cpp 118–134. -/
inductive RefBox where
  | content | border | fill | stroke | view
  deriving DecidableEq, Repr

/-- What is used of the style of an element. -/
structure Style where
  x : PL := .length (.abs 0 .px)
  y : PL := .length (.abs 0 .px)
  cx : PL := .length (.abs 0 .px)
  cy : PL := .length (.abs 0 .px)
  r : PL := .length (.abs 0 .px)
  strokeWidth : PL := .length (.abs 1 .px)
  width : Size := .auto
  height : Size := .auto
  viewBox : Option ViewBox := none
  /-- `none` is the keyword `none` -/
  transform : Option (List Fn) := none
  origin : OffX × OffY := (.calc noLength, .calc noLength)
  box : RefBox := .view

/-- The boxes of a drawing (layout/builder/mod.cpp 374–408). -/
inductive El where
  | rect (s : Style)
  | circle (s : Style)
  /-- with the rectangle that bounds the path -/
  | path (s : Style) (bound : Rect)
  | group (s : Style) (children : List El)
  | root (s : Style) (children : List El)
  | foreign (s : Style)

/-- `SvgShapeFragment`, `SvgGroupFragment`, `SvgRootFragment` and the `BoxFragment` of a
`foreignObject`, layout/base/fragment.cpp 189–341. -/
inductive Frag where
  | rect (s : Style) (r : Rect) (stroke : Rat)
  | circle (s : Style) (cx cy r : Rat) (stroke : Rat)
  | path (s : Style) (bound : Rect) (stroke : Rat)
  | group (s : Style) (children : List Frag)
  | root (s : Style) (m : Mat) (box : Rect) (children : List Frag)
  | foreign (s : Style) (box : Rect)

/-! ## Layout -/

/-- `_resolveRectangle`, layout/svg.cpp 109–116. -/
def resolveRectangle (s : Style) (rel : Pt) : Except Fail Rect :=
  match fromSize s.width, fromSize s.height with
  | .ok w, .ok h => .ok ⟨resolve s.x rel.1, resolve s.y rel.2, resolve w rel.1, resolve h rel.2⟩
  | .error e, _ => .error e
  | _, .error e => .error e

/-- `_computeEquivalentTransformOfSVGViewport`, layout/svg.cpp 212–270; `preserveAspectRatio` is
not implemented there. -/
def viewportTransform (o : Order) (vb : ViewBox) (pos size : Pt) : Except Fail Mat :=
  if vb.width = 0 ∨ vb.height = 0 then .error .infinite else
  let sx := size.1 / vb.width
  let sy := size.2 / vb.height
  let s := if sx ≤ sy then sx else sy
  let tx := pos.1 - vb.minX * s + (size.1 - vb.width * s) / 2
  let ty := pos.2 - vb.minY * s + (size.2 - vb.height * s) / 2
  .ok ((Mat.translate tx ty).add o (.scale s s))

/-- `_resolvePercentageRelative`, layout/svg.cpp 93–103.  Without a view box the transform is a
translation, so that its inverse leaves the size, a vector, as it is. -/
def percentageBase (vb : Option ViewBox) (size : Pt) : Pt :=
  match vb with
  | some vb => (vb.width, vb.height)
  | none => size

/-- The transform of a root, layout/svg.cpp 273–277. -/
def rootTransform (o : Order) (vb : Option ViewBox) (pos size : Pt) : Except Fail Mat :=
  match vb with
  | some vb => viewportTransform o vb pos size
  | none => .ok (.translate pos.1 pos.2)

mutual
/-- `_commitElement` and `_commitShape`, layout/svg.cpp 126–204, and `_commitRoot`, 272–288.  `diag` is
`normalizedDiagonal`, 46–50, which needs a square root. -/
def commit (o : Order) (diag : Pt → Rat) (rel : Pt) : El → Except Fail Frag
  | .rect s =>
    match resolveRectangle s rel with
    | .ok r => .ok (.rect s r (resolve s.strokeWidth (diag rel)))
    | .error e => .error e
  | .circle s =>
    .ok (.circle s (resolve s.cx rel.1) (resolve s.cy rel.2) (resolve s.r rel.1)
      (resolve s.strokeWidth (diag rel)))
  | .path s bound => .ok (.path s bound (resolve s.strokeWidth (diag rel)))
  | .group s cs =>
    match commitAll o diag rel cs with
    | .ok fs => .ok (.group s fs)
    | .error e => .error e
  | .root s cs =>
    match resolveRectangle s rel with
    | .error e => .error e
    | .ok r =>
      match rootTransform o s.viewBox (r.x, r.y) (r.width, r.height) with
      | .error e => .error e
      | .ok m =>
        match commitAll o diag (percentageBase s.viewBox (r.width, r.height)) cs with
        | .error e => .error e
        | .ok fs => .ok (.root s m r fs)
  | .foreign s =>
    match resolveRectangle s rel with
    | .ok r => .ok (.foreign s r)
    | .error e => .error e
/-- `_commitChildren`, layout/svg.cpp 206–209. -/
def commitAll (o : Order) (diag : Pt → Rat) (rel : Pt) : List El → Except Fail (List Frag)
  | [] => .ok []
  | e :: es =>
    match commit o diag rel e with
    | .error x => .error x
    | .ok f =>
      match commitAll o diag rel es with
      | .error x => .error x
      | .ok fs => .ok (f :: fs)
end

/-- `_commitRoot` of the root of a drawing, layout/svg.cpp 272–288. -/
def commitRoot (o : Order) (diag : Pt → Rat) (s : Style) (cs : List El) (pos size : Pt) :
    Except Fail Frag :=
  match rootTransform o s.viewBox pos size with
  | .error e => .error e
  | .ok m =>
    match commitAll o diag (percentageBase s.viewBox size) cs with
    | .error e => .error e
    | .ok fs => .ok (.root s m ⟨pos.1, pos.2, size.1, size.2⟩ fs)

/-! ## The size of a drawing -/

/-- The lambda `absoluteValue` of `intrinsicAspectRatio`, layout/svg.cpp 60–75. -/
def absoluteValue : Size → Except Fail (Option Length)
  | .calc c =>
    match extractValue c with
    | .error e => .error e
    | .ok (some (.length l)) => .ok (some l)
    | .ok _ => .ok none
  | _ => .ok none

/-- `unwrapOr<AbsoluteLength>(0_au).pixels()` -/
def absPixels : Length → Rat
  | .abs v u => pixels v u
  | .rel _ _ => 0

/-- A quotient; `infinite` if it divides by zero. -/
inductive Ratio where
  | of (q : Rat)
  | infinite
  deriving DecidableEq, Repr

def ratio (a b : Rat) : Ratio := if b = 0 then .infinite else .of (a / b)

/-- `intrinsicAspectRatio`, layout/svg.cpp 57–91. -/
def aspectRatio (vb : Option ViewBox) (w h : Size) : Except Fail (Option Ratio) :=
  match absoluteValue w, absoluteValue h with
  | .error e, _ => .error e
  | _, .error e => .error e
  | .ok (some w), .ok (some h) => .ok (some (ratio (absPixels w) (absPixels h)))
  | .ok _, .ok _ => .ok (vb.map fun vb => ratio vb.width vb.height)

/-- The height that goes with a width; what becomes of infinite numbers is not modelled. -/
def heightFor (w : Rat) : Ratio → Except Fail Rat
  | .of q => if q = 0 then .error .infinite else .ok (w / q)
  | .infinite => .error .infinite

/-- The width that goes with a height. -/
def widthFor (h : Rat) : Ratio → Except Fail Rat
  | .of q => .ok (h * q)
  | .infinite => .error .infinite

/-- `_defaultSizing`, layout/svg.cpp 292–313. -/
def defaultSizing (known : Option Rat × Option Rat) (ratio : Option Ratio) (dflt : Pt) :
    Except Fail Pt :=
  match known, ratio with
  | (some w, some h), _ => .ok (w, h)
  | (some w, none), some q => (heightFor w q).map fun h => (w, h)
  | (some w, none), none => .ok (w, dflt.2)
  | (none, some h), some q => (widthFor h q).map fun w => (w, h)
  | (none, some h), none => .ok (dflt.1, h)
  | (none, none), some q => (heightFor dflt.1 q).map fun h => (dflt.1, h)
  | (none, none), none => .ok dflt

/-- `SvgFormatingContext::run`, layout/svg.cpp 315–349, without the breaking of pages. -/
def run (o : Order) (diag : Pt → Rat) (s : Style) (cs : List El) (known : Option Rat × Option Rat)
    (containing pos : Pt) : Except Fail Frag :=
  match aspectRatio s.viewBox s.width s.height with
  | .error e => .error e
  | .ok ratio =>
    match defaultSizing known ratio containing with
    | .error e => .error e
    | .ok size => commitRoot o diag s cs pos size

/-! ## Bounding boxes -/

/-- `Math::Rect::mergeWith` (Karm): the smallest rectangle around both. -/
def merge (a b : Rect) : Rect :=
  let x0 := if a.x ≤ b.x then a.x else b.x
  let y0 := if a.y ≤ b.y then a.y else b.y
  let x1 := if a.x + a.width ≤ b.x + b.width then b.x + b.width else a.x + a.width
  let y1 := if a.y + a.height ≤ b.y + b.height then b.y + b.height else a.y + a.height
  ⟨x0, y0, x1 - x0, y1 - y0⟩

/-- `Math::Rect::grow` (Karm). -/
def grow (r : Rect) (d : Rat) : Rect := ⟨r.x - d, r.y - d, r.width + 2 * d, r.height + 2 * d⟩

/-- The loop of `SvgGroupFragment::objectBoundingBox`, layout/base/fragment.cpp 245–252. -/
def mergeAll (b : Rect) (bs : List Rect) : Rect := bs.foldl merge b

/-- The rectangle `{}`. -/
def empty : Rect := ⟨0, 0, 0, 0⟩

mutual
/-- `objectBoundingBox`, layout/base/fragment.cpp 34–36, 196–202, 245–252, 307–309; that of a box is
its border box. -/
def objectBox : Frag → Rect
  | .rect _ r _ => r
  | .circle _ cx cy r _ => ⟨cx - r, cy - r, 2 * r, 2 * r⟩
  | .path _ b _ => b
  | .group _ cs =>
    match objectBoxes cs with
    | [] => empty
    | b :: bs => mergeAll b bs
  | .root _ _ b _ => b
  | .foreign _ b => b
def objectBoxes : List Frag → List Rect
  | [] => []
  | f :: fs => objectBox f :: objectBoxes fs
end

mutual
/-- `strokeBoundingBox`, layout/base/fragment.cpp 39–41, 204–206, 254–261, 311–313. -/
def strokeBox : Frag → Rect
  | .rect _ r w => grow r (w / 2)
  | .circle _ cx cy r w => grow ⟨cx - r, cy - r, 2 * r, 2 * r⟩ (w / 2)
  | .path _ b w => grow b (w / 2)
  | .group _ cs =>
    match strokeBoxes cs with
    | [] => empty
    | b :: bs => mergeAll b bs
  | .root _ _ b _ => b
  | .foreign _ b => b
def strokeBoxes : List Frag → List Rect
  | [] => []
  | f :: fs => strokeBox f :: strokeBoxes fs
end

/-! ## Painting -/

/-- `_resolveTransformReferenceSVG`, layout/paint.cpp 607–627. -/
def reference (obj stroke view : Rect) : RefBox → Rect
  | .content => obj
  | .border => stroke
  | .fill => obj
  | .stroke => stroke
  | .view => view

/-- `_applyTransformIfNeeded`, layout/paint.cpp 140–149: the matrix of an element, `none` if it
divides by zero. -/
def elementMatrix (t : Trig) (s : Style) (obj stroke view : Rect) : Option Mat :=
  match s.transform with
  | none => some .identity
  | some fs => applyTransform t (reference obj stroke view s.box) s.origin fs

/-- The view box that painting hands to the children of a root, layout/paint.cpp 284–295. -/
def paintBox (s : Style) (box : Rect) : Rect :=
  match s.viewBox with
  | some vb => ⟨0, 0, vb.width, vb.height⟩
  | none => box

mutual
/-- `_paintSVGElement` and `_paintSVGAggregate`, layout/paint.cpp 243–282: for each shape, the matrix
under which it is drawn: its own transform, then those of all it is in.  `foreignObject`s are left
out. -/
def paintEl (t : Trig) (view : Rect) (outer : Mat) : Frag → Option (List (Frag × Mat))
  | .rect s r w => do
    let m ← elementMatrix t s (objectBox (.rect s r w)) (strokeBox (.rect s r w)) view
    some [(.rect s r w, m.multiply outer)]
  | .circle s cx cy r w => do
    let m ← elementMatrix t s (objectBox (.circle s cx cy r w)) (strokeBox (.circle s cx cy r w)) view
    some [(.circle s cx cy r w, m.multiply outer)]
  | .path s b w => do
    let m ← elementMatrix t s (objectBox (.path s b w)) (strokeBox (.path s b w)) view
    some [(.path s b w, m.multiply outer)]
  | .group s cs => do
    let m ← elementMatrix t s (objectBox (.group s cs)) (strokeBox (.group s cs)) view
    paintAll t view (m.multiply outer) cs
  | .root s rm b cs => do
    let m ← elementMatrix t s b b view
    paintAll t (paintBox s b) (rm.multiply (m.multiply outer)) cs
  | .foreign _ _ => some []
def paintAll (t : Trig) (view : Rect) (outer : Mat) : List Frag → Option (List (Frag × Mat))
  | [] => some []
  | f :: fs => do
    let a ← paintEl t view outer f
    let b ← paintAll t view outer fs
    some (a ++ b)
end

/-- `_paintSVGRoot` of the root of a drawing, layout/paint.cpp 284–299. -/
def paintRoot (t : Trig) : Frag → Option (List (Frag × Mat))
  | .root s m b cs => paintAll t (paintBox s b) m cs
  | _ => none

/-- `_paintSvgRectangle`, layout/paint.cpp 187–215: the rectangle of the `Scene::Box`, and the width of
its borders. -/
def rectangleBox (r : Rect) (stroke : Option Rat) : Rect × Rat :=
  match stroke with
  | some w => (⟨r.x - w / 2, r.y - w / 2, r.width + w, r.height + w⟩, w)
  | none => (r, 0)

end Verif.Svg
