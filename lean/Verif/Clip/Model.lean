import Verif.Short.Model

/-!
# Clip: `clip-path`

Model of the shape functions of `values/basic-shape.cpp` other than `circle()` (which is in
`Short/Model.lean`), of `clip-path` (`props/visibility.cpp`), and of what is made of them when a
box is painted (`layout/paint.cpp`, `_applyClip`).

Simplified: coordinates are exact (the code rounds to 1/64 px and to binary floats); a `calc()`
that divides by zero has no outline here; the text of a `path()` is not drawn, only moved, and
whether Karm accepts it is a parameter; that an accepted one has a contour, without which
`last(…)` panics, is assumed.
-/

namespace Verif.Clip
open Verif.Values Verif.Short

/-! ## Reading -/

/-- `FillRule`, values/basic-shape.cpp 38–40, as `fillRuleToGfx` (42–51) has it. -/
inductive Rule where
  | nonzero | evenodd
  deriving DecidableEq, Repr

/-- `BasicShapeFunction`, values/basic-shape.cpp 409–410, with the structures 106–108, 154–156,
201–203, 250–252, 299–301 and 355–357.  The radii of a corner are lengths or percentages. -/
inductive Shape where
  | circle (c : Circle)
  | ellipse (rx ry : Radius) (p : Position)
  | inset (i : Sides Calc) (r : Radii)
  | path (rule : Rule) (texts : List (List Char))
  | polygon (rule : Rule) (points : List (Calc × Calc))
  | rect (i : Sides Calc) (r : Radii)
  | xywh (x y w h : Calc) (r : Radii)
  deriving DecidableEq, Repr

/-- `{Percent(0)}`, values/basic-shape.cpp 156 -/
def noRadii : Radii := .corners (.percent 0) (.percent 0) (.percent 0) (.percent 0)

/-- The radii of an ellipse, values/basic-shape.cpp 126–130: none, or two. -/
def radiiPart (l : List Tok) : Option ((Radius × Radius) × List Tok) :=
  match parseRadius l with
  | (none, l1) => some ((.closestSide, .closestSide), l1)
  | (some rx, l1) =>
    match parseRadius (eatWs l1) with
    | (none, _) => none
    | (some ry, l2) => some ((rx, ry), l2)

/-- `ellipse()`, values/basic-shape.cpp 123–144, the contents. -/
def readEllipse (content : List Tok) : Option Shape :=
  match radiiPart content with
  | none => none
  | some ((rx, ry), l) =>
    match atPosition l with
    | (p, []) => some (.ellipse rx ry p)
    | _ => none

/-- `round` and the radii behind it, values/basic-shape.cpp 179–186 (and 335–342, 388–395): radii
that cannot be read are none. -/
def roundPart (l : List Tok) : Radii × List Tok :=
  match skipIdent "round".toList (eatWs l) with
  | none => (noRadii, eatWs l)
  | some r =>
    match parseRadii (eatWs r) with
    | (some v, r') => (v, eatWs r')
    | (none, r') => (noRadii, eatWs r')

/-- `inset()`, values/basic-shape.cpp 170–192, the contents. -/
def readInset (content : List Tok) : Option Shape :=
  match parseSides parseCalc content with
  | (none, _) => none
  | (some i, l) =>
    match roundPart l with
    | (r, []) => some (.inset i r)
    | _ => none

/-- The parser of `FillRule`, values/basic-shape.cpp 38–40. -/
def parseRule (l : List Tok) : Out Rule :=
  parseKw [("nonzero", .nonzero), ("evenodd", .evenodd)] l

/-- One turn of the loop of `path()`, values/basic-shape.cpp 230–236; `svg` is whether Karm reads
the text. -/
def oneText (svg : List Char → Bool) (l : List Tok) : Option (List Char × List Tok) :=
  match eatWs l with
  | .str s :: r => if svg s then some (s, r) else none
  | _ => none

/-- The loop of `path()` behind its first turn, values/basic-shape.cpp 227–237: a comma, and more
behind it.  `fuel` is at least the number of tokens. -/
def moreTexts (svg : List Char → Bool) : Nat → List Tok → Option (List (List Char))
  | n + 1, .comma :: r =>
    if r.isEmpty then some []
    else match oneText svg r with
    | none => none
    | some (s, l) => (moreTexts svg n l).map (s :: ·)
  | _, _ => some []

/-- `path()`, values/basic-shape.cpp 217–242, the contents: what follows the texts is not looked
at. -/
def readPath (svg : List Char → Bool) (content : List Tok) : Option Shape :=
  match parseRule content with
  | (some rule, l) => (moreTexts svg l.length l).map (.path rule)
  | (none, l) =>
    if l.isEmpty then none
    else match oneText svg l with
    | none => none
    | some (s, l) => (moreTexts svg l.length l).map fun ss => .path .nonzero (s :: ss)

/-- One turn of the loop of `polygon()`, values/basic-shape.cpp 279–284. -/
def onePoint (l : List Tok) : Option ((Calc × Calc) × List Tok) :=
  match parseCalc (eatWs l) with
  | (none, _) => none
  | (some x, l1) =>
    match parseCalc (eatWs l1) with
    | (none, _) => none
    | (some y, l2) => some ((x, y), eatWs l2)

/-- The loop of `polygon()` behind its first turn, values/basic-shape.cpp 276–285.  `fuel` is at
least the number of tokens. -/
def morePoints : Nat → List Tok → Option (List (Calc × Calc))
  | n + 1, .comma :: r =>
    if r.isEmpty then some []
    else match onePoint r with
    | none => none
    | some (p, l) => (morePoints n l).map (p :: ·)
  | _, _ => some []

/-- `if (not result.points)`, values/basic-shape.cpp 287–288. -/
def polygonOf (rule : Rule) : List (Calc × Calc) → Option Shape
  | [] => none
  | ps => some (.polygon rule ps)

/-- `polygon()`, values/basic-shape.cpp 266–291, the contents: what follows the points is not
looked at. -/
def readPolygon (content : List Tok) : Option Shape :=
  match parseRule content with
  | (some rule, l) => (morePoints l.length l).bind (polygonOf rule)
  | (none, l) =>
    if l.isEmpty then none
    else match onePoint l with
    | none => none
    | some (p, l) => (morePoints l.length l).bind fun ps => polygonOf .nonzero (p :: ps)

/-- A side of `rect()`: `auto`, which stands for `d`, or a value, values/basic-shape.cpp
318–320. -/
def side (d : Calc) (l : List Tok) : Option (Calc × List Tok) :=
  match skipIdent "auto".toList (eatWs l) with
  | some r => some (d, r)
  | none =>
    match parseCalc (eatWs l) with
    | (some c, r) => some (c, r)
    | (none, _) => none

/-- `Percent(100)` -/
def full : Calc := .one (.val (.percent 100))

/-- `rect()`, values/basic-shape.cpp 315–346, the contents; the defaults are in 300. -/
def readRect (content : List Tok) : Option Shape :=
  match side zero content with
  | none => none
  | some (t, l) =>
  match side full l with
  | none => none
  | some (r, l) =>
  match side full l with
  | none => none
  | some (b, l) =>
  match side zero l with
  | none => none
  | some (s, l) =>
    match roundPart l with
    | (rs, []) => some (.rect ⟨t, r, b, s⟩ rs)
    | _ => none

/-- `xywh()`, values/basic-shape.cpp 371–399, the contents. -/
def readXywh (content : List Tok) : Option Shape :=
  match parseCalc (eatWs content) with
  | (none, _) => none
  | (some x, l) =>
  match parseCalc (eatWs l) with
  | (none, _) => none
  | (some y, l) =>
  match parseCalc (eatWs l) with
  | (none, _) => none
  | (some w, l) =>
  match parseCalc (eatWs l) with
  | (none, _) => none
  | (some h, l) =>
    match roundPart l with
    | (rs, []) => some (.xywh x y w h rs)
    | _ => none

/-- A function of the given name and what it makes of its contents; `c` stays where it is when
that is nothing, values/basic-shape.cpp 122–147 and the like. -/
def named (name : String) (read : List Tok → Option Shape) : List Tok → Out Shape
  | .func f content :: r =>
    if eqCi f name.toList then
      match read content with
      | some s => (some s, r)
      | none => (none, .func f content :: r)
    else (none, .func f content :: r)
  | l => (none, l)

/-- The first of the parsers that reads something. -/
def firstOf : List (List Tok → Out Shape) → List Tok → Out Shape
  | [], l => (none, l)
  | p :: ps, l =>
    match p l with
    | (some s, r) => (some s, r)
    | (none, l) => firstOf ps l

/-- The parser of `BasicShapeFunction`, values/basic-shape.cpp 409–410: each in turn. -/
def parseShape (svg : List Char → Bool) : List Tok → Out Shape :=
  firstOf [fun l => ((parseCircle l).1.map .circle, (parseCircle l).2),
    named "ellipse(" readEllipse, named "inset(" readInset, named "path(" (readPath svg),
    named "polygon(" readPolygon, named "rect(" readRect, named "xywh(" readXywh]

/-- `GeometryBox`, values/basic-shape.cpp 26–36. -/
inductive GBox where
  | border | padding | content | margin | fill | stroke | view
  deriving DecidableEq, Repr

/-- The parser of `GeometryBox`. -/
def parseBox (l : List Tok) : Out GBox :=
  parseKw [("border-box", .border), ("padding-box", .padding), ("content-box", .content),
    ("margin-box", .margin), ("fill-box", .fill), ("stroke-box", .stroke), ("view-box", .view)] l

/-- `BasicShape`, values/basic-shape.cpp 412–415. -/
structure Clip where
  shape : Option Shape
  box : GBox
  deriving DecidableEq, Repr

/-- `ValueParser<BasicShape>::parse`, values/basic-shape.cpp 422–446. -/
def parseClip (svg : List Char → Bool) (l : List Tok) : Out Clip :=
  if l.isEmpty then (none, l) else
  let b := parseBox l
  let s := parseShape svg b.2
  let b' := if s.1.isSome && b.1.isNone then parseBox s.2 else (b.1, s.2)
  if s.1.isNone && b'.1.isNone then (none, b'.2)
  else (some ⟨s.1, b'.1.getD .border⟩, b'.2)

/-- `ClipPathProperty::Registration::parse`, props/visibility.cpp 101 and 118–120: a shape, or
`none`, which is no clip. -/
def parseClipPath (svg : List Char → Bool) (l : List Tok) : Out (Option Clip) :=
  match parseClip svg l with
  | (some c, r) => (some (some c), r)
  | (none, l) => parseKw [("none", none)] l

/-! ## Painting -/

/-- `RectAu` -/
structure Rect where
  x : Rat
  y : Rat
  w : Rat
  h : Rat
  deriving DecidableEq, Repr

/-- `Rect::shrink` (Karm): each edge moves in by its inset. -/
def Rect.shrink (r : Rect) (i : Sides Rat) : Rect :=
  ⟨r.x + i.left, r.y + i.top, r.w - i.left - i.right, r.h - i.top - i.bottom⟩

/-- `Rect::grow` (Karm). -/
def Rect.grow (r : Rect) (i : Sides Rat) : Rect :=
  ⟨r.x - i.left, r.y - i.top, r.w + i.left + i.right, r.h + i.top + i.bottom⟩

/-- The radii of the four corners, from the top start one on and round the box: horizontal and
vertical. -/
abbrev Corners := Sides (Rat × Rat)

/-- `BoxMetrics`, layout/base/fragment.cpp 342–350: of a fragment of a box. -/
structure Metrics where
  padding : Sides Rat
  borders : Sides Rat
  /-- `position` and `borderSize`, which `borderBox()` (352–354) puts together -/
  borderBox : Rect
  margin : Sides Rat
  radii : Corners

/-- layout/base/fragment.cpp 356–358 -/
def Metrics.paddingBox (m : Metrics) : Rect := m.borderBox.shrink m.borders

/-- layout/base/fragment.cpp 360–362 -/
def Metrics.contentBox (m : Metrics) : Rect := m.paddingBox.shrink m.padding

/-- layout/base/fragment.cpp 364–366 -/
def Metrics.marginBox (m : Metrics) : Rect := m.borderBox.grow m.margin

/-- `{0_au}` -/
def square : Corners := ⟨(0, 0), (0, 0), (0, 0), (0, 0)⟩

/-- The reference box and its corners, layout/paint.cpp 438–460. -/
def reference (m : Metrics) : GBox → Rect × Corners
  | .border => (m.borderBox, m.radii)
  | .padding => (m.paddingBox, square)
  | .content => (m.contentBox, square)
  | .margin => (m.marginBox, square)
  | .fill => (m.contentBox, square)
  | .stroke => (m.borderBox, m.radii)
  | .view => (m.borderBox, square)

/-- A length in pixels.  `Resolver()` (layout/paint.cpp 467) is value-initialised, so whatever
relative units refer to is 0 (values/length.cpp 79–104, 134–290). -/
def lengthPx : Length → Rat
  | .abs v u => pixels v u
  | .rel _ _ => 0

/-- `resolver.resolve(CalcValue<PercentOr<Length>>, relative)` -/
def px (c : Calc) (relative : Rat) : Option Rat := resolveCalc lengthPx relative c

/-- The same of a radius of a corner, which is never a `calc()` (values/borders.cpp 155–236). -/
def plPx (v : PL) (relative : Rat) : Rat := operandPx lengthPx relative (.val v)

/-- `_resolveRadii`, layout/paint.cpp 390–401. -/
def resolveRadii (r : Radii) (b : Rect) : Corners :=
  ⟨(plPx r.b b.w, plPx r.a b.h), (plPx r.c b.w, plPx r.d b.h), (plPx r.f b.w, plPx r.e b.h),
    (plPx r.g b.w, plPx r.h b.h)⟩

/-- `_resolveBackgroundPosition`, layout/paint.cpp 405–426, in x. -/
def positionX (p : Position) (b : Rect) : Option Rat :=
  match p.h with
  | .left => px p.x b.w
  | .right => (px p.x b.w).map (b.w - ·)
  | .center => some (b.w / 2)

/-- `_resolveBackgroundPosition`, layout/paint.cpp 405–426, in y. -/
def positionY (p : Position) (b : Rect) : Option Rat :=
  match p.v with
  | .top => px p.y b.h
  | .bottom => (px p.y b.h).map (b.h - ·)
  | .center => some (b.h / 2)

/-- `Math::abs` -/
def dist (v : Rat) : Rat := if v < 0 then -v else v

/-- The radius of a circle, layout/paint.cpp 491–516; `norm w h` is
`sqrt(h * h + w * w) / sqrt(2)`. -/
def circleRadius (norm : Rat → Rat → Rat) (b : Rect) (cx cy : Rat) : Radius → Option Rat
  | .closestSide => some (min (min (min (dist (b.w - cx)) cx) cy) (dist (b.h - cy)))
  | .farthestSide => some (max (max (max (dist (b.w - cx)) cx) cy) (dist (b.h - cy)))
  | .calc c => px c (norm b.w b.h)

/-- A radius of an ellipse, layout/paint.cpp 567–576 and 579–588; the axis is `size` long and the
centre at `c`. -/
def axisRadius (size c : Rat) : Radius → Option Rat
  | .closestSide => some (min (dist (size - c)) c)
  | .farthestSide => some (max (dist (size - c)) c)
  | .calc v => px v size

/-- What the path handed to `Scene::Clip` is made with. -/
inductive Outline where
  | rect (r : Rect) (corners : Corners)
  | ellipse (cx cy rx ry : Rat)
  | polygon (rule : Rule) (points : List (Rat × Rat))
  | path (rule : Rule) (texts : List (List Char)) (dx dy : Rat)
  deriving DecidableEq, Repr

/-- The points of a polygon, layout/paint.cpp 470–486. -/
def pointsOf (b : Rect) : List (Calc × Calc) → Option (List (Rat × Rat))
  | [] => some []
  | (x, y) :: ps =>
    (px x b.w).bind fun vx => (px y b.h).bind fun vy =>
    (pointsOf b ps).map ((b.x + vx, b.y + vy) :: ·)

/-- The shapes, layout/paint.cpp 468–597. -/
def outlineOf (norm : Rat → Rat → Rat) (b : Rect) : Shape → Option Outline
  | .polygon rule ps => (pointsOf b ps).map (.polygon rule)
  | .circle c =>
    (positionX c.position b).bind fun cx => (positionY c.position b).bind fun cy =>
    (circleRadius norm b cx cy c.radius).map fun r => .ellipse (cx + b.x) (cy + b.y) r r
  | .inset i rs =>
    (px i.left b.w).bind fun l => (px i.right b.w).bind fun r =>
    (px i.top b.h).bind fun t => (px i.bottom b.h).map fun o =>
    .rect (b.shrink ⟨t, r, o, l⟩) (resolveRadii rs b)
  | .xywh x y w h rs =>
    (px x b.w).bind fun vx => (px y b.h).bind fun vy =>
    (px w b.w).bind fun vw => (px h b.h).map fun vh =>
    .rect ⟨vx + b.x, vy + b.y, vw, vh⟩ (resolveRadii rs b)
  | .rect i rs =>
    (px i.top b.h).bind fun t => (px i.right b.w).bind fun r =>
    (px i.bottom b.h).bind fun o => (px i.left b.w).map fun l =>
    .rect ⟨b.x + l, b.y + t, max (r - l) 0, max (o - t) 0⟩ (resolveRadii rs b)
  | .ellipse rx ry p =>
    (positionX p b).bind fun cx => (positionY p b).bind fun cy =>
    (axisRadius b.w cx rx).bind fun vx => (axisRadius b.h cy ry).map fun vy =>
    .ellipse (cx + b.x) (cy + b.y) vx vy
  | .path rule ts => some (.path rule ts b.x b.y)

/-- `_applyClip`, layout/paint.cpp 429–599; `round` is `RectAu::round` (Karm). -/
def applyClip (round : Rect → Rect) (norm : Rat → Rat → Rat) (m : Metrics) (c : Clip) :
    Option Outline :=
  let (b, corners) := reference m c.box
  match c.shape with
  | none => some (.rect (round b) corners)
  | some s => outlineOf norm b s

end Verif.Clip
