import Verif.Short.Model

/-!
# Transforms

Model of the parsers of `transform` and `transform-origin` (values/transform.cpp), of the reading
of the `transform` attribute of SVG (props/transform.cpp) and of the matrix that painting makes of
them (layout/paint.cpp 602–757).

Numbers are exact rationals: neither the rounding of `f64` nor that of lengths to 1/64 px is
modelled.  `Math::sin`, `Math::cos`, `Math::tan` and `Math::PI` are not in the repository; they
are parameters here, on which nothing is assumed.  A value that divides by zero is `none`.
-/

namespace Verif.Transform
open Verif.Values Verif.Short

/-! ## Matrices of Karm -/

/-- `Math::Trans2f` (Karm, not in the repository), in the order of its constructor as
layout/paint.cpp 697–704 and props/transform.cpp 149–154 use it. -/
structure Mat where
  xx : Rat
  xy : Rat
  yx : Rat
  yy : Rat
  ox : Rat
  oy : Rat
  deriving DecidableEq, Repr

/-- A point. -/
abbrev Pt := Rat × Rat

/-- `Trans2f::apply` (Karm): where a point goes. -/
def Mat.apply (m : Mat) (p : Pt) : Pt :=
  (m.xx * p.1 + m.yx * p.2 + m.ox, m.xy * p.1 + m.yy * p.2 + m.oy)

/-- `Trans2f::multiply` (Karm): first `a`, then `b`.  This order is assumed; with the other one
neither painting nor the svg viewport would place anything where CSS wants it. -/
def Mat.multiply (a b : Mat) : Mat :=
  ⟨a.xx * b.xx + a.xy * b.yx, a.xx * b.xy + a.xy * b.yy,
   a.yx * b.xx + a.yy * b.yx, a.yx * b.xy + a.yy * b.yy,
   a.ox * b.xx + a.oy * b.yx + b.ox, a.ox * b.xy + a.oy * b.yy + b.oy⟩

/-- `Trans2f::translate` (Karm). -/
def Mat.translate (x y : Rat) : Mat := ⟨1, 0, 0, 1, x, y⟩
/-- `Trans2f::scale` (Karm). -/
def Mat.scale (x y : Rat) : Mat := ⟨x, 0, 0, y, 0, 0⟩
/-- `Trans2f::skew` (Karm): `x` is what a unit of y adds to x. -/
def Mat.skew (x y : Rat) : Mat := ⟨1, y, x, 1, 0, 0⟩
/-- `Trans2f::identity` (Karm). -/
def Mat.identity : Mat := ⟨1, 0, 0, 1, 0, 0⟩

/-- `Math::PI`, `Math::sin`, `Math::cos` and `Math::tan` (Karm), of radians. -/
structure Trig where
  pi : Rat
  sin : Rat → Rat
  cos : Rat → Rat
  tan : Rat → Rat

/-- `Trans2f::rotate` (Karm): from the x axis to the y axis. -/
def Mat.rotate (t : Trig) (a : Rat) : Mat := ⟨t.cos a, t.sin a, -t.sin a, t.cos a, 0, 0⟩

/-- Where `translated`, `scaled` and `rotated` of `Trans2f` (Karm) put what they add: before what
the matrix does, or behind it.  The repository does not say; both are modelled. -/
inductive Order where
  | before | behind
  deriving DecidableEq, Repr

def Mat.add (o : Order) (m new : Mat) : Mat :=
  match o with
  | .before => new.multiply m
  | .behind => m.multiply new

/-! ## calc() of numbers and angles -/

/-- `CalcValue<T>::Value`, values/calc.cpp 38–41; `Leaf` is never made by the parser.  For
`T = Number` both constructors are numbers. -/
inductive Arg (α : Type) where
  | val (v : α)
  | num (v : Rat)
  deriving DecidableEq, Repr

/-- `CalcValue<T>`, values/calc.cpp 34–79. -/
inductive CalcOf (α : Type) where
  | one (v : Arg α)
  | two (op : Op) (lhs rhs : Arg α)
  deriving DecidableEq, Repr

/-- `parseVal`, values/calc.cpp 245–254. -/
def parseArg (p : List Tok → Out α) : List Tok → Out (Arg α)
  | .number s :: r =>
    match parseNumber (.number s :: r) with
    | (some v, r') => (some (.num v), r')
    | (none, r') => (none, r')
  | l =>
    match p l with
    | (some v, r) => (some (.val v), r)
    | (none, r) => (none, r)

/-- `ValueParser<CalcValue<T>>::parse`, values/calc.cpp 190–218; `p` is the parser of `T`. -/
def readCalc (p : List Tok → Out α) : List Tok → Out (CalcOf α)
  | .func name content :: r =>
    if name = "calc(".toList then
      match parseArg p content with
      | (none, _) => (none, .func name content :: r)
      | (some lhs, c1) =>
        match parseOp c1 with
        | (none, _) => (some (.one lhs), r)
        | (some op, c2) =>
          match parseArg p (eatWs c2) with
          | (none, _) => (none, .func name content :: r)
          | (some rhs, _) => (some (.two op lhs rhs), r)
    else
      match p (.func name content :: r) with
      | (some v, r') => (some (.one (.val v)), r')
      | (none, r') => (none, r')
  | l =>
    match p l with
    | (some v, r) => (some (.one (.val v)), r)
    | (none, r) => (none, r)

/-- An angle as it is written, values/angle.cpp 22–30. -/
abbrev Angle := Rat × AngleUnit

/-- `Angle::toRadian`, values/angle.cpp 67–78. -/
def toRadian (t : Trig) : Angle → Rat
  | (v, .deg) => v * t.pi / 180
  | (v, .rad) => v
  | (v, .grad) => v * t.pi / 200
  | (v, .turn) => v * 2 * t.pi

/-- `resolve` of an operand, values/calc.cpp 156–168: a number where an angle is expected is an
angle in radians. -/
def Arg.resolve (f : α → Rat) : Arg α → Rat
  | .val v => f v
  | .num v => v

/-- `_resolveInfix`, values/calc.cpp 129–153. -/
def infixOp (op : Op) (a b : Rat) : Option Rat :=
  match op with
  | .add => some (a + b)
  | .sub => some (a - b)
  | .mul => some (a * b)
  | .div => if b = 0 then none else some (a / b)

/-- `resolve`, values/calc.cpp 155–188. -/
def CalcOf.resolve (f : α → Rat) : CalcOf α → Option Rat
  | .one v => some (v.resolve f)
  | .two op l r => infixOp op (l.resolve f) (r.resolve f)

/-! ## Transform functions -/

/-- `TransformFunction`, values/transform.cpp 136–440. -/
inductive Fn where
  | matrix (a b c d e f : CalcOf Rat)
  | translate (x y : Calc)
  | scale (x y : CalcOf Rat)
  | rotate (a : CalcOf Angle)
  | skew (x y : CalcOf Angle)
  | skewX (a : CalcOf Angle)
  | skewY (a : CalcOf Angle)
  deriving DecidableEq, Repr

/-- `skipOmmitableComma`, values/base.cpp 16–21. -/
def skipComma (l : List Tok) : List Tok :=
  match eatWs l with
  | .comma :: r => eatWs r
  | l => l

/-- The loop of `ValueParser<MatrixTransform>::parse`, values/transform.cpp 157–167: `n` numbers,
a comma between them if there is one.  What is left of the contents is not looked at. -/
def numbers : Nat → List Tok → Option (List (CalcOf Rat))
  | 0, _ => some []
  | n + 1, l =>
    if l.isEmpty then none else
    match readCalc parseNumber l with
    | (none, _) => none
    | (some v, r) => (numbers n (if n = 0 then r else skipComma r)).map (v :: ·)

/-- One value and nothing else but white space, as `translateX`, `scaleX`, `rotate`, … read it. -/
def alone (p : List Tok → Out α) (content : List Tok) : Option α :=
  match p (eatWs content) with
  | (some v, r) => if (eatWs r).isEmpty then some v else none
  | (none, _) => none

/-- One or two values, as `translate`, `scale` and `skew` read them: `only` is what to do if
there is one. -/
def oneOrTwo (p : List Tok → Out α) (only : α → β) (both : α → α → β) (content : List Tok) :
    Option β :=
  match p (eatWs content) with
  | (none, _) => none
  | (some x, r) =>
    match skipComma r with
    | [] => some (only x)
    | r =>
      match p r with
      | (none, _) => none
      | (some y, r) => if (eatWs r).isEmpty then some (both x y) else none

/-- The six values of `MatrixTransform`. -/
def matrixFn : Option (List (CalcOf Rat)) → Option Fn
  | some [a, b, c, d, e, f] => some (.matrix a b c d e f)
  | _ => none

/-- No shift: `Length{0_au}`. -/
def noLength : Calc := .one (.val (.length (.abs 0 .px)))

/-- The parsers of the transform functions, values/transform.cpp 145–440, in the order in which
`ValueParser<Union<…>>` (values/primitives.cpp 175–185) tries them, on one function.  A function is
stepped over only if it was read, and each parser looks at its name first, so that the first whose
name it is decides. -/
def fnOf (name : List Char) (content : List Tok) : Option Fn :=
  if eqCi name "matrix(".toList then
    matrixFn (numbers 6 (eatWs content))
  else if eqCi name "translateX(".toList then
    (alone parseCalc content).map fun x => .translate x noLength
  else if eqCi name "translateY(".toList then
    (alone parseCalc content).map fun y => .translate noLength y
  else if eqCi name "translate(".toList then
    oneOrTwo parseCalc (fun x => .translate x noLength) .translate content
  else if eqCi name "scaleX(".toList then
    (alone (readCalc parseNumber) content).map fun x => .scale x (.one (.val 1))
  else if eqCi name "scaleY(".toList then
    (alone (readCalc parseNumber) content).map fun y => .scale (.one (.val 1)) y
  else if eqCi name "scale(".toList then
    oneOrTwo (readCalc parseNumber) (fun x => .scale x x) .scale content
  else if eqCi name "rotate(".toList then
    (alone (readCalc parseAngle) content).map .rotate
  else if eqCi name "skew(".toList then
    oneOrTwo (readCalc parseAngle) (fun x => .skew x (.one (.val (0, .deg)))) .skew content
  else if eqCi name "skewX(".toList then
    (alone (readCalc parseAngle) content).map .skewX
  else if eqCi name "skewY(".toList then
    (alone (readCalc parseAngle) content).map .skewY
  else none

/-- The loop of `ValueParser<Transform>::parse`, values/transform.cpp 460–466. -/
def fnLoop : Nat → List Fn → List Tok → Out (List Fn)
  | 0, fs, l => (some fs, l)
  | k + 1, fs, l =>
    match l with
    | .func name content :: r =>
      match fnOf name content with
      | some f => fnLoop k (fs ++ [f]) (eatWs r)
      | none => (none, l)
    | l => (some fs, l)

/-- `Transform`, values/transform.cpp 446–447; `none` is the keyword `none`.
`ValueParser<Transform>::parse`, values/transform.cpp 449–469. -/
def parseTransform (l : List Tok) : Out (Option (List Fn)) :=
  if l.isEmpty then (none, l) else
  match skipIdent "none".toList l with
  | some r => (some none, r)
  | none =>
    match fnLoop (l.length + 1) [] l with
    | (some fs, r) => (some (some fs), r)
    | (none, r) => (none, r)

/-! ## transform-origin -/

/-- `TransformOrigin::XOffset`, values/transform.cpp 31–32. -/
inductive OffX where
  | left | center | right
  | calc (c : Calc)
  deriving DecidableEq, Repr

/-- `TransformOrigin::YOffset`, values/transform.cpp 33–34. -/
inductive OffY where
  | top | center | bottom
  | calc (c : Calc)
  deriving DecidableEq, Repr

/-- `parseValue<XOffset>`, the alternatives in order. -/
def parseOffX (l : List Tok) : Out OffX :=
  match skipAny [("left", OffX.left), ("center", .center), ("right", .right)] l with
  | some (v, r) => (some v, r)
  | none =>
    match parseCalc l with
    | (some c, r) => (some (.calc c), r)
    | (none, r) => (none, r)

/-- `parseValue<YOffset>`. -/
def parseOffY (l : List Tok) : Out OffY :=
  match skipAny [("top", OffY.top), ("center", .center), ("bottom", .bottom)] l with
  | some (v, r) => (some v, r)
  | none =>
    match parseCalc l with
    | (some c, r) => (some (.calc c), r)
    | (none, r) => (none, r)

/-- `_twoValues`, values/transform.cpp 46–58. -/
def twoOffsets (l : List Tok) : Option ((OffX × OffY) × List Tok) :=
  match parseOffX l with
  | (none, _) => none
  | (some x, r) =>
    match r with
    | [] => none
    | r =>
      match parseOffY r with
      | (none, _) => none
      | (some y, r) => some ((x, y), r)

/-- `ValueParser<TransformOrigin>::parse`, values/transform.cpp 60–116.  `OneValue` has the
alternatives of `XOffset`; that the text has ended behind a single value is an error (line 74). -/
def parseOrigin (l : List Tok) : Out (OffX × OffY) :=
  if l.isEmpty then (none, l) else
  match twoOffsets l with
  | some (v, r) => (some v, r)
  | none =>
    match parseOffX l with
    | (none, r) => (none, r)
    | (some x, r) => if r.isEmpty then (none, r) else (some (x, .center), r)

/-! ## Painting -/

/-- A rectangle. -/
structure Rect where
  x : Rat
  y : Rat
  width : Rat
  height : Rat
  deriving DecidableEq, Repr

/-- `resolve(Length, Resolver{})`: the resolver of painting is empty (layout/paint.cpp 653, 692), so
that each relative length is a multiple of nothing. -/
def painted : Length → Rat
  | .abs v u => pixels v u
  | .rel _ _ => 0

/-- The first half of `_resolveTransformOrigin`, layout/paint.cpp 655–668. -/
def originX (box : Rect) : OffX → Option Rat
  | .left => some box.x
  | .right => some (box.x + box.width)
  | .center => some (box.x + box.width / 2)
  | .calc c => (resolveCalc painted box.width c).map (box.x + ·)

/-- The second half, layout/paint.cpp 670–683. -/
def originY (box : Rect) : OffY → Option Rat
  | .top => some box.y
  | .bottom => some (box.y + box.height)
  | .center => some (box.y + box.height / 2)
  | .calc c => (resolveCalc painted box.height c).map (box.y + ·)

/-- `_resolveTransformOrigin`, layout/paint.cpp 652–686. -/
def originOf (box : Rect) (o : OffX × OffY) : Option Pt :=
  match originX box o.1, originY box o.2 with
  | some x, some y => some (x, y)
  | _, _ => none

/-- The visitor of `_resolveTransform`, layout/paint.cpp 695–739. -/
def matOf (t : Trig) (box : Rect) : Fn → Option Mat
  | .matrix a b c d e f => do
    some ⟨← a.resolve id, ← b.resolve id, ← c.resolve id, ← d.resolve id, ← e.resolve id,
      ← f.resolve id⟩
  | .translate x y => do
    some (.translate (← resolveCalc painted box.width x) (← resolveCalc painted box.height y))
  | .scale x y => do some (.scale (← x.resolve id) (← y.resolve id))
  | .rotate a => do some (.rotate t (← a.resolve (toRadian t)))
  | .skew x y => do
    some (.skew (t.tan (← x.resolve (toRadian t))) (t.tan (← y.resolve (toRadian t))))
  | .skewX a => do some (.skew (t.tan (← a.resolve (toRadian t))) 0)
  | .skewY a => do some (.skew 0 (t.tan (← a.resolve (toRadian t))))

/-- The loop of `_resolveTransform`, layout/paint.cpp 694–742. -/
def matLoop (t : Trig) (box : Rect) : Mat → List Fn → Option Mat
  | result, [] => some result
  | result, f :: fs =>
    match matOf t box f with
    | some m => matLoop t box (m.multiply result) fs
    | none => none

/-- `_resolveTransform`, layout/paint.cpp 688–745. -/
def resolveTransform (t : Trig) (box : Rect) (origin : Pt) (fs : List Fn) : Option Mat :=
  (matLoop t box (.translate origin.1 origin.2) fs).map
    fun m => (Mat.translate (-origin.1) (-origin.2)).multiply m

/-- `_applyTransform`, layout/paint.cpp 747–752. -/
def applyTransform (t : Trig) (box : Rect) (o : OffX × OffY) (fs : List Fn) : Option Mat :=
  match originOf box o with
  | some origin => resolveTransform t box origin fs
  | none => none

/-- Where a point of a box with the declarations `transform: ts` and `transform-origin: os` is
painted: `TransformProps::has` (style/computed.cpp 30–32) and layout/paint.cpp 139–148, 810–811.
`none` if a declaration is refused or a value divides by zero. -/
def place (t : Trig) (box : Rect) (ts os : List Tok) (p : Pt) : Option Pt :=
  match declared parseTransform ts, declared parseOrigin os with
  | some (some fs), some off => (applyTransform t box off fs).map (·.apply p)
  | some none, some _ => some p
  | _, _ => none

/-! ## The transform attribute of SVG -/

/-- Three numbers and nothing else, as `_expandSvgRotate` reads them, props/transform.cpp 120–142. -/
def threeNumbers (content : List Tok) : Option (Rat × Rat × Rat) :=
  match parseNumber (eatWs content) with
  | (none, _) => none
  | (some a, r) =>
    match parseNumber (skipComma r) with
    | (none, _) => none
    | (some x, r) =>
      match parseNumber (skipComma r) with
      | (none, _) => none
      | (some y, r) => if (eatWs r).isEmpty then some (a, x, y) else none

/-- The matrix of a rotation about a point, props/transform.cpp 144–147. -/
def rotateAbout (t : Trig) (o : Order) (a x y : Rat) : Mat :=
  (((Mat.identity.add o (.translate x y)).add o (.rotate t (a * t.pi / 180))).add o
    (.translate (-x) (-y)))

/-- The text made of the matrix, props/transform.cpp 149–159, as it is read again.  `fmt` is how
`Io::format` writes a number (Karm). -/
def matrixTok (fmt : Rat → List Char) (m : Mat) : Tok :=
  .func "matrix(".toList
    [.number (fmt m.xx), .comma, .ws, .number (fmt m.xy), .comma, .ws,
     .number (fmt m.yx), .comma, .ws, .number (fmt m.yy), .comma, .ws,
     .number (fmt m.ox), .comma, .ws, .number (fmt m.oy)]

/-- `_expandSvgRotate`, props/transform.cpp 114–162: the loop is left at the first rotation that is
not one about a point. -/
def expandRotate (t : Trig) (o : Order) (fmt : Rat → List Char) : List Tok → List Tok
  | [] => []
  | .func name content :: r =>
    if eqCi name "rotate(".toList then
      match threeNumbers content with
      | some (a, x, y) => matrixTok fmt (rotateAbout t o a x y) :: expandRotate t o fmt r
      | none => .func name content :: r
    else .func name content :: expandRotate t o fmt r
  | k :: r => k :: expandRotate t o fmt r

/-- A number with a unit behind it, props/transform.cpp 165–170. -/
def addUnit (unit : String) : Tok → Tok
  | .number s => .dim (s ++ unit.toList)
  | t => t

/-- `_fixTransformNumberToDimensions`, props/transform.cpp 164–193. -/
def fixUnits : Tok → Tok
  | .func name content =>
    if eqCi name "translate(".toList then .func name (content.map (addUnit "px"))
    else if eqCi name "rotate(".toList || eqCi name "skewX(".toList || eqCi name "skewY(".toList then
      .func name (content.map (addUnit "deg"))
    else .func name content
  | t => t

/-- `TransformProperty::Registration::parsePresentationAttribute`, props/transform.cpp 195–203: what
is left of the text is not looked at. -/
def parseAttribute (t : Trig) (o : Order) (fmt : Rat → List Char) (l : List Tok) :
    Option (Option (List Fn)) :=
  (parseTransform ((expandRotate t o fmt l).map fixUnits)).1

/-- Where a point of an SVG element with the attribute `transform` is painted, with the origin
that the user agent's style sheet gives (res/svg.css 6–9). -/
def placeAttr (t : Trig) (o : Order) (fmt : Rat → List Char) (box : Rect) (l : List Tok) (p : Pt) :
    Option Pt :=
  match parseAttribute t o fmt l, declared parseOrigin [.number ['0'], .number ['0']] with
  | some (some fs), some off => (applyTransform t box off fs).map (·.apply p)
  | some none, some _ => some p
  | _, _ => none

end Verif.Transform
