import Verif.Values.Model

/-!
# Values: colour functions

Model of `rgb()`, `rgba()`, `color()` and `color-mix()` of `values/color.cpp`.  `hsl()` is not
modelled (the conversion is Karm's).
-/

namespace Verif.Values

/-- The outcome of a colour function: a colour, an error, or undefined behaviour (a
floating-point number converted to a `u8` that cannot hold it). -/
inductive Res (α : Type) where
  | ok (v : α)
  | err
  | ub
  deriving DecidableEq, Repr

def Res.bind (x : Res α) (f : α → Res β) : Res β :=
  match x with
  | .ok v => f v
  | .err => .err
  | .ub => .ub

/-- `u8 r = x` for an integral `f64`. -/
def toU8 (n : Int) : Res Nat := if 0 ≤ n ∧ n < 256 then .ok n.toNat else .ub

/-- Conversion of an `f64` to an integer drops the fraction. -/
def trunc (v : Rat) : Int := if v < 0 then -((-v).floor) else v.floor

/-- `Css::Token::delim("/")` skipped. -/
def skipDelim (s : List Char) : List Tok → Option (List Tok)
  | .delim t :: r => if eqCi t s then some r else none
  | _ => none

def skipComma : List Tok → Option (List Tok)
  | .comma :: r => some r
  | _ => none

/-- `_parseAlphaValue`, values/color.cpp 297–307; `round` is `Math::round`. -/
def alphaValue (round : Rat → Int) : List Tok → Res (Nat × List Tok)
  | .percent s :: r =>
    (toU8 (round ((((atof s).map (·.1)).getD 0 * 255) / 100))).bind fun a => .ok (a, r)
  | .number s :: r =>
    match atof s with
    | some (v, _) => (toU8 (round (v * 255))).bind fun a => .ok (a, r)
    | none => .err
  | _ => .err

/-- `_parseAlphaComponentModernSyntax`, values/color.cpp 309–321. -/
def alphaModern (round : Rat → Int) (l : List Tok) : Res (Option Nat × List Tok) :=
  match skipDelim ['/'] l with
  | none => .err
  | some l =>
    match skipIdent "none".toList (eatWs l) with
    | some r => .ok (none, r)
    | none => (alphaValue round (eatWs l)).bind fun p => .ok (some p.1, p.2)

/-- `_parseNumPercNone` with `noneValue = 0`, values/color.cpp 323–334. -/
def numPercNone (percOf : Rat) (l : List Tok) : Res (Rat × List Tok) :=
  match skipIdent "none".toList l with
  | some r => .ok (0, r)
  | none =>
    match l with
    | .percent s :: r => .ok ((((atof s).map (·.1)).getD 0 * percOf) / 100, r)
    | .number s :: r =>
      match atof s with
      | some (v, _) => .ok (v, r)
      | none => .err
    | _ => .err

/-- One turn of the loop of `_parsePredefinedRGBParams`, values/color.cpp 338–346. -/
def channel (round : Rat → Int) (percOf : Rat) (l : List Tok) : Res (Int × List Tok) :=
  (numPercNone percOf l).bind fun p => .ok (round p.1, eatWs p.2)

/-- `_parsePredefinedRGBParams`, values/color.cpp 336–348. -/
def channels (round : Rat → Int) (percOf : Rat) (l : List Tok) :
    Res ((Int × Int × Int) × List Tok) :=
  (channel round percOf l).bind fun r =>
  (channel round percOf r.2).bind fun g =>
  (channel round percOf g.2).bind fun b => .ok ((r.1, g.1, b.1), b.2)

/-- `_parseSRGBModernFuncColor`, values/color.cpp 351–370.  Rounding an already rounded channel
again changes nothing. -/
def rgbModern (round : Rat → Int) (content : List Tok) : Res Rgba :=
  (channels round 255 (eatWs content)).bind fun p =>
  (toU8 p.1.1).bind fun r => (toU8 p.1.2.1).bind fun g => (toU8 p.1.2.2).bind fun b =>
  match eatWs p.2 with
  | [] => .ok ⟨r, g, b, 255⟩
  | l => (alphaModern round l).bind fun q => .ok ⟨r, g, b, q.1.getD 0⟩

/-- One channel in the legacy syntax, values/color.cpp 386–392. -/
def channelLegacy (round : Rat → Int) (percentages : Bool) (l : List Tok) :
    Res (Nat × List Tok) :=
  if percentages then
    match l with
    | .percent s :: r =>
      (toU8 (round ((((atof s).map (·.1)).getD 0 * 255) / 100))).bind fun v => .ok (v, eatWs r)
    | _ => .err
  else
    match l with
    | .number s :: r =>
      match atof s with
      | some (v, _) => (toU8 (trunc v)).bind fun n => .ok (n, eatWs r)
      | none => .err
    | _ => .err

/-- `,` between channels, with the whitespace after it. -/
def comma (l : List Tok) : Res (List Tok) :=
  match skipComma l with
  | some r => .ok (eatWs r)
  | none => .err

/-- `scan.peek() == Css::Token::Type::PERCENTAGE`, values/color.cpp 379. -/
def startsPercent : List Tok → Bool
  | .percent _ :: _ => true
  | _ => false

/-- `_parseSRGBLegacyFuncColor`, values/color.cpp 372–413. -/
def rgbLegacy (round : Rat → Int) (content : List Tok) : Res Rgba :=
  let l := eatWs content
  let percentages := startsPercent l
  (channelLegacy round percentages l).bind fun r =>
  (comma r.2).bind fun l =>
  (channelLegacy round percentages l).bind fun g =>
  (comma g.2).bind fun l =>
  (channelLegacy round percentages l).bind fun b =>
  match eatWs b.2 with
  | [] => .ok ⟨r.1, g.1, b.1, 255⟩
  | l => (comma l).bind fun l => (alphaValue round l).bind fun a => .ok ⟨r.1, g.1, b.1, a.1⟩

/-- `rgb()` and `rgba()`: `_parseFuncColor`, values/color.cpp 564–569. -/
def rgbFunc (round : Rat → Int) (content : List Tok) : Res Rgba :=
  match rgbModern round content with
  | .err => rgbLegacy round content
  | x => x

/-- The colour spaces `color()` knows, values/color.cpp 509–513. -/
def spaces : List String :=
  ["srgb", "srgb-linear", "display-p3", "a98-rgb", "prophoto-rgb", "rec2020"]

/-- `_parseColorFuncColor`, values/color.cpp 498–559.  The space is compared with its case. -/
def colorFunc (round : Rat → Int) (content : List Tok) : Res Rgba :=
  match eatWs content with
  | .ident s :: r =>
    if spaces.any (fun k => k.toList = s) then
      (channels round 1 (eatWs r)).bind fun p =>
      match eatWs p.2 with
      | [] =>
        (toU8 (p.1.1 * 255)).bind fun r => (toU8 (p.1.2.1 * 255)).bind fun g =>
        (toU8 (p.1.2.2 * 255)).bind fun b => .ok ⟨r, g, b, 255⟩
      | l =>
        (alphaModern round l).bind fun q =>
        (toU8 (p.1.1 * 255)).bind fun r => (toU8 (p.1.2.1 * 255)).bind fun g =>
        (toU8 (p.1.2.2 * 255)).bind fun b => .ok ⟨r, g, b, q.1.getD 0⟩
    else .ok ⟨255, 255, 255, 255⟩
  | _ => .err

/-- What `color-mix()` does with the percentages: white, or interpolation at `t` with an opacity
to apply. -/
inductive Mix where
  | white
  | at (t : Rat) (opacity : Option Rat)
  /-- the sum of the percentages is zero but they are not: a division by zero -/
  | divZero
  deriving DecidableEq, Repr

/-- `resolve(ColorMix, …)`, values/color.cpp 707–735: the percentages only. -/
def mixOf (lhs rhs : Option Rat) : Mix :=
  let l := lhs.getD (100 - rhs.getD 50)
  let r := rhs.getD (100 - lhs.getD 50)
  if l = r ∧ l = 0 then .white
  else if l + r = 0 then .divZero
  else
    let t := if l + r ≠ 100 then r / (l + r) else r / 100
    .at t (if l + r < 100 then some ((l + r) / 100) else none)

/-- `_Interpolation`, values/color.cpp 58–65. -/
inductive Arc where
  | shorter | longer | increasing | decreasing
  deriving DecidableEq, Repr

/-- `_preparePolar`, values/color.cpp 119–139: the two hues between which to interpolate. -/
def prepareHues (arc : Arc) (a b : Rat) : Rat × Rat :=
  let delta := b - a
  match arc with
  | .shorter =>
    if delta > 180 then (a + 360, b)
    else if delta < -180 then (a, b + 360)
    else (a, b)
  | .longer =>
    if 0 < delta ∧ delta < 180 then (a + 360, b)
    else if -180 < delta ∧ delta ≤ 0 then (a, b + 360)
    else (a, b)
  | .increasing => if delta < 0 then (a, b + 360) else (a, b)
  | .decreasing => if delta > 0 then (a + 360, b) else (a, b)

/-- A colour as the parser returns it: components, a keyword resolved later, or a function of
another kind. -/
inductive Color where
  | rgba (c : Rgba)
  | current
  | system (name : List Char)
  | fn (name : List Char) (content : List Tok)

/-- `ValueParser<Color>::parse`, values/color.cpp 631–678.  `named` is the table of named colours,
looked up ignoring case, `system` that of system colours, looked up with the case; `func` decides
about functions (`none` on errors, undefined behaviour included). -/
def parseColor (atou : List Char → Option Nat) (named : List Char → Option Rgba)
    (system : List Char → Bool) (func : List Char → List Tok → Option Color) :
    List Tok → Out Color
  | .hash s :: r => ((hexColor atou s).map .rgba, r)
  | .ident s :: r =>
    if eqCi s "currentcolor".toList then (some .current, r)
    else if eqCi s "transparent".toList then (some (.rgba ⟨0, 0, 0, 0⟩), r)
    else
      match named (s.map Char.toLower) with
      | some c => (some (.rgba c), r)
      | none => if system s then (some (.system s), r) else (none, .ident s :: r)
  | .func name content :: r =>
    match func name content with
    | some c => (some c, r)
    | none => (none, .func name content :: r)
  | l => (none, l)

end Verif.Values
