import Verif.Values.Color
import Verif.Short.Model
/-
# `hsl()` and `color-mix()`

`values/color.cpp` 107–113 (`fromStr`), 415–495 (`hsl()`), 561–578 (which function), 580–629
(`color-mix()`), 631–678 (all colours), 690–706 (`resolve`), and `values/angle.cpp` 54–66 (`toDegree`).

A colour in hue, saturation and lightness is kept as these: the conversion to channels
(`Gfx::hslToRgb`) is Karm's. What two colours and a weight are mixed to (`interpolate`) is a
parameter of `resolve`. Numbers are exact; π is a parameter.
-/

namespace Verif.Hue

open Verif.Values Verif.Short

/-- `Gfx::Hsl` with an opacity of 0 to 255. -/
structure Hsla where
  h : Rat
  s : Rat
  l : Rat
  a : Nat
deriving DecidableEq, Repr

/-- `Angle::toDegree`, values/angle.cpp 54–66. -/
def toDegree (pi : Rat) : Rat × AngleUnit → Rat
  | (v, .deg) => v
  | (v, .rad) => v * 180 / pi
  | (v, .grad) => v * (9 / 10)
  | (v, .turn) => v * 360

/-- The hue, values/color.cpp 423–431 and 460–468. -/
def readHue (pi : Rat) (l : List Tok) : Res (Rat × List Tok) :=
  match skipIdent "none".toList l with
  | some r => .ok (0, r)
  | none =>
    match l with
    | .dim s :: r =>
      match parseAngle (.dim s :: r) with
      | (some a, r) => .ok (toDegree pi a, r)
      | (none, _) => .err
    | .number s :: r =>
      match atof s with
      | some (v, _) => .ok (v, r)
      | none => .err
    | _ => .err

/-- `_parseHSLModernFuncColor`, values/color.cpp 416–449. -/
def hslModern (round : Rat → Int) (pi : Rat) (content : List Tok) : Res Hsla :=
  (readHue pi (eatWs content)).bind fun h =>
  (numPercNone 1 (eatWs h.2)).bind fun s =>
  (numPercNone 1 (eatWs s.2)).bind fun l =>
  match eatWs l.2 with
  | [] => .ok ⟨h.1, s.1, l.1, 255⟩
  | rest => (alphaModern round rest).bind fun a => .ok ⟨h.1, s.1, l.1, a.1.getD 255⟩

/-- `parseValue<Percent>(scan)).value() / 100.0f`, values/color.cpp 475 and 482. -/
def percentOf1 : List Tok → Res (Rat × List Tok)
  | .percent s :: r => .ok (((atof s).map (·.1)).getD 0 / 100, r)
  | _ => .err

/-- `_parseHSLLegacyFuncColor`, values/color.cpp 451–495. -/
def hslLegacy (round : Rat → Int) (pi : Rat) (content : List Tok) : Res Hsla :=
  (readHue pi (eatWs content)).bind fun h =>
  (comma (eatWs h.2)).bind fun l =>
  (percentOf1 l).bind fun s =>
  (comma (eatWs s.2)).bind fun l =>
  (percentOf1 l).bind fun l =>
  match eatWs l.2 with
  | [] => .ok ⟨h.1, s.1, l.1, 255⟩
  | rest =>
    (comma rest).bind fun r =>
    (alphaValue round r).bind fun a => .ok ⟨h.1, s.1, l.1, a.1⟩

/-- `hsl()` and `hsla()`: `_parseFuncColor`, values/color.cpp 570–575. -/
def hslFunc (round : Rat → Int) (pi : Rat) (content : List Tok) : Res Hsla :=
  match hslModern round pi content with
  | .err => hslLegacy round pi content
  | x => x

/-- The spaces in which colours are mixed: the ones `fromStr` can return. -/
inductive Space where
  | srgb
  | hslShorter
deriving DecidableEq, Repr

/-- `ColorSpace::fromStr`, values/color.cpp 107–112. -/
def fromStr (name : List Char) : Space := if name = "lch".toList then .hslShorter else .srgb

/-- `Color`, values/color.cpp 186–190, with `ColorMix`, 192–212. -/
inductive Colour where
  | rgba (c : Rgba)
  | hsla (c : Hsla)
  | current
  | system (name : List Char)
  | mix (space : Space) (lhs : Colour) (lperc : Option Rat) (rhs : Colour) (rperc : Option Rat)
deriving DecidableEq, Repr

/-- `skipOmmitableComma`, values/base.cpp 16–21. -/
def commaBetween (l : List Tok) : Option (List Tok) := (skipComma (eatWs l)).map eatWs

/-- `_parseColorMixSide`, values/color.cpp 580–606, for a reader of colours. -/
def mixSide (color : List Tok → Out Colour) (l : List Tok) : Option ((Colour × Option Rat) × List Tok) :=
  match l with
  | .percent s :: r =>
    match color (eatWs r) with
    | (some c, r) => some ((c, some (((atof s).map (·.1)).getD 0)), r)
    | (none, _) => none
  | l =>
    match color l with
    | (none, _) => none
    | (some c, r) =>
      match eatWs r with
      | .percent s :: r => some ((c, some (((atof s).map (·.1)).getD 0)), r)
      | r => some ((c, none), r)

/-- `_parseColorMixFunc`, values/color.cpp 608–629, for a reader of colours. -/
def mixFunc (color : List Tok → Out Colour) (content : List Tok) : Option Colour :=
  match skipIdent "in".toList (eatWs content) with
  | none => none
  | some l =>
    match eatWs l with
    | .ident space :: l =>
      match commaBetween l with
      | none => none
      | some l =>
        match mixSide color l with
        | none => none
        | some (lhs, l) =>
          match commaBetween l with
          | none => none
          | some l =>
            match mixSide color l with
            | none => none
            | some (rhs, _) => some (.mix (fromStr space) lhs.1 lhs.2 rhs.1 rhs.2)
    | _ => none

/-- An outcome with a value; undefined behaviour counts as none. -/
def ofRes {α β : Type} (f : α → β) : Res α → Option β
  | .ok v => some (f v)
  | .err => none
  | .ub => none

/-- The tables of named colours and of system colours, and what is Karm's. -/
structure Env where
  atou : List Char → Option Nat
  named : List Char → Option Rgba
  system : List Char → Bool
  round : Rat → Int
  pi : Rat

/-- The functions, values/color.cpp 561–578 and 661–672, for a reader of colours. -/
def colourFunc (e : Env) (color : List Tok → Out Colour) (name : List Char) (content : List Tok) :
    Option Colour :=
  if eqCi name "color-mix(".toList then mixFunc color content
  else if eqCi name "color(".toList then ofRes .rgba (colorFunc e.round content)
  else if eqCi name "rgb(".toList || eqCi name "rgba(".toList then
    ofRes .rgba (rgbFunc e.round content)
  else if eqCi name "hsl(".toList || eqCi name "hsla(".toList then
    ofRes .hsla (hslFunc e.round e.pi content)
  else none

/-- `ValueParser<Color>::parse`, values/color.cpp 631–678; `fuel` is the depth up to which colours are
    looked for in mixtures. -/
def readColour (e : Env) : Nat → List Tok → Out Colour
  | 0, l => (none, l)
  | fuel + 1, l =>
    match l with
    | .hash s :: r => ((hexColor e.atou s).map .rgba, r)
    | .ident s :: r =>
      if eqCi s "currentcolor".toList then (some .current, r)
      else if eqCi s "transparent".toList then (some (.rgba ⟨0, 0, 0, 0⟩), r)
      else
        match e.named (s.map Char.toLower) with
        | some c => (some (.rgba c), r)
        | none => if e.system s then (some (.system s), r) else (none, .ident s :: r)
    | .func name content :: r =>
      match colourFunc e (readColour e fuel) name content with
      | some c => (some c, r)
      | none => (none, .func name content :: r)
    | l => (none, l)

/-- `resolve(Color, currentColor)` and `resolve(ColorMix, currentColor)`, values/color.cpp 690–735, with
    the weights of `mixOf`. `K` are the colours of Karm, `rgba` and `hsla` make them, `sys` is the table
    of system colours, `lerp` is `interpolate`, `opac` is `withOpacity`. -/
def resolve {K : Type} (rgba : Rgba → K) (hsla : Hsla → K) (sys : List Char → K)
    (lerp : Space → K → K → Rat → K) (opac : K → Rat → K) (white : K) (cur : K) : Colour → Option K
  | .rgba c => some (rgba c)
  | .hsla c => some (hsla c)
  | .current => some cur
  | .system n => some (sys n)
  | .mix space l lp r rp =>
    match resolve rgba hsla sys lerp opac white cur l, resolve rgba hsla sys lerp opac white cur r with
    | some a, some b =>
      match mixOf lp rp with
      | .white => some white
      | .divZero => none
      | .at t none => some (lerp space a b t)
      | .at t (some o) => some (opac (lerp space a b t) o)
    | _, _ => none

end Verif.Hue
