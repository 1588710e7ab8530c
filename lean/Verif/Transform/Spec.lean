import Verif.Transform.Model
import Verif.Short.Spec

/-!
# Transforms: specification

What the functions of `transform` do to a point, after CSS Transforms, and how functions, their
arguments and origins are written.  Nothing here mentions matrices or parsers.
-/

namespace Verif.Transform.Spec
open Verif.Values Verif.Short

/-! ## Arguments -/

/-- White space. -/
def gaps (n : Nat) : List Tok := List.replicate n .ws

/-- `calc()` of two terms: any white space may stand around the operator and at the end. -/
inductive Calculated (T : Tok → Rat → Prop) : Tok → Rat → Prop
  | two (i j k : Nat) : T a x → T b y → Applied o x y (some v) →
      Calculated T (.func "calc(".toList (a :: (gaps i ++ .delim [o] :: (gaps j ++ b :: gaps k)))) v

/-- A term of a `calc()` of lengths: a number, a percentage of `w`, or an absolute length. -/
inductive LengthTerm (w : Rat) : Tok → Rat → Prop
  | number (n : Lit) : LengthTerm w (.number n.text) n.value
  | percent (n : Lit) : LengthTerm w (.percent (n.text ++ ['%'])) (w * n.value / 100)
  | abs (n : Lit) : (k, u, per) ∈ absTable → Cased s k.toList →
      LengthTerm w (.dim (n.text ++ s)) (n.value * 96 / per)

/-- A length or percentage of `w`, in pixels.  Lengths relative to a font or the page are left
out. -/
inductive Amount (w : Rat) : Tok → Rat → Prop
  | zero : Amount w (.number ['0']) 0
  | percent (n : Lit) : Amount w (.percent (n.text ++ ['%'])) (w * n.value / 100)
  | abs (n : Lit) : (k, u, per) ∈ absTable → Cased s k.toList →
      Amount w (.dim (n.text ++ s)) (n.value * 96 / per)
  | computed : Calculated (LengthTerm w) t v → Amount w t v

/-- A literal number. -/
inductive Literal : Tok → Rat → Prop
  | mk (n : Lit) : Literal (.number n.text) n.value

/-- A number. -/
inductive Num : Tok → Rat → Prop
  | lit : Literal t v → Num t v
  | computed : Calculated Literal t v → Num t v

/-- What an angle unit is worth in radians, if `pi` is half a turn. -/
def radians (pi : Rat) : List (String × Rat) :=
  [("deg", pi / 180), ("grad", pi / 200), ("rad", 1), ("turn", 2 * pi)]

/-- An angle with its unit, in radians. -/
inductive Degrees (pi : Rat) : Tok → Rat → Prop
  | mk (n : Lit) : (k, one) ∈ radians pi → Cased s k.toList →
      Degrees pi (.dim (n.text ++ s)) (n.value * one)

/-- A term of a `calc()` of angles. -/
inductive AngleTerm (pi : Rat) : Tok → Rat → Prop
  | number : Literal t v → AngleTerm pi t v
  | angle : Degrees pi t v → AngleTerm pi t v

/-- An angle, in radians. -/
inductive Ang (pi : Rat) : Tok → Rat → Prop
  | unit : Degrees pi t v → Ang pi t v
  | computed : Calculated (AngleTerm pi) t v → Ang pi t v

/-- What may stand between two arguments: a comma, or none, with any white space. -/
inductive Sep : List Tok → Prop
  | space (n : Nat) : Sep (gaps n)
  | comma (m n : Nat) : Sep (gaps m ++ .comma :: gaps n)

/-- Arguments one after the other, with white space at the end. -/
inductive ArgsFrom : List Tok → List Tok → Prop
  | last (n : Nat) : ArgsFrom (t :: gaps n) [t]
  | more : Sep s → ArgsFrom c ts → ArgsFrom (t :: (s ++ c)) (t :: ts)

/-- The contents of a function with the arguments `ts`. -/
inductive Args : List Tok → List Tok → Prop
  | mk (n : Nat) : ArgsFrom c ts → Args (gaps n ++ c) ts

/-! ## Functions -/

/-- The functions of CSS Transforms 1 as they are written, each with what it does to a point of
a box of the size `w` times `h`. -/
inductive Moves (t : Trig) (w h : Rat) : Tok → (Pt → Pt) → Prop
  | matrix : Cased nm "matrix(".toList → Args c [ta, tb, tc, td, te, tf] →
      Num ta a → Num tb b → Num tc c' → Num td d → Num te e → Num tf f →
      Moves t w h (.func nm c) (fun p => (a * p.1 + c' * p.2 + e, b * p.1 + d * p.2 + f))
  | translate : Cased nm "translate(".toList → Args c [tx, ty] → Amount w tx x → Amount h ty y →
      Moves t w h (.func nm c) (fun p => (p.1 + x, p.2 + y))
  | translate1 : Cased nm "translate(".toList → Args c [tx] → Amount w tx x →
      Moves t w h (.func nm c) (fun p => (p.1 + x, p.2))
  | translateX : Cased nm "translatex(".toList → Args c [tx] → Amount w tx x →
      Moves t w h (.func nm c) (fun p => (p.1 + x, p.2))
  | translateY : Cased nm "translatey(".toList → Args c [ty] → Amount h ty y →
      Moves t w h (.func nm c) (fun p => (p.1, p.2 + y))
  | scale : Cased nm "scale(".toList → Args c [tx, ty] → Num tx x → Num ty y →
      Moves t w h (.func nm c) (fun p => (x * p.1, y * p.2))
  | scale1 : Cased nm "scale(".toList → Args c [tx] → Num tx x →
      Moves t w h (.func nm c) (fun p => (x * p.1, x * p.2))
  | scaleX : Cased nm "scalex(".toList → Args c [tx] → Num tx x →
      Moves t w h (.func nm c) (fun p => (x * p.1, p.2))
  | scaleY : Cased nm "scaley(".toList → Args c [ty] → Num ty y →
      Moves t w h (.func nm c) (fun p => (p.1, y * p.2))
  | rotate : Cased nm "rotate(".toList → Args c [ta] → Ang t.pi ta a →
      Moves t w h (.func nm c)
        (fun p => (p.1 * t.cos a - p.2 * t.sin a, p.1 * t.sin a + p.2 * t.cos a))
  | skew : Cased nm "skew(".toList → Args c [tx, ty] → Ang t.pi tx x → Ang t.pi ty y →
      Moves t w h (.func nm c) (fun p => (p.1 + p.2 * t.tan x, p.2 + p.1 * t.tan y))
  | skew1 : Cased nm "skew(".toList → Args c [tx] → Ang t.pi tx x → t.tan 0 = 0 →
      Moves t w h (.func nm c) (fun p => (p.1 + p.2 * t.tan x, p.2))
  | skewX : Cased nm "skewx(".toList → Args c [tx] → Ang t.pi tx x →
      Moves t w h (.func nm c) (fun p => (p.1 + p.2 * t.tan x, p.2))
  | skewY : Cased nm "skewy(".toList → Args c [ty] → Ang t.pi ty y →
      Moves t w h (.func nm c) (fun p => (p.1, p.2 + p.1 * t.tan y))

/-- Functions one after the other. -/
inductive AllMoves (t : Trig) (w h : Rat) : List Tok → List (Pt → Pt) → Prop
  | nil : AllMoves t w h [] []
  | cons : Moves t w h k f → AllMoves t w h ks fs → AllMoves t w h (k :: ks) (f :: fs)

/-- The last function is what happens to the point first. -/
def after : List (Pt → Pt) → Pt → Pt
  | [], p => p
  | f :: fs, p => f (after fs p)

/-! ## Origins -/

/-- The first part of an origin: the place along the x axis. -/
inductive AtX (box : Rect) : Tok → Rat → Prop
  | left : Word "left" t → AtX box t box.x
  | center : Word "center" t → AtX box t (box.x + box.width / 2)
  | right : Word "right" t → AtX box t (box.x + box.width)
  | amount : Amount box.width t v → AtX box t (box.x + v)

/-- The second part of an origin. -/
inductive AtY (box : Rect) : Tok → Rat → Prop
  | top : Word "top" t → AtY box t box.y
  | center : Word "center" t → AtY box t (box.y + box.height / 2)
  | bottom : Word "bottom" t → AtY box t (box.y + box.height)
  | amount : Amount box.height t v → AtY box t (box.y + v)

/-- What is done to a point about an origin. -/
def about (o : Pt) (f : Pt → Pt) (p : Pt) : Pt :=
  let q := f (p.1 - o.1, p.2 - o.2)
  (o.1 + q.1, o.2 + q.2)

/-! ## The attribute of SVG -/

/-- The functions of the `transform` attribute of SVG: lengths and angles are numbers, and
`rotate()` may have a centre. -/
inductive SvgMoves (t : Trig) : Tok → (Pt → Pt) → Prop
  | matrix : Cased nm "matrix(".toList → Args c [ta, tb, tc, td, te, tf] →
      Literal ta a → Literal tb b → Literal tc c' → Literal td d → Literal te e → Literal tf f →
      SvgMoves t (.func nm c) (fun p => (a * p.1 + c' * p.2 + e, b * p.1 + d * p.2 + f))
  | translate : Cased nm "translate(".toList → Args c [tx, ty] → Literal tx x → Literal ty y →
      SvgMoves t (.func nm c) (fun p => (p.1 + x, p.2 + y))
  | translate1 : Cased nm "translate(".toList → Args c [tx] → Literal tx x →
      SvgMoves t (.func nm c) (fun p => (p.1 + x, p.2))
  | scale : Cased nm "scale(".toList → Args c [tx, ty] → Literal tx x → Literal ty y →
      SvgMoves t (.func nm c) (fun p => (x * p.1, y * p.2))
  | scale1 : Cased nm "scale(".toList → Args c [tx] → Literal tx x →
      SvgMoves t (.func nm c) (fun p => (x * p.1, x * p.2))
  | rotate : Cased nm "rotate(".toList → Args c [ta] → Literal ta a →
      SvgMoves t (.func nm c) (fun p =>
        (p.1 * t.cos (a * (t.pi / 180)) - p.2 * t.sin (a * (t.pi / 180)),
          p.1 * t.sin (a * (t.pi / 180)) + p.2 * t.cos (a * (t.pi / 180))))
  | skewX : Cased nm "skewx(".toList → Args c [tx] → Literal tx x →
      SvgMoves t (.func nm c) (fun p => (p.1 + p.2 * t.tan (x * (t.pi / 180)), p.2))
  | skewY : Cased nm "skewy(".toList → Args c [ty] → Literal ty y →
      SvgMoves t (.func nm c) (fun p => (p.1, p.2 + p.1 * t.tan (y * (t.pi / 180))))

/-- `fmt` writes the number `q` as a decimal literal of just this value. -/
def Exact (fmt : Rat → List Char) (q : Rat) : Prop := ∃ n : Lit, fmt q = n.text ∧ n.value = q

/-- `rotate()` with a centre.  The numbers named by `Exact` are those of the matrix of this
rotation: it is only claimed for angles and centres for which no digits are lost in writing. -/
inductive Turns (t : Trig) (fmt : Rat → List Char) : Tok → (Pt → Pt) → Prop
  | mk : Cased nm "rotate(".toList → Args c [ta, tx, ty] → Literal ta a → Literal tx x →
      Literal ty y → cos = t.cos (a * (t.pi / 180)) → sin = t.sin (a * (t.pi / 180)) →
      Exact fmt cos → Exact fmt sin → Exact fmt (-sin) →
      Exact fmt (x - x * cos + y * sin) → Exact fmt (y - x * sin - y * cos) →
      Turns t fmt (.func nm c)
        (about (x, y) fun p => (p.1 * cos - p.2 * sin, p.1 * sin + p.2 * cos))

/-- Functions of the attribute, none of which is a rotation with a centre. -/
inductive NoTurns (t : Trig) : List Tok → List (Pt → Pt) → Prop
  | nil : NoTurns t [] []
  | cons : SvgMoves t k f → NoTurns t ks fs → NoTurns t (k :: ks) (f :: fs)

/-- Functions of the attribute, each rotation of which has a centre. -/
inductive OnlyTurns (t : Trig) (fmt : Rat → List Char) : List Tok → List (Pt → Pt) → Prop
  | nil : OnlyTurns t fmt [] []
  | move : SvgMoves t (.func nm c) f → ¬ Cased nm "rotate(".toList → OnlyTurns t fmt ks fs →
      OnlyTurns t fmt (.func nm c :: ks) (f :: fs)
  | turn : Turns t fmt k f → OnlyTurns t fmt ks fs → OnlyTurns t fmt (k :: ks) (f :: fs)

end Verif.Transform.Spec
