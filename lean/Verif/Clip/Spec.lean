import Verif.Clip.Model
import Verif.Short.PositionProps
import Verif.Short.RadiusProps

/-!
# Clip: what is meant

How `clip-path` is written (CSS Shapes 1, CSS Masking 1), and where the edges, centres and radii of
the shapes are.  `Reads parseCalc t c` says that the token is the length, percentage or `calc()`
that C94–C97 speak of.
-/

namespace Verif.Clip
open Verif.Values Verif.Short

/-! ## Texts -/

abbrev spaces (n : Nat) : List Tok := List.replicate n .ws

/-- `round` with the radii of the corners: the horizontal one and the vertical one, the same for
all corners. -/
inductive RoundText : List Tok → Sides Corner → Prop
  | none (n : Nat) : RoundText (spaces n) (corners ⟨.percent 0, .percent 0, .percent 0, .percent 0⟩
      ⟨.percent 0, .percent 0, .percent 0, .percent 0⟩)
  | one (n m k : Nat) : Word "round" t → Reads parsePL v a →
      RoundText (spaces n ++ t :: (spaces m ++ v :: spaces k)) (corners ⟨a, a, a, a⟩ ⟨a, a, a, a⟩)
  | two (n m k j i : Nat) : Word "round" t → Reads parsePL v a → Reads parsePL u b →
      RoundText (spaces n ++ t :: (spaces m ++ v :: (spaces k ++ slash :: (spaces j ++ u :: spaces i))))
        (corners ⟨a, a, a, a⟩ ⟨b, b, b, b⟩)

/-- A side of `rect()`; `auto` is the edge of the box, `d` in percent. -/
inductive SideText (d : Rat) : List Tok → Calc → Prop
  | auto (n : Nat) : Word "auto" t → SideText d (spaces n ++ [t]) (.one (.val (.percent d)))
  | value (n : Nat) : Reads parseCalc t c → SideText d (spaces n ++ [t]) c

/-- A value with white space before it. -/
inductive ValueText : List Tok → Calc → Prop
  | mk (n : Nat) : Reads parseCalc t c → ValueText (spaces n ++ [t]) c

/-- Points, with commas between them. -/
inductive PointsText : List Tok → List (Calc × Calc) → Prop
  | one (n : Nat) : ValueText ts x → ValueText us y →
      PointsText (ts ++ us ++ spaces n) [(x, y)]
  | cons (n : Nat) : ValueText ts x → ValueText us y → PointsText vs ps →
      PointsText (ts ++ us ++ spaces n ++ .comma :: vs) ((x, y) :: ps)

/-- The rule of filling, with its comma; nonzero if it is not there. -/
inductive RuleText : List Tok → Rule → Prop
  | none : RuleText [] .nonzero
  | nonzero : Word "nonzero" t → RuleText [t, .comma] .nonzero
  | evenodd : Word "evenodd" t → RuleText [t, .comma] .evenodd

/-- Positions that are read as they are meant (see C173). -/
def Readable (is : List Item) : Prop :=
  (∀ a b, is = [a, b] → a ≠ .top ∧ a ≠ .bottom) ∧
  ∀ a c, is = [a, .offset c, .center] → a ≠ .top ∧ a ≠ .bottom

/-- How shapes are written. -/
inductive ShapeText (svg : List Char → Bool) : Tok → Shape → Prop
  | circle : Cased f "circle(".toList → RadiusText rs r → AtText as is p → Readable is →
      ShapeText svg (.func f (rs ++ as)) (.circle ⟨r, p⟩)
  | ellipse (n : Nat) : Cased f "ellipse(".toList → RadiusText [t] rx → RadiusText [u] ry →
      AtText as is p → Readable is →
      ShapeText svg (.func f (t :: (spaces n ++ u :: as))) (.ellipse rx ry p)
  | ellipseAt : Cased f "ellipse(".toList → AtText as is p → Readable is →
      ShapeText svg (.func f as) (.ellipse .closestSide .closestSide p)
  | inset : Cased f "inset(".toList → Reads parseCalc t c → RoundText rs r → radii.all = r →
      ShapeText svg (.func f (t :: rs)) (.inset ⟨c, c, c, c⟩ radii)
  | rect : Cased f "rect(".toList → SideText 0 ts t → SideText 100 rs r → SideText 100 bs b →
      SideText 0 ls l → RoundText os o → radii.all = o →
      ShapeText svg (.func f (ts ++ (rs ++ (bs ++ (ls ++ os))))) (.rect ⟨t, r, b, l⟩ radii)
  | xywh : Cased f "xywh(".toList → ValueText xs x → ValueText ys y → ValueText ws w →
      ValueText hs h → RoundText os o → radii.all = o →
      ShapeText svg (.func f (xs ++ (ys ++ (ws ++ (hs ++ os))))) (.xywh x y w h radii)
  | polygon : Cased f "polygon(".toList → RuleText rs rule → PointsText ps points →
      ShapeText svg (.func f (rs ++ ps)) (.polygon rule points)
  | path (n m : Nat) : Cased f "path(".toList → RuleText rs rule → svg s = true →
      ShapeText svg (.func f (rs ++ (spaces n ++ .str s :: spaces m))) (.path rule [s])

/-- The names of the boxes. -/
inductive BoxText : Tok → GBox → Prop
  | border : Word "border-box" t → BoxText t .border
  | padding : Word "padding-box" t → BoxText t .padding
  | content : Word "content-box" t → BoxText t .content
  | margin : Word "margin-box" t → BoxText t .margin
  | fill : Word "fill-box" t → BoxText t .fill
  | stroke : Word "stroke-box" t → BoxText t .stroke
  | view : Word "view-box" t → BoxText t .view

/-- A value of `clip-path`: a shape, a box, or both in any order; the border box if there is none.
Or `none`. -/
inductive ClipText (svg : List Char → Bool) : List Tok → Option Clip → Prop
  | none : Word "none" t → ClipText svg [t] Option.none
  | box : BoxText t b → ClipText svg [t] (some ⟨Option.none, b⟩)
  | shape : ShapeText svg t s → ClipText svg [t] (some ⟨some s, .border⟩)
  | shapeBox : ShapeText svg t s → BoxText u b → ClipText svg [t, u] (some ⟨some s, b⟩)
  | boxShape : BoxText u b → ShapeText svg t s → ClipText svg [u, t] (some ⟨some s, b⟩)

/-! ## Places -/

/-- The edges of a box, as coordinates. -/
structure Edges where
  left : Rat
  top : Rat
  right : Rat
  bottom : Rat

def Rect.edges (r : Rect) : Edges := ⟨r.x, r.y, r.x + r.w, r.y + r.h⟩

/-- Moved inwards. -/
def Edges.within (e : Edges) (i : Sides Rat) : Edges :=
  ⟨e.left + i.left, e.top + i.top, e.right - i.right, e.bottom - i.bottom⟩

def Edges.width (e : Edges) : Rat := e.right - e.left
def Edges.height (e : Edges) : Rat := e.bottom - e.top

/-- The boxes a shape can refer to: the padding box is within the borders, the content box within
the padding, the margin box is the border box with the margins around it; a box that is not in a
drawing has its content box to fill and its border box to stroke and to view. -/
def edgesOf (m : Metrics) : GBox → Edges
  | .border | .stroke | .view => m.borderBox.edges
  | .padding => m.borderBox.edges.within m.borders
  | .content | .fill => (m.borderBox.edges.within m.borders).within m.padding
  | .margin =>
    m.borderBox.edges.within ⟨-m.margin.top, -m.margin.right, -m.margin.bottom, -m.margin.left⟩

/-- The pixels a value stands for in an element whose fonts and page are `c`. -/
def Stands (c : Ctx) (relative : Rat) (v : Calc) (x : Rat) : Prop :=
  resolveCalc (exactPx c) relative v = some x

/-- No unit refers to a font or to the page. -/
def Operand.Fixed : Operand → Prop
  | .val (.length (.rel _ _)) => False
  | _ => True

def Fixed : Calc → Prop
  | .one v => Operand.Fixed v
  | .two _ l r => Operand.Fixed l ∧ Operand.Fixed r

/-- Where a position is on the horizontal axis of a box. -/
inductive AtX (c : Ctx) (e : Edges) : Position → Rat → Prop
  | left : Stands c e.width x v → AtX c e ⟨.left, x, a, y⟩ (e.left + v)
  | right : Stands c e.width x v → AtX c e ⟨.right, x, a, y⟩ (e.right - v)
  | center : AtX c e ⟨.center, x, a, y⟩ ((e.left + e.right) / 2)

/-- Where a position is on the vertical axis of a box. -/
inductive AtY (c : Ctx) (e : Edges) : Position → Rat → Prop
  | top : Stands c e.height y v → AtY c e ⟨a, x, .top, y⟩ (e.top + v)
  | bottom : Stands c e.height y v → AtY c e ⟨a, x, .bottom, y⟩ (e.bottom - v)
  | center : AtY c e ⟨a, x, .center, y⟩ ((e.top + e.bottom) / 2)

/-- The length of what is between two coordinates. -/
def between (a b : Rat) : Rat := if a ≤ b then b - a else a - b

/-- `r` is the least of the distances. -/
def Nearest (r : Rat) (ds : List Rat) : Prop := r ∈ ds ∧ ∀ d ∈ ds, r ≤ d

/-- `r` is the greatest of the distances. -/
def Farthest (r : Rat) (ds : List Rat) : Prop := r ∈ ds ∧ ∀ d ∈ ds, d ≤ r

/-- The distances of a point from the sides of a box. -/
def sidesX (e : Edges) (x : Rat) : List Rat := [between e.left x, between e.right x]
def sidesY (e : Edges) (y : Rat) : List Rat := [between e.top y, between e.bottom y]

/-- The radius a shape is given, where percentages are of `relative` and the sides of the box are
at the distances `ds`. -/
inductive RadiusIs (c : Ctx) (relative : Rat) (ds : List Rat) : Radius → Rat → Prop
  | closest : Nearest r ds → RadiusIs c relative ds .closestSide r
  | farthest : Farthest r ds → RadiusIs c relative ds .farthestSide r
  | value : Stands c relative v r → RadiusIs c relative ds (.calc v) r

/-- Values of a radius that refer to no font and no page. -/
def FixedRadius : Radius → Prop
  | .calc v => Fixed v
  | _ => True

end Verif.Clip
