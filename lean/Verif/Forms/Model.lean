import Verif.Build.Model
import Mathlib.Algebra.Order.Field.Rat
/-!
# What an `<input>` shows: model

`layout/builder/mod.cpp` 354–368 and 421–479 with the attributes of `dom/element.cpp` 117–147.  Paths are relative to
`src/vaev-engine`.  Names and values are lists of characters; the attributes of a namespace other than that of the names in
`Html::…_ATTR` are left out.  The style of the text and of the box is not looked at.
-/
namespace Verif.Forms

abbrev Str := List Char

/-- `Element::attributes`, `dom/element.cpp` 29: a map from names to values, as the list of its pairs. -/
abbrev Attrs := List (Str × Str)

/-- `setAttribute`, `dom/element.cpp` 117–127, without the list of classes; `Map::put` replaces the value of a name it has. -/
def Attrs.set (name value : Str) : Attrs → Attrs
  | [] => [(name, value)]
  | (n, v) :: l => if n = name then (n, value) :: l else (n, v) :: Attrs.set name value l

/-- `hasAttribute`, `dom/element.cpp` 129–131. -/
def Attrs.has (name : Str) : Attrs → Bool
  | [] => false
  | (n, _) :: l => decide (n = name) || Attrs.has name l

/-- `getAttribute`, `dom/element.cpp` 142–147. -/
def Attrs.get (name : Str) : Attrs → Option Str
  | [] => none
  | (n, v) :: l => if n = name then some v else Attrs.get name l

/-- `Gfx::BLACK`, `Gfx::WHITE` and `Gfx::BLUE500`. -/
inductive Colour where
  | black | white | blue
  deriving DecidableEq, Repr

/-- `Scene::Box` as far as it is used here: a rectangle, the radius of all corners, the width and the colour of the border on
all sides, the background. -/
structure SBox where
  x : Rat
  y : Rat
  w : Rat
  h : Rat
  radius : Rat
  border : Rat
  borderColour : Colour
  fill : Colour
  deriving DecidableEq

/-- `Rect::shrink`, Karm: by the same length on all sides. -/
def SBox.shrink (b : SBox) (d : Rat) : SBox :=
  { b with x := b.x + d, y := b.y + d, w := b.w - d - d, h := b.h - d - d }

/-- What comes out; `panic` is that of `Opt::unwrap`. -/
inductive Shown where
  | nothing
  | scene (boxes : List SBox)
  | text (s : Str)
  | panic
  deriving DecidableEq

/-- `_buildInputProse`, `layout/builder/mod.cpp` 354–368. -/
def inputProse (a : Attrs) : Shown :=
  if a.has "value".toList then
    match a.get "value".toList with
    | some v => .text v
    | none => .panic
  else if a.has "placeholder".toList then
    match a.get "placeholder".toList with
    | some v => .text v
    | none => .panic
  else .text []

/-- The rectangle with its border, `layout/builder/mod.cpp` 432–457. -/
def frame (type : Str) : SBox :=
  { x := 0, y := 0, w := 14, h := 14, radius := if type = "checkbox".toList then 2 else 99, border := 1,
    borderColour := .black, fill := .white }

/-- `checked`, `layout/builder/mod.cpp` 459. -/
def checked (a : Attrs) : Bool :=
  a.has "checked".toList || decide ((a.get "value".toList).getD [] = "on".toList)

/-- The mark, `layout/builder/mod.cpp` 461–474: no border. -/
def mark (type : Str) : SBox :=
  { (frame type).shrink 2 with border := 0, fill := .blue }

/-- `_buildVoidElement` of an `<input>`, `layout/builder/mod.cpp` 421–479. -/
def input (a : Attrs) : Shown :=
  let type := (a.get "type".toList).getD []
  if type = "hidden".toList then .nothing
  else if type = "radio".toList ∨ type = "checkbox".toList then
    .scene (frame type :: if checked a then [mark type] else [])
  else inputProse a

/-- What the builder of boxes is told (`Build/Model.lean`). -/
def Shown.toInput : Shown → Verif.Build.Input
  | .scene _ => .widget
  | .text s => .text s
  | _ => .hidden

end Verif.Forms
