import Verif.Forms.Model
/-!
# What an `<input>` shows: specification

After HTML, 4.10.5 and 15.5, without reference to how the code finds out.
-/
namespace Verif.Forms.Spec
open Verif.Forms (Str Attrs SBox Colour)

/-- `v` is the value of the attribute `name`. -/
def Has (a : Attrs) (name : String) (v : Str) : Prop := (name.toList, v) ∈ a

/-- No name occurs twice, as in every element that a parser makes. -/
def Proper (a : Attrs) : Prop := a.Pairwise fun p q => p.1 ≠ q.1

/-- The type of a control is written in letters of any case. -/
def OfType (a : Attrs) (t : String) : Prop := ∃ v, Has a "type" v ∧ v.map Char.toLower = t.toList

/-- A box that is not ticked is not `checked`, whatever its value. -/
def Ticked (a : Attrs) : Prop := ∃ v, Has a "checked" v

/-- The text in a field for a text: the value, or the placeholder if the value is empty or missing. -/
inductive Text (a : Attrs) : Str → Prop where
  | value {v} : Has a "value" v → v ≠ [] → Text a v
  | placeholder {v} : (∀ v, Has a "value" v → v = []) → Has a "placeholder" v → Text a v
  | empty : (∀ v, Has a "value" v → v = []) → (∀ v, ¬ Has a "placeholder" v) → Text a []

/-- The distance by which `t` is beyond the middle part, of half length `m`, of a side with the middle `c`. -/
def beyond (c m t : Rat) : Rat := max 0 (|t - c| - m)

/-- The points of a rectangle whose corners are rounded; radii that are too large are cut down to half of the shorter side, as in
CSS Backgrounds 3, 4.5. -/
def inRounded (x y w h r : Rat) (px py : Rat) : Prop :=
  let r := min r (min (w / 2) (h / 2))
  beyond (x + w / 2) (w / 2 - r) px ^ 2 + beyond (y + h / 2) (h / 2 - r) py ^ 2 ≤ r ^ 2

instance (x y w h r px py : Rat) : Decidable (inRounded x y w h r px py) :=
  inferInstanceAs (Decidable (_ ≤ _))

/-- The colour of a point in a box: that of the border between the outer and the inner edge, the background within. -/
def boxAt (b : SBox) (px py : Rat) : Option Colour :=
  if inRounded b.x b.y b.w b.h b.radius px py then
    if inRounded (b.x + b.border) (b.y + b.border) (b.w - 2 * b.border) (b.h - 2 * b.border) (b.radius - b.border) px py then
      some b.fill
    else some b.borderColour
  else none

/-- The colour of a point in a picture: later boxes are above earlier ones. -/
def colourAt : List SBox → Rat → Rat → Option Colour
  | [], _, _ => none
  | b :: l, px, py => (colourAt l px py).or (boxAt b px py)

/-- A disc. -/
def Disc (c r px py : Rat) : Prop := (px - c) ^ 2 + (py - c) ^ 2 ≤ r ^ 2

instance (c r px py : Rat) : Decidable (Disc c r px py) := inferInstanceAs (Decidable (_ ≤ _))

/-- A square given by its middle and half of its side. -/
def Square (c r px py : Rat) : Prop := |px - c| ≤ r ∧ |py - c| ≤ r

end Verif.Forms.Spec
