import Verif.Face.Model
import Verif.Short.Spec
/-!
# The descriptors of `@font-face`: what is meant

CSS Fonts 4, section 4: how the descriptors are written, what each says of the face, and that the last
one of a kind holds.  With `strict` it is cut down to what the code reads as meant.
-/
namespace Verif.Face.Spec
open Verif.Values Verif.Short

/-- What a descriptor says of the face. -/
inductive Setting where
  | family (n : List Char)
  | sources (ss : List Source)
  | slant (s : Slant)
  /-- The weights from the first to the second; `none` for what the file says. -/
  | weight (w : Option (Int × Int))
  /-- The widths, in percent. -/
  | width (w : Option (Rat × Rat))
  | display (d : Display)
  /-- What the metrics of the file are multiplied with. -/
  | ascent (q : Rat)
  | descent (q : Rat)
  | lineGap (q : Rat)
  | size (q : Rat)

/-- An angle: a number and a unit. -/
inductive AngleTok : Tok → Prop
  | mk {k u w} (n : Lit) : (k, u) ∈ angleUnits → Cased w k.toList → AngleTok (.dim (n.text ++ w))

/-- A weight: a word or a number from 1 to 1000. -/
inductive WeightTok : Tok → Int → Prop
  | normal {t} : Word "normal" t → WeightTok t 400
  | bold {t} : Word "bold" t → WeightTok t 700
  | number {ds : List (Fin 10)} : ds ≠ [] → 1 ≤ decimal ds → decimal ds ≤ 1000 → WeightTok (.number (ds.map digitChar)) (decimal ds)

/-- A percentage that is not negative. -/
inductive PercTok : Tok → Rat → Prop
  | mk (n : Lit) : 0 ≤ n.value → PercTok (.percent (n.text ++ ['%'])) n.value

/-- A width: a word or a percentage. -/
inductive WidthTok : Tok → Rat → Prop
  | normal {t} : Word "normal" t → WidthTok t 100
  | word {k w t} : (k, w) ∈ widthNames → Word k t → WidthTok t w
  | percent {t w} : PercTok t w → WidthTok t w

/-- One value or two. -/
inductive Pair {α : Type} (p : Tok → α → Prop) : List Tok → Option (α × α) → Prop
  | auto {t} : Word "auto" t → Pair p [t] none
  | one {t a} : p t a → Pair p [t] (some (a, a))
  | two {t t' a b} : p t a → p t' b → Pair p [t, t'] (some (a, b))

/-- `normal`, or a percentage. -/
inductive Factor : List Tok → Rat → Prop
  | normal {t} : Word "normal" t → Factor [t] 1
  | percent {t p} : PercTok t p → Factor [t] (p / 100)

/-- The words for how a face is waited for. -/
def displays : List (String × Display) :=
  [("auto", .auto), ("block", .block), ("fallback", .fallback), ("optional", .optional), ("swap", .swap)]

/-- What a descriptor with this name and this value says. -/
inductive Says (strict : Bool) : String → List Tok → Setting → Prop
  | family {ts n} : FamilyText ts n → (strict = true → ts.length = 1) → Says strict "font-family" ts (.family n)
  | sources {ts ss} : SrcTexts ts ss → Says strict "src" ts (.sources ss)
  | auto {t} : Word "auto" t → Says strict "font-style" [t] (.slant .normal)
  | normal {t} : Word "normal" t → Says strict "font-style" [t] (.slant .normal)
  | italic {t} : Word "italic" t → Says strict "font-style" [t] (.slant .italic)
  | oblique {t} : Word "oblique" t → Says strict "font-style" [t] (.slant .oblique)
  | angle {t a} : Word "oblique" t → AngleTok a → Says strict "font-style" [t, a] (.slant .oblique)
  | angles {t a b} : strict = false → Word "oblique" t → AngleTok a → AngleTok b → Says strict "font-style" [t, a, b] (.slant .oblique)
  | weight {ts w} : Pair WeightTok ts w → Says strict "font-weight" ts (.weight w)
  | width {ts w} : Pair WidthTok ts w → Says strict "font-width" ts (.width w)
  /-- The older name. -/
  | stretch {ts w} : strict = false → Pair WidthTok ts w → Says strict "font-stretch" ts (.width w)
  | display {k d t} : (k, d) ∈ displays → Word k t → Says strict "font-display" [t] (.display d)
  | ascent {ts q} : Factor ts q → Says strict "ascent-override" ts (.ascent q)
  | descent {ts q} : Factor ts q → Says strict "descent-override" ts (.descent q)
  | lineGap {ts q} : Factor ts q → Says strict "line-gap-override" ts (.lineGap q)
  | size {t p} : PercTok t p → Says strict "size-adjust" [t] (.size (p / 100))

/-- The names of descriptors. -/
def names : List String :=
  ["font-family", "src", "font-style", "font-weight", "font-width", "font-stretch", "font-display", "ascent-override",
   "descent-override", "line-gap-override", "size-adjust", "unicode-range", "font-feature-settings", "font-variation-settings",
   "font-named-instance"]

/-- A token that no value of a descriptor begins with. -/
inductive Stray : Tok → Prop
  | hash {s} : Stray (.hash s)
  | delim {s} : Stray (.delim s)
  | comma : Stray .comma
  | other : Stray .other

/-- What the declarations of an `@font-face` rule say, in order. -/
inductive Block (strict : Bool) : List (List Char × List Tok) → List Setting → Prop
  | nil : Block strict [] []
  | says {n k ts x ds l} : Cased n k.toList → Says strict k ts x → Block strict ds l → Block strict ((n, ts) :: ds) (x :: l)
  /-- A descriptor that is not known says nothing. -/
  | unknown {n ts ds l} : (∀ k ∈ names, ¬ Cased n k.toList) → Block strict ds l → Block strict ((n, ts) :: ds) l
  /-- Nor does one whose value is not one. -/
  | invalid {n t ts ds l} : Stray t → Block strict ds l → Block strict ((n, t :: ts) :: ds) l
  | empty {n ds l} : (strict = true → ¬ Cased n "font-family".toList) → Block strict ds l → Block strict ((n, []) :: ds) l

/-- The last thing of a kind that is said. -/
def lastOf {α : Type} (kind : Setting → Option α) (l : List Setting) : Option α := (l.filterMap kind).getLast?

def Setting.family? : Setting → Option (List Char) | .family n => some n | _ => none
def Setting.sources? : Setting → Option (List Source) | .sources s => some s | _ => none
def Setting.slant? : Setting → Option Slant | .slant s => some s | _ => none
def Setting.weight? : Setting → Option (Option (Int × Int)) | .weight w => some w | _ => none
def Setting.width? : Setting → Option (Option (Rat × Rat)) | .width w => some w | _ => none
def Setting.display? : Setting → Option Display | .display d => some d | _ => none
def Setting.ascent? : Setting → Option Rat | .ascent q => some q | _ => none
def Setting.descent? : Setting → Option Rat | .descent q => some q | _ => none
def Setting.lineGap? : Setting → Option Rat | .lineGap q => some q | _ => none
def Setting.size? : Setting → Option Rat | .size q => some q | _ => none

end Verif.Face.Spec
