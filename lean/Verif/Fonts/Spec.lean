import Verif.Values.Spec
import Verif.Fonts.Model
/-!
# What CSS says of fonts and of the lengths that refer to them
-/
namespace Verif.Fonts
open Verif.Values (Length Ctx AbsUnit RelUnit worth absTable)

/-- `Within t p q d v`: in the styled tree `t`, whose root inherits from `p`, there is an element or pseudo-element with
declarations `d` and values `v` whose parent has the values `q`. -/
inductive Within : Styled → Vals → Vals → Decls → Vals → Prop
  | here {d v ps ks p} : Within (.mk d v ps ks) p p d v
  | pseudo {d v ps ks p d' v'} : (d', v') ∈ ps → Within (.mk d v ps ks) p v d' v'
  | kid {d v ps ks p k q d' v'} : k ∈ ks → Within k v q d' v' → Within (.mk d v ps ks) p q d' v'

/-- The elements and pseudo-elements under the root. -/
inductive Below : Styled → Vals → Decls → Vals → Prop
  | pseudo {d v ps ks d' v'} : (d', v') ∈ ps → Below (.mk d v ps ks) v d' v'
  | kid {d v ps ks k q d' v'} : k ∈ ks → Within k v q d' v' → Below (.mk d v ps ks) q d' v'

/-- The face that is meant for families tried in order: the first one that can be had, else the one of the system, else
the built-in one. -/
inductive Chosen (e : Env) (q : Query) : List Nat → Nat → Prop
  | family {pre f post face} : (∀ n ∈ pre, e.query n q = none) → e.query f q = some face →
      Chosen e q (pre ++ f :: post) face
  | system {l face} : (∀ n ∈ l, e.query n q = none) → e.system = some face → Chosen e q l face
  | builtin {l} : (∀ n ∈ l, e.query n q = none) → e.system = none → Chosen e q l e.fallback

/-- The weight that is declared, or the parent's. -/
inductive WeightIs (e : Env) (parent : Nat) : Option Weight → Nat → Prop
  | same : WeightIs e parent none parent
  | number {n} : WeightIs e parent (some (.absolute n)) n
  | bolder : WeightIs e parent (some .bolder) (e.bolder parent)
  | lighter : WeightIs e parent (some .lighter) (e.lighter parent)

/-- The face of an element: chosen for the families, the weight, the width and the style that it declares or else has
from its parent. -/
def RightFace (e : Env) (parent : Vals) (d : Decls) (v : Vals) : Prop :=
  ∃ weight, WeightIs e parent.font.weight d.weight weight ∧
    Chosen e ⟨weight, e.round (d.width.getD parent.font.width * 10), d.style.getD parent.font.style⟩
      (d.families.getD parent.font.families) v.face

/-- What relative units refer to, for an element with face and size `own` in a document whose root has `root`. -/
def basis (e : Env) (own root : Nat × Rat) : Ctx :=
  { fontSize := own.2, xHeight := (e.metrics own.1 own.2).xHeight, capHeight := (e.metrics own.1 own.2).capHeight,
    zeroAdvance := (e.metrics own.1 own.2).zeroAdvance, lineHeight := (e.metrics own.1 own.2).lineHeight,
    rootFontSize := root.2, rootXHeight := (e.metrics root.1 root.2).xHeight,
    rootCapHeight := (e.metrics root.1 root.2).capHeight, rootZeroAdvance := (e.metrics root.1 root.2).zeroAdvance,
    rootLineHeight := (e.metrics root.1 root.2).lineHeight,
    smallWidth := e.smallWidth, smallHeight := e.smallHeight, largeWidth := e.largeWidth, largeHeight := e.largeHeight,
    dynamicWidth := e.dynamicWidth, dynamicHeight := e.dynamicHeight, horizontal := true }

/-- The units that refer to the root element. -/
def ofRoot : RelUnit → Bool
  | .rem | .rex | .rcap | .rch | .ric | .rlh => true
  | _ => false

/-- A length in pixels. -/
inductive Means (c : Ctx) : Length → Rat → Prop
  | abs {k u per v} : (k, u, per) ∈ absTable → Means c (.abs v u) (v / per * 96)
  | rel {v u} : 0 ≤ v ∨ u.isMinMax = false → Means c (.rel v u) (v * worth c u)

/-- What a size is, in pixels, but for the keywords: lengths as written, percentages of the parent's size. -/
inductive SizeIs (c : Ctx) (parent : Rat) : Size → Rat → Prop
  | length {l x} : Means c l x → SizeIs c parent (.length l) x
  | percent {v} : SizeIs c parent (.percent v) (v / 100 * parent)

/-- The face and the size of some values. -/
def Vals.faceSize (e : Env) (v : Vals) : Nat × Rat := (v.face, e.px v.font.size)

/-- The keywords for sizes, from small to large, with the factors that CSS gives (CSS Fonts 4, section 2.5.1). -/
def sizeTable : List (Size × Rat) :=
  [(.xxSmall, 3 / 5), (.xSmall, 3 / 4), (.small, 8 / 9), (.medium, 1), (.large, 6 / 5), (.xLarge, 3 / 2),
   (.xxLarge, 2)]

/-- Where a line of text is, and whether it may be broken. -/
def sideOf (rtl : Bool) : TextAlign → Option Side
  | .left => some .left
  | .right => some .right
  | .center | .blockCenter => some .center
  | .start => some (if rtl then .right else .left)
  | .end' => some (if rtl then .left else .right)
  | _ => none

/-- The values of `white-space` that allow lines to be broken. -/
def breaks : WhiteSpace → Prop
  | .pre | .nowrap => False
  | _ => True

end Verif.Fonts
