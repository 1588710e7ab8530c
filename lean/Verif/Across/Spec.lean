import Verif.Across.Model
/-!
# How large a flex container is across its items by their content: what is meant

CSS Flexible Box Layout 1, 9.9.2, and CSS Sizing 3, 5.2.  Percentages, which refer to what is asked for, are left out.
-/
namespace Verif.Across
open Verif.Basis (Size MaxSize Calc)

/-- The size that a property says, if it is no percentage. -/
def said (i : Item) : Size → Option Rat
  | .calc (.length v) => some v
  | .minContent => some i.minC
  | .maxContent => some i.maxC
  | _ => none

/-- The largest size allowed. -/
def saidMax (i : Item) : MaxSize → Option Rat
  | .calc (.length v) => some v
  | .minContent => some i.minC
  | .maxContent => some i.maxC
  | _ => none

/-- What an item takes up: its size, or that of its content, within its limits, with its margins. -/
def wanted (isMin : Bool) (i : Item) : Rat :=
  let v := (said i i.size).getD (if isMin then i.minC else i.maxC)
  let v := match saidMax i i.maxSize with
    | some m => min v m
    | none => v
  max ((said i i.minSize).getD 0) v + i.marginCross

/-- No percentages, no `fit-content`, and no margins. -/
structure Plain (big : Rat) (i : Item) : Prop where
  size : i.size = .auto ∨ ∃ v, i.size = .calc (.length v) ∧ v ≤ big
  min : i.minSize = .auto ∨ (∃ v, i.minSize = .calc (.length v)) ∨ i.minSize = .minContent ∨ i.minSize = .maxContent
  max : i.maxSize = .none ∨ (∃ v, i.maxSize = .calc (.length v)) ∨ i.maxSize = .minContent ∨ i.maxSize = .maxContent
  content : i.minC ≤ big ∧ i.maxC ≤ big
  main : i.marginMain = 0
  cross : i.marginCross = 0

end Verif.Across
