import Verif.Basis.Model
/-!
# What CSS says of the sizes of flex items

CSS Flexible Box Layout 1, sections 4.5, 7.2, 9.2 and 9.9.  Nothing here refers to the functions of the model.
-/
namespace Verif.Basis

/-- What a length or percentage is when percentages refer to `inner`, which may not be known. -/
def Calc.worth (inner : Option Rat) : Calc → Option Rat
  | .length v => some v
  | .percent p => inner.map fun w => w * p / 100
  | .mix v p => inner.map fun w => w * p / 100 + v

/-- The border box that a size given for a box makes: content is never negative. -/
def boxed (i : Item) (v : Rat) : Rat := if i.contentBox then max v 0 + i.edges else max v i.edges

/-- The size of a property as a border box, if it says one.  `fit-content` in no space given is `max-content`. -/
def specified (inner : Option Rat) (i : Item) : Size → Option Rat
  | .auto => none
  | .calc c => (c.worth inner).map (boxed i)
  | .minContent => some (i.minC + i.edges)
  | .maxContent => some (i.maxC + i.edges)
  | .fitContent => some (min i.maxC (max i.minC ((inner.getD (i.maxC + i.edges)) - i.edges)) + i.edges)

/-- The flex base size (9.2, step 3): the flex basis, which is the size where it is `auto`; the largest size of the
content if there is none. -/
def specBase (inner : Option Rat) (i : Item) : Rat :=
  ((match i.basis with
    | .content => none
    | .auto => specified inner i i.size
    | .calc c => specified inner i (.calc c))).getD (i.maxC + i.edges)

/-- The largest size allowed, if there is one, in a container of a known size. -/
def specMax (inner : Rat) (i : Item) : Option Rat :=
  match i.maxSize with
  | .none => none
  | .calc c => specified (some inner) i (.calc c)
  | .minContent => specified (some inner) i .minContent
  | .maxContent => specified (some inner) i .maxContent
  | .fitContent => specified (some inner) i .fitContent

/-- No more than the largest size, where that is given as a length. -/
def capped (inner : Rat) (i : Item) (v : Rat) : Rat :=
  match i.maxSize with
  | .calc c => match specified (some inner) i (.calc c) with
    | some m => min v m
    | none => v
  | _ => v

/-- The automatic minimum size (4.5): the smaller one of the size of the content and the size specified, each no more
than the largest size; for items that scroll it is that of no content. -/
def specAuto (inner : Rat) (i : Item) : Rat :=
  if i.scrolls then i.edges
  else match i.size with
    | .calc c => match specified (some inner) i (.calc c) with
      | some v => min (capped inner i (i.minC + i.edges)) (capped inner i v)
      | none => capped inner i (i.minC + i.edges)
    | _ => capped inner i (i.minC + i.edges)

/-- The smallest size allowed in a container of a known size. -/
def specMin (inner : Rat) (i : Item) : Rat := (specified (some inner) i i.minSize).getD (specAuto inner i)

end Verif.Basis
