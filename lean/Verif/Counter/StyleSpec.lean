import Verif.Counter.Style
/-! # What counter styles should print -/
namespace Verif.Counter

/-- The number written by digits in base `n`, most significant first. -/
def inBase (n : Nat) : List Nat → Nat
  | [] => 0
  | d :: ds => d * n ^ ds.length + inBase n ds

/-- The number written by digits in bijective base `n`: digit `d` counts as `d + 1`. -/
def inBijectiveBase (n : Nat) : List Nat → Nat
  | [] => 0
  | d :: ds => (d + 1) * n ^ ds.length + inBijectiveBase n ds

/-- `value` lies in the range of the style. -/
def InRange (st : Style) (value : Int) : Prop :=
  ∀ rs, st.range = some rs → ∃ r ∈ rs, (∀ lo, r.1 = some lo → lo ≤ value) ∧ (∀ hi, r.2 = some hi → value ≤ hi)

/-- `out` shows the symbols `body`, among the sign, padding, prefix and suffix. -/
def Shows (out : Option Out) (body : List Sym) : Prop :=
  ∃ before after, out = some (.text (before ++ body ++ after))

/-- The text of a representation. -/
def textOf (s : List Sym) : String := String.join s

/-- Symbols at given positions. -/
def pick (syms : List Sym) (ds : List Nat) : List Sym := ds.map (fun d => syms.getD d "")

/-- Each tuple of the list repeated as often as the matching count. -/
def spell : List (Int × Sym) → List Nat → List Sym
  | (_, s) :: ts, c :: cs => List.replicate c s ++ spell ts cs
  | _, _ => []

/-- The weights of the tuples, each taken as often as the matching count. -/
def total : List (Int × Sym) → List Nat → Int
  | (w, _) :: ts, c :: cs => w * c + total ts cs
  | _, _ => 0

/-- `st` prints with no padding. -/
def Unpadded (st : Style) : Prop := st.pad.1 = 0

/-- The style registered under `name` is `st`. -/
def Registered (styles : Styles) (name : Name) (st : Style) : Prop := styles name = some st

/-- `ds` are the rules met from `name` on when following `extends`, up to the first
    that extends nothing or a name with no rule. No such list exists when following
    `extends` runs in a circle. -/
inductive Chain (counters : DescSet) : Name → List Descriptors → Prop
  | missing {n} : look counters n = none → Chain counters n []
  | last {n d} : look counters n = some d → (∀ m, d.system ≠ some (.extends_ m)) → Chain counters n [d]
  | step {n d m ds} : look counters n = some d → d.system = some (.extends_ m) → Chain counters m ds →
      Chain counters n (d :: ds)

/-- The system given by a rule, when it is not `extends`. -/
def ownSystem (d : Descriptors) : Option System :=
  match d.system with
  | some (.extends_ _) => none
  | s => s

/-- The style that a chain of rules stands for: each descriptor is that of the first
    rule giving one, or else the initial value. -/
def styleOf (ds : List Descriptors) : Style :=
  { system := (ds.findSome? ownSystem).getD .symbolic
    negative := (ds.findSome? (·.negative)).getD ("-", none)
    prefix_ := (ds.findSome? (·.prefix_)).getD ""
    suffix := (ds.findSome? (·.suffix)).getD ". "
    range := (ds.findSome? (·.range)).getD none
    pad := (ds.findSome? (·.pad)).getD (0, "")
    fallback := (ds.findSome? (·.fallback)).getD "decimal"
    symbols := (ds.findSome? (·.symbols)).getD []
    additive := (ds.findSome? (·.additive)).getD [] }

end Verif.Counter
