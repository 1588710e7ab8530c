/-!
# Counter scoping: model

Models `CounterSet` of `/repo/src/vaev-engine/style/counter.cpp` lines 19–141 and
`_resolveCounter`, `_resolveCounters` of style/computer.cpp lines 98–151.

Simplifications: `Integer` is `Int` (no overflow); the parser always supplies the number
of a reset, increment or set (values/counter.cpp lines 205–237), so the defaults and the
start value computed for `reversed()` are left out; children that are not elements are
left out (computer.cpp line 140 skips them).
-/
namespace Verif.Counter.Scope

abbrev Name := String

/-- `Counter`, style/counter.cpp lines 19–24. -/
structure Counter where
  name : Name
  el : Nat
  reversed : Bool
  value : Int
deriving DecidableEq, Repr

/-- `CounterSet`, style/counter.cpp lines 30–31. -/
abbrev CounterSet := List Counter

/-- `CounterSet::contains`, style/counter.cpp lines 107–112. -/
def contains (s : CounterSet) (name : Name) (el : Nat) : Bool :=
  s.any fun c => c.name = name && c.el = el

/-- `CounterSet::inherits`, style/counter.cpp lines 33–56. -/
def inherits (parent sibling : CounterSet) : CounterSet :=
  let counterSource := if sibling.isEmpty then parent else sibling
  let valueSource := sibling
  valueSource.foldl
    (fun acc c => if contains counterSource c.name c.el then acc ++ [c] else acc) []

/-- The loop of `CounterSet::innerMost`, style/counter.cpp lines 114–125, from index `i` on. -/
def innerMostFrom (name : Name) : Nat → CounterSet → Option (Counter × Nat) → Option (Counter × Nat)
  | _, [], found => found
  | i, c :: cs, found => innerMostFrom name (i + 1) cs (if c.name = name then some (c, i) else found)

/-- `CounterSet::innerMost`, style/counter.cpp lines 114–125. -/
def innerMost (s : CounterSet) (name : Name) : Option (Counter × Nat) := innerMostFrom name 0 s none

/-- `CounterSet::innerMostValue`, style/counter.cpp lines 127–132. -/
def innerMostValue (s : CounterSet) (name : Name) : Int :=
  match innerMost s name with
  | none => 0
  | some (c, _) => c.value

/-- `CounterProps`, values/counter.cpp lines 178–203, and whether the element is a list item
    (`display: list-item`, computer.cpp line 118). -/
structure Ops where
  resets : List (Name × Bool × Int) := []
  increments : List (Name × Int) := []
  sets : List (Name × Int) := []
  listItem : Bool := false
deriving DecidableEq, Repr

/-- `CounterSet::instantiateCounter`, style/counter.cpp lines 59–73. -/
def instantiate (s : CounterSet) (el : Nat) (name : Name) (reversed : Bool) (initial : Int) : CounterSet :=
  let s :=
    match innerMost s name with
    | some (c, i) => if c.el = el then s.eraseIdx i else s
    | none => s
  s ++ [⟨name, el, reversed, initial⟩]

/-- Changing the value of the counter found by `innerMost`. -/
def update (s : CounterSet) (name : Name) (f : Counter → Int) : CounterSet :=
  match innerMost s name with
  | some (c, i) => s.set i { c with value := f c }
  | none => s

/-- The innermost counter of that name, made if there is none: style/counter.cpp
    lines 77–84 and 91–98. -/
def ensure (s : CounterSet) (el : Nat) (name : Name) : CounterSet :=
  match innerMost s name with
  | some _ => s
  | none => instantiate s el name false 0

/-- `CounterSet::increment`, style/counter.cpp lines 76–87. -/
def increment (s : CounterSet) (el : Nat) (name : Name) (value : Int) : CounterSet :=
  update (ensure s el name) name (fun c => c.value + (if c.reversed then -1 else 1) * value)

/-- `CounterSet::set`, style/counter.cpp lines 90–101. -/
def set (s : CounterSet) (el : Nat) (name : Name) (value : Int) : CounterSet :=
  update (ensure s el name) name (fun _ => value)

/-- `_resolveCounter`, style/computer.cpp lines 98–128. -/
def resolveCounter (parent sibling : CounterSet) (el : Nat) (ops : Ops) : CounterSet :=
  let s := inherits parent sibling
  let s := ops.resets.foldl (fun s r => instantiate s el r.1 r.2.1 r.2.2) s
  let s :=
    if ops.increments ≠ [] then ops.increments.foldl (fun s i => increment s el i.1 i.2) s
    else if ops.listItem then increment s el "list-item" 1
    else s
  ops.sets.foldl (fun s i => set s el i.1 i.2) s

/-- An element, its counter properties and its element children. -/
inductive El where
  | mk (id : Nat) (ops : Ops) (kids : List El)

/-- Something noted at each element of a row and below. -/
inductive Note (α : Type) where
  | mk (a : α) (kids : List (Note α))

mutual
/-- `_resolveCounters`, style/computer.cpp lines 130–151: the set returned, and what is
    stored at the children (line 146). -/
def resolve (parent sibling : CounterSet) : El → CounterSet × List (Note CounterSet)
  | .mk id ops kids =>
    let current := resolveCounter parent sibling id ops
    (current, resolveRow current [] kids)

/-- The loop over the children, style/computer.cpp lines 137–148. -/
def resolveRow (current childSibling : CounterSet) : List El → List (Note CounterSet)
  | [] => []
  | e :: es =>
    let r := resolve current childSibling e
    .mk r.1 r.2 :: resolveRow current r.1 es
end

/-- `styleDocument`, style/computer.cpp lines 501–512: nothing is stored at the root itself,
    whose set stays empty. -/
def resolveDocument (root : El) : Note CounterSet := .mk [] (resolve [] [] root).2

/-- The note at a path of child indices. -/
def Note.at {α : Type} : Note α → List Nat → Option α
  | .mk a _, [] => some a
  | .mk _ kids, i :: p =>
    match kids[i]? with
    | some k => k.at p
    | none => none

/-- The value read for a counter at the element at a path. -/
def valueAt (root : El) (path : List Nat) (name : Name) : Option Int :=
  ((resolveDocument root).at path).map (innerMostValue · name)

end Verif.Counter.Scope
