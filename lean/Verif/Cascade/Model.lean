import Verif.Selector.Model
/-!
# The cascade: `style/cascaded.cpp`, `style/origin.cpp`

Property names and values are numbers; the value of a shorthand stands for its whole
text.  What a shorthand expands to is a parameter (`props/*.cpp: expandShorthand`).
-/
namespace Verif.Cascade
open Verif.Selector (Specificity)

/-- `Origin`.  `origin.cpp:10-18`. -/
inductive Origin | userAgent | user | presentationalHint | author | inline
deriving DecidableEq, Repr

/-- `toUnderlyingType`, used by `operator<=>`.  `origin.cpp:20-22`. -/
def Origin.rank : Origin → Nat
  | .userAgent => 0
  | .user => 1
  | .presentationalHint => 2
  | .author => 3
  | .inline => 4

/-- A declaration as handed to `CascadedValues::put`: a property with its flags
(`props/base.cpp:193-244`) and the origin and specificity of its rule. -/
structure Decl where
  name : Nat
  value : Nat
  important : Bool := false
  origin : Origin := .author
  specificity : Specificity := .zero
  shorthand : Bool := false
  bogus : Bool := false
deriving DecidableEq, Repr

/-- `CascadedValues::Entry`.  `cascaded.cpp:18-23`. -/
structure Entry where
  decl : Decl
  order : Nat
deriving DecidableEq, Repr

def compareBool (a b : Bool) : Ordering := compare a.toNat b.toNat

/-- Lexicographic comparison of specificities.  `selector.cpp:1191`. -/
def compareSpec (x y : Specificity) : Ordering :=
  if x.a ≠ y.a then compare x.a y.a else if x.b ≠ y.b then compare x.b y.b else compare x.c y.c

/-- `Entry::operator<=>`.  `cascaded.cpp:25-33`. -/
def Entry.compare (x y : Entry) : Ordering :=
  if x.decl.important ≠ y.decl.important then compareBool x.decl.important y.decl.important
  else if x.decl.origin ≠ y.decl.origin then Ord.compare x.decl.origin.rank y.decl.origin.rank
  else if x.decl.specificity ≠ y.decl.specificity then compareSpec x.decl.specificity y.decl.specificity
  else Ord.compare x.order y.order

/-- `_entries`: keys in insertion order. -/
abbrev Entries := List (Nat × Entry)

def Entries.lookup (m : Entries) (n : Nat) : Option Entry := (m.find? (fun p => p.1 == n)).map (·.2)

/-- `_putLonghand`: look up or insert, replace when the new entry is not smaller.
`cascaded.cpp:39-45`. -/
def putLonghand : Entries → Nat → Entry → Entries
  | [], n, e => [(n, e)]
  | (k, x) :: m, n, e =>
    if k = n then (k, if e.compare x ≠ .lt then e else x) :: m else (k, x) :: putLonghand m n e

/-- `CascadedValues`: the map and `_declarationOrder`. -/
structure State where
  entries : Entries := []
  next : Nat := 0

/-- `put`.  `cascaded.cpp:47-52`. -/
def put (s : State) (d : Decl) : State :=
  if d.bogus then s else ⟨putLonghand s.entries d.name ⟨d, s.next⟩, s.next + 1⟩

/-- All declarations of an element, in the order they are put. -/
def cascade (ds : List Decl) : State := ds.foldl put {}

/-- The longhand declared by a shorthand entry. -/
def longhand (d : Decl) (p : Nat × Nat) : Decl := { d with name := p.1, value := p.2, shorthand := false }

/-- `expandShorthands`.  `cascaded.cpp:59-73`. -/
def expandShorthands (expand : Decl → List (Nat × Nat)) (m : Entries) : Entries :=
  let shorthands := (m.map (·.2)).filter (·.decl.shorthand)
  shorthands.foldl (fun m e =>
    (expand e.decl).foldl (fun m p => putLonghand m p.1 ⟨longhand e.decl p, e.order⟩)
      (m.filter (fun q => q.1 != e.decl.name))) m

end Verif.Cascade
