import Verif.Counter.Scope
/-!
# What CSS says about the scope of a counter

For one counter name, in the terms of CSS Lists 3: instances of the counter hold values;
an element sees a list of instances, outermost first. It starts from those its preceding
sibling saw, or else its parent, with the values they have by now in document order.
-/
namespace Verif.Counter.Scope.Css

/-- What an element does to one counter. -/
inductive Act where
  | reset (reversed : Bool) (value : Int)
  | add (value : Int)
  | assign (value : Int)

/-- What an element does to the counter `x`, in the order of CSS: resets, then increments,
    then sets. A list item adds one to `list-item` unless it says otherwise for that counter. -/
def acts (x : Name) (ops : Ops) : List Act :=
  (ops.resets.filterMap fun r => if r.1 = x then some (.reset r.2.1 r.2.2) else none) ++
  (if x = "list-item" ∧ ops.listItem ∧ ¬ ops.increments.any (·.1 = x) then [.add 1]
   else ops.increments.filterMap fun i => if i.1 = x then some (.add i.2) else none) ++
  (ops.sets.filterMap fun i => if i.1 = x then some (.assign i.2) else none)

/-- An instance in view: the depth of the element that made it, and where its value is. -/
structure Inst where
  depth : Nat
  cell : Nat

/-- The values of all instances made so far; a reversed one counts down. -/
abbrev Store := List (Bool × Int)

/-- A new instance. One made by this element or a preceding sibling gives way to it. -/
def make (depth : Nat) (reversed : Bool) (value : Int) (scope : List Inst) (store : Store) : List Inst × Store :=
  let scope := match scope.getLast? with
    | some i => if i.depth = depth then scope.dropLast else scope
    | none => scope
  (scope ++ [⟨depth, store.length⟩], store ++ [(reversed, value)])

/-- Change the innermost instance, made first with value zero if there is none. -/
def change (depth : Nat) (f : Bool → Int → Int) (scope : List Inst) (store : Store) : List Inst × Store :=
  let (scope, store) := match scope.getLast? with
    | some _ => (scope, store)
    | none => make depth false 0 scope store
  match scope.getLast? with
  | some i => (scope, store.modify i.cell fun c => (c.1, f c.1 c.2))
  | none => (scope, store)

def act (depth : Nat) (s : List Inst × Store) : Act → List Inst × Store
  | .reset r v => make depth r v s.1 s.2
  | .add v => change depth (fun r w => if r then w - v else w + v) s.1 s.2
  | .assign v => change depth (fun _ _ => v) s.1 s.2

/-- The value of the innermost instance in view, zero if there is none. -/
def read (scope : List Inst) (store : Store) : Int :=
  match scope.getLast? with
  | some i => (store.getD i.cell (false, 0)).2
  | none => 0

mutual
/-- Visit an element in document order: what it reads, the same for its descendants, the
    instances it sees, and the values after it and its descendants. -/
def visit (x : Name) (depth : Nat) (scope : List Inst) (store : Store) : El → Note Int × List Inst × Store
  | .mk _ ops kids =>
    let s := (acts x ops).foldl (act depth) (scope, store)
    let r := visitRow x (depth + 1) s.1 s.2 kids
    (.mk (read s.1 s.2) r.1, s.1, r.2)

/-- Visit siblings; each starts from what the one before saw. -/
def visitRow (x : Name) (depth : Nat) (scope : List Inst) (store : Store) : List El → List (Note Int) × Store
  | [] => ([], store)
  | e :: es =>
    let r := visit x depth scope store e
    let rest := visitRow x depth r.2.1 r.2.2 es
    (r.1 :: rest.1, rest.2)
end

/-- The value of counter `x` at the element at a path. -/
def valueAt (root : El) (path : List Nat) (x : Name) : Option Int :=
  (visit x 0 [] [] root).1.at path

end Css

def El.ops : El → Ops | .mk _ ops _ => ops
def El.kids : El → List El | .mk _ _ kids => kids

/-- The element does nothing to the counter `x`. -/
def Leaves (x : Name) (ops : Ops) : Prop :=
  (∀ r ∈ ops.resets, r.1 ≠ x) ∧ (∀ i ∈ ops.increments, i.1 ≠ x) ∧ (∀ i ∈ ops.sets, i.1 ≠ x) ∧
  (x = "list-item" → ops.listItem = false)

/-- Nor does any element below. -/
inductive LeavesAll (x : Name) : El → Prop
  | mk {id ops kids} : Leaves x ops → (∀ k ∈ kids, LeavesAll x k) → LeavesAll x (.mk id ops kids)

/-- Not a list item that increments other counters only. -/
def PlainItem (x : Name) (ops : Ops) : Prop :=
  x = "list-item" → ops.listItem → ops.increments ≠ [] → ∃ i ∈ ops.increments, i.1 = x

/-- Only the row of the element at the path does anything to `x` that can be seen there:
    above, neither its ancestors nor their preceding siblings do; nor does
    anything below its own preceding siblings. -/
def OnlyItsRow (x : Name) : List El → List Nat → Prop
  | _, [] => False
  | row, [i] => (∀ e ∈ row.take i, ∀ k ∈ e.kids, LeavesAll x k) ∧ (∀ e ∈ row.take (i + 1), PlainItem x e.ops)
  | row, i :: j :: p => (∀ e ∈ row.take (i + 1), Leaves x e.ops) ∧
      ∃ e, row[i]? = some e ∧ OnlyItsRow x e.kids (j :: p)

end Verif.Counter.Scope
