import Verif.Counter.ScopeLemmas
/-! # Counter scoping: properties (C14) -/
namespace Verif.Counter.Scope

theorem at_cons {α : Type} (a : α) (kids : List (Note α)) (i : Nat) (p : List Nat) :
    (Note.mk a kids).at (i :: p) = rowAt kids i p := by
  rw [Note.at, rowAt]
  cases kids[i]? <;> rfl

/-- C14 where only one row of siblings acts on the counter: at every element other than
    the root, the value read is the one CSS gives, when what its ancestors and their
    preceding siblings do, and what lies below its preceding siblings, leaves the counter
    alone. Missing: counters seen from the parent, from outer rows and from inside
    preceding siblings, which the code does not hand on. -/
theorem C14_one_row_partial (root : El) (path : List Nat) (x : Name) (hroot : Leaves x root.ops)
    (hrow : OnlyItsRow x root.kids path) :
    valueAt root path x = Css.valueAt root path x := by
  obtain ⟨id, ops, kids⟩ := root
  cases path with
  | nil => cases kids <;> exact absurd hrow (by simp [OnlyItsRow])
  | cons i p =>
    unfold valueAt Css.valueAt resolveDocument
    rw [resolve, Css.visit]
    rw [show Css.acts x ops = [] from acts_leaves hroot]
    simp only [List.foldl_nil]
    have := row_below x p i kids 1 (resolveCounter [] [] id ops) [] [] rfl hrow
    rw [at_cons, at_cons]
    exact this

def item (id : Nat) (v : Int) : El := .mk id { increments := [("n", v)] } []

/-- A list of three items, the second with unrelated content, the third after a reset. -/
def sampleDoc : El :=
  .mk 0 {} [.mk 1 {} [item 2 1, .mk 3 { increments := [("n", 5)] } [.mk 4 { sets := [("m", 2)] } []],
    .mk 5 { resets := [("n", true, 9)], increments := [("n", 2)] } []]]

theorem leavesAll_leaf {x : Name} {id : Nat} {ops : Ops} (h : Leaves x ops) : LeavesAll x (.mk id ops []) :=
  .mk h (by simp)

example : Leaves "n" sampleDoc.ops ∧ OnlyItsRow "n" sampleDoc.kids [0, 2] ∧
    valueAt sampleDoc [0, 2] "n" = some 7 ∧ valueAt sampleDoc [0, 1] "n" = some 6 := by
  refine ⟨by simp [Leaves, sampleDoc, El.ops], ⟨by simp [sampleDoc, El.kids, El.ops, Leaves], _, rfl, ?_, ?_⟩,
    by decide, by decide⟩
  · intro e he k hk
    simp [El.kids, item] at he
    rcases he with rfl | rfl
    · simp [El.kids] at hk
    · simp [El.kids] at hk
      subst hk
      exact leavesAll_leaf (by simp [Leaves])
  · intro e he h
    exact absurd h (by decide)

/-- C14 is false: a child does not see the counter its parent reset. -/
theorem C14_fails : ∃ root path x, valueAt root path x = some 0 ∧ Css.valueAt root path x = some 5 := by
  refine ⟨.mk 0 {} [.mk 1 { resets := [("n", false, 5)] } [.mk 2 {} []]], [0, 0], "n", by decide, by decide⟩

/-- C14 is false: increments inside one item are lost to the next, even under one reset. -/
theorem C14_nested_fails : ∃ root path x, valueAt root path x = some 0 ∧ Css.valueAt root path x = some 2 := by
  refine ⟨.mk 0 {} [.mk 1 { resets := [("n", false, 0)] } [.mk 2 {} [item 3 2], .mk 4 {} []]], [0, 1], "n",
    by decide, by decide⟩

/-- C14 is false: a list item that increments another counter is no longer numbered. -/
theorem C14_list_item_fails : ∃ root path,
    valueAt root path "list-item" = some 0 ∧ Css.valueAt root path "list-item" = some 1 := by
  refine ⟨.mk 0 {} [.mk 1 { listItem := true, increments := [("n", 1)] } []], [0], by decide, by decide⟩

/-- C14 is false of the root element, where nothing is stored. -/
theorem C14_root_fails : ∃ root x, valueAt root [] x = some 0 ∧ Css.valueAt root [] x = some 3 := by
  refine ⟨.mk 0 { resets := [("n", false, 3)] } [], "n", by decide, by decide⟩

end Verif.Counter.Scope
