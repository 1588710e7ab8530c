import Verif.Dom.Preorder
/-!
# Properties C01–C03: the document tree

`Spec.lean` says what edits mean on plain child lists; `PreOrder` (in
`Preorder.lean`) is the document order of a subtree as an inductive definition.
-/
namespace Verif.Dom

/-- A legal, non-trivial history used as witness below: two children and a
grandchild, then a move of the grandchild between the two children. -/
def sampleHistory : List Edit :=
  [.append 0 1, .append 0 2, .append 1 3, .insertBefore 0 3 (some 2), .remove 1, .prepend 3 1,
   .insertAfter 0 4 (some 3), .removeChild 0 2]

theorem sampleHistory_spec :
    specEdits Kids.init sampleHistory 0 = [3, 4] ∧ specEdits Kids.init sampleHistory 3 = [1] := by
  decide

/-- **C01.**  After any legal history of edits no edit has panicked, and the children
walk forwards, the children walk backwards, the parent links and the sibling
positions all agree with the child lists obtained by doing the edits on lists. -/
theorem C01_edits_refine_child_lists (es : List Edit) (hl : LegalHistory Kids.init es) :
    ∃ h, runEdits Heap.init es = some h ∧
      (∀ p fuel, (specEdits Kids.init es p).length ≤ fuel →
        walkNext h fuel (h p).firstChild = some (specEdits Kids.init es p) ∧
        walkPrev h fuel (h p).lastChild = some (specEdits Kids.init es p).reverse) ∧
      (∀ c p, (h c).parent = some p ↔ c ∈ specEdits Kids.init es p) ∧
      (∀ p pre c post, specEdits Kids.init es p = pre ++ c :: post →
        (h c).prevSibling = pre.getLast? ∧ (h c).nextSibling = post.head?) ∧
      (∀ c, (h c).parent = none → (h c).prevSibling = none ∧ (h c).nextSibling = none) ∧
      (∀ p, (specEdits Kids.init es p).Nodup) := by
  obtain ⟨h, e, r, _⟩ := rep_init.edits grounded_init es hl
  refine ⟨h, e, fun p fuel hf => ⟨?_, ?_⟩, r.parent_iff, ?_, r.orphan, r.nodup⟩
  · rw [r.first p]; exact walkNext_seg (r.seg p) fuel hf
  · rw [r.last p]; exact walkPrev_seg _ (r.seg p) fuel hf
  · intro p pre c post e
    have := siblings_of_split r e
    exact ⟨this.1, this.2.1⟩

/-- **C01** (positions).  `index` and `reverseIndex` count the matching siblings
before and after a child. -/
theorem C01_index_counts_siblings (es : List Edit) (hl : LegalHistory Kids.init es) :
    ∃ h, runEdits Heap.init es = some h ∧
      ∀ p pre c post fuel filter, specEdits Kids.init es p = pre ++ c :: post →
        pre.length ≤ fuel → post.length ≤ fuel →
        index h fuel filter c = some (pre.countP filter) ∧
        reverseIndex h fuel filter c = some (post.countP filter) := by
  obtain ⟨h, e, r, _⟩ := rep_init.edits grounded_init es hl
  refine ⟨h, e, fun p pre c post fuel filter e h1 h2 => ?_⟩
  obtain ⟨a, b, s1, s2⟩ := siblings_of_split r e
  constructor
  · simp only [index, a, walkPrev_seg _ s1 fuel h1, Option.map_some, List.filter_reverse,
      List.length_reverse, List.countP_eq_length_filter]
  · simp only [reverseIndex, b, walkNext_seg s2 fuel h2, Option.map_some, List.countP_eq_length_filter]

theorem not_inSubtree_of {k : Kids} {n s : Nat} (S : Nat → Bool) (h0 : S n = true)
    (hS : ∀ m, S m = true → ∀ c ∈ k m, S c = true) (hs : S s = false) : ¬ InSubtree k n s := by
  intro h
  have : ∀ m, InSubtree k n m → S m = true := by
    intro m hm
    induction hm with
    | root => exact h0
    | child _ hc ih => exact hS _ ih _ hc
  rw [this s h] at hs; cases hs

/-- The hypothesis of C01 is met by a history using every kind of edit. -/
theorem sampleHistory_legal : LegalHistory Kids.init sampleHistory := by
  have triv : ∀ (k : Kids) (n s : Nat), k n = [] → n ≠ s → ¬ InSubtree k n s := by
    intro k n s h1 h2
    apply not_inSubtree_of (fun m => m == n) (by simp)
    · intro m hm c hc
      simp at hm; subst hm; simp [h1] at hc
    · simp; exact Ne.symm h2
  refine ⟨triv _ _ _ rfl (by decide), triv _ _ _ rfl (by decide), triv _ _ _ rfl (by decide),
    ⟨triv _ _ _ rfl (by decide), ?_⟩, trivial, triv _ _ _ rfl (by decide),
    ⟨triv _ _ _ rfl (by decide), ?_⟩, ?_, trivial⟩
  · intro x hx; cases hx; decide
  · intro x hx; cases hx; decide
  · show (2 : Nat) ∈ _; decide

example : ∃ h, runEdits Heap.init sampleHistory = some h ∧ walkNext h 5 (h 0).firstChild = some [3, 4] := by
  obtain ⟨h, e, w, _⟩ := C01_edits_refine_child_lists _ sampleHistory_legal
  refine ⟨h, e, ?_⟩
  have := (w 0 5 (by rw [sampleHistory_spec.1]; decide)).1
  rwa [sampleHistory_spec.1] at this

/-- `a` is reachable from `n` by following one or more parent links. -/
inductive Ancestor (h : Heap) (n : Nat) : Nat → Prop
  | parent {p} : (h n).parent = some p → Ancestor h n p
  | up {p q} : Ancestor h n p → (h p).parent = some q → Ancestor h n q

theorem walk_loops (h : Heap) (S : List Nat)
    (hS : ∀ n ∈ S, ∃ m ∈ S, (h n).nextSibling = some m) :
    ∀ fuel, ∀ n ∈ S, walkNext h fuel (some n) = none := by
  intro fuel
  induction fuel with
  | zero => intro n _; rfl
  | succ f ih =>
    intro n hn
    obtain ⟨m, hm, e⟩ := hS n hn
    simp [walkNext, e, ih m hm]

/-- **C02 is false of the code.**  Without the guards of `Legal`, four edits on two
nodes make the children walk of node 0 endless; inserting a node before itself makes
it its own next sibling; appending a node to itself makes it its own ancestor. -/
theorem C02_fails :
    (∃ h, runEdits Heap.init [.append 0 0, .insertBefore 1 1 (some 0), .append 1 0, .append 0 1] = some h ∧
      ∀ fuel, walkNext h fuel (h 0).firstChild = none) ∧
    (∃ h, runEdits Heap.init [.append 0 1, .insertBefore 0 1 (some 1)] = some h ∧
      (h 1).nextSibling = some 1 ∧ ∀ fuel, walkNext h fuel (some 1) = none) ∧
    (∃ h, runEdits Heap.init [.append 0 0] = some h ∧ Ancestor h 0 0) := by
  refine ⟨⟨_, rfl, ?_⟩, ⟨_, rfl, rfl, ?_⟩, ⟨_, rfl, .parent rfl⟩⟩
  · intro fuel
    exact walk_loops _ [1] (by decide) fuel 1 (by decide)
  · intro fuel
    exact walk_loops _ [1] (by decide) fuel 1 (by decide)

/-- A history that is legal except that one edit moves a node below its own child
also creates a cycle of parents. -/
theorem C02_fails_cycle :
    ∃ h, runEdits Heap.init [.append 0 1, .append 1 2, .append 2 0] = some h ∧ Ancestor h 0 0 :=
  ⟨_, rfl, .up (.up (.parent rfl) rfl) rfl⟩

/-- Inserting before a node that is not a child of the target detaches the inserted
node's parent from the lists: the parent link says `0`, but `0` does not list it. -/
theorem C02_fails_foreign_reference :
    ∃ h, runEdits Heap.init [.append 1 2, .insertBefore 0 3 (some 2)] = some h ∧
      (h 3).parent = some 0 ∧ (h 0).firstChild = none :=
  ⟨_, rfl, rfl, rfl⟩

/-- **C02, guarded.**  Legal histories never make a node its own ancestor.  Missing
from the full statement: histories with edits that are not `Legal`, for which the
statement is refuted above. -/
theorem C02_no_cycle_partial (es : List Edit) (hl : LegalHistory Kids.init es) :
    ∃ h, runEdits Heap.init es = some h ∧ ∀ n, ¬ Ancestor h n n := by
  obtain ⟨h, e, r, ht, hh⟩ := rep_init.edits grounded_init es hl
  refine ⟨h, e, fun n hn => ?_⟩
  have : ∀ a, Ancestor h n a → ht n < ht a := by
    intro a ha
    induction ha with
    | parent hp => exact hh _ _ (r.mem _ _ hp)
    | up _ hp ih => exact Nat.lt_trans ih (hh _ _ (r.mem _ _ hp))
  exact Nat.lt_irrefl _ (this n hn)

example : LegalHistory Kids.init sampleHistory := sampleHistory_legal

/-- **C03.**  Depth-first iteration from any node ends, yields the document order of
the subtree, without repetition, and exactly the nodes of the subtree. -/
theorem C03_depth_first_is_document_order (es : List Edit) (hl : LegalHistory Kids.init es) :
    ∃ h, runEdits Heap.init es = some h ∧ ∀ n, ∃ l N,
      (∀ fuel, N ≤ fuel → iterDepthFirst h fuel n = some l) ∧
      PreOrder (specEdits Kids.init es) n l ∧ l.Nodup ∧
      ∀ m, m ∈ l ↔ InSubtree (specEdits Kids.init es) n m := by
  obtain ⟨h, e, r, ht, hh⟩ := rep_init.edits grounded_init es hl
  refine ⟨h, e, fun n => ?_⟩
  obtain ⟨N, l, e1, p⟩ := iter_spec r hh (ht n + 1) n (by omega)
  exact ⟨l, N, fun fuel hf => (iter_mono' h hf).1 _ _ e1, p,
    PreOrder.nodup r hh (ht n + 1) n l (by omega) p, p.mem⟩

example : (runEdits Heap.init sampleHistory).bind (iterDepthFirst · 10 0) = some [0, 3, 1, 4] := by decide

end Verif.Dom
