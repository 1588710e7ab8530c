import Verif.Dom.Model
/-!
# What the DOM edits mean

The specification knows nothing about links: a forest is a function giving the
ordered list of children of each node, and edits act on these lists.
-/
namespace Verif.Dom

/-- Ordered children of every node. -/
abbrev Kids := Nat → List Nat

/-- No node has children. -/
def Kids.init : Kids := fun _ => []

/-- Take `n` out of whatever list it is in. -/
def Kids.detach (k : Kids) (n : Nat) : Kids := fun p => (k p).filter (· ≠ n)

/-- Replace the child list of `p`. -/
def Kids.set (k : Kids) (p : Nat) (l : List Nat) : Kids := fun q => if q = p then l else k q

/-- Put `n` just before `c` in a list. -/
def putBefore (n c : Nat) : List Nat → List Nat
  | [] => []
  | x :: xs => if x = c then n :: x :: xs else x :: putBefore n c xs

/-- Put `n` just after `c` in a list. -/
def putAfter (n c : Nat) : List Nat → List Nat
  | [] => []
  | x :: xs => if x = c then x :: n :: xs else x :: putAfter n c xs

/-- The meaning of an edit on child lists. -/
def Edit.spec (k : Kids) : Edit → Kids
  | .append s n => let k' := k.detach n; k'.set s (k' s ++ [n])
  | .prepend s n => let k' := k.detach n; k'.set s (n :: k' s)
  | .insertBefore s n none => let k' := k.detach n; k'.set s (k' s ++ [n])
  | .insertBefore s n (some c) => let k' := k.detach n; k'.set s (putBefore n c (k' s))
  | .insertAfter s n none => let k' := k.detach n; k'.set s (k' s ++ [n])
  | .insertAfter s n (some c) => let k' := k.detach n; k'.set s (putAfter n c (k' s))
  | .remove n => k.detach n
  | .removeChild _ n => k.detach n

/-- `m` lies in the subtree rooted at `n` (including `n` itself). -/
inductive InSubtree (k : Kids) (n : Nat) : Nat → Prop
  | root : InSubtree k n n
  | child {m c : Nat} : InSubtree k n m → c ∈ k m → InSubtree k n c

/-- Edits a caller may make: a node is not inserted below itself, a reference child
is a child of the target and is not the inserted node, and `removeChild` is called
on the parent. -/
def Edit.Legal (k : Kids) : Edit → Prop
  | .append s n | .prepend s n => ¬ InSubtree k n s
  | .insertBefore s n c | .insertAfter s n c =>
      ¬ InSubtree k n s ∧ ∀ x, c = some x → x ∈ k s ∧ x ≠ n
  | .remove _ => True
  | .removeChild s n => n ∈ k s

/-- A history each of whose edits is legal when it is made. -/
def LegalHistory : Kids → List Edit → Prop
  | _, [] => True
  | k, e :: es => e.Legal k ∧ LegalHistory (e.spec k) es

/-- Meaning of a history. -/
def specEdits (k : Kids) (es : List Edit) : Kids := es.foldl Edit.spec k

end Verif.Dom
