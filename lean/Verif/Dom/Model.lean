/-!
# Model of the DOM tree links

Source: `/repo/src/vaev-engine/dom/tree.cpp` (struct `Tree<Node>`).

Nodes are identified by natural numbers (their addresses).  A heap gives the five
link fields of every node; a null `Gc::Ptr` is `none`.  Every C++ statement that
writes a field becomes one `Heap` update, in the same order as in the source, so
that aliasing between the arguments is reproduced.
-/
namespace Verif.Dom

/-- The five link fields of a node.  `dom/tree.cpp:12-16`. -/
structure Links where
  parent : Option Nat := none
  firstChild : Option Nat := none
  lastChild : Option Nat := none
  nextSibling : Option Nat := none
  prevSibling : Option Nat := none
deriving DecidableEq, Repr

/-- All nodes, by address. -/
abbrev Heap := Nat → Links

/-- Freshly allocated nodes: every link null.  `dom/tree.cpp:12-16`. -/
def Heap.init : Heap := fun _ => {}

/-- `node->_parent = v`. -/
def Heap.setParent (h : Heap) (n : Nat) (v : Option Nat) : Heap :=
  fun m => if m = n then { h m with parent := v } else h m
/-- `node->_firstChild = v`. -/
def Heap.setFirst (h : Heap) (n : Nat) (v : Option Nat) : Heap :=
  fun m => if m = n then { h m with firstChild := v } else h m
/-- `node->_lastChild = v`. -/
def Heap.setLast (h : Heap) (n : Nat) (v : Option Nat) : Heap :=
  fun m => if m = n then { h m with lastChild := v } else h m
/-- `node->_nextSibling = v`. -/
def Heap.setNext (h : Heap) (n : Nat) (v : Option Nat) : Heap :=
  fun m => if m = n then { h m with nextSibling := v } else h m
/-- `node->_prevSibling = v`. -/
def Heap.setPrev (h : Heap) (n : Nat) (v : Option Nat) : Heap :=
  fun m => if m = n then { h m with prevSibling := v } else h m

/-- `if (ptr) ptr->field = v`: a write guarded by a null check. -/
def onSome (p : Option Nat) (h : Heap) (f : Heap → Nat → Heap) : Heap :=
  match p with
  | none => h
  | some n => f h n

/-- `Tree::remove`.  `dom/tree.cpp:137-156`. -/
def remove (h : Heap) (n : Nat) : Heap :=
  match (h n).parent with
  | none => h
  | some p =>
    let h1 := if (h p).firstChild = some n then h.setFirst p (h n).nextSibling else h
    let h2 := if (h1 p).lastChild = some n then h1.setLast p (h1 n).prevSibling else h1
    let h3 := onSome (h2 n).nextSibling h2 (fun g m => g.setPrev m (g n).prevSibling)
    let h4 := onSome (h3 n).prevSibling h3 (fun g m => g.setNext m (g n).nextSibling)
    let h5 := h4.setNext n none
    let h6 := h5.setPrev n none
    h6.setParent n none

/-- `if (node->_parent) node->remove();`, the first lines of every insertion.
`dom/tree.cpp:70-71, 83-84, 99-100, 120-121`. -/
def detach (h : Heap) (n : Nat) : Heap :=
  if (h n).parent.isSome then remove h n else h

/-- `Tree::appendChild`, `self` is `this`.  `dom/tree.cpp:69-80`. -/
def appendChild (h : Heap) (self n : Nat) : Heap :=
  let h0 := detach h n
  let h1 := onSome (h0 self).lastChild h0 (fun g m => g.setNext m (some n))
  let h2 := h1.setPrev n (h1 self).lastChild
  let h3 := h2.setParent n (some self)
  let h4 := h3.setLast self (some n)
  if (h4 self).firstChild = none then h4.setFirst self (h4 self).lastChild else h4

/-- `Tree::prependChild`.  `dom/tree.cpp:82-93`. -/
def prependChild (h : Heap) (self n : Nat) : Heap :=
  let h0 := detach h n
  let h1 := onSome (h0 self).firstChild h0 (fun g m => g.setPrev m (some n))
  let h2 := h1.setNext n (h1 self).firstChild
  let h3 := h2.setParent n (some self)
  let h4 := h3.setFirst self (some n)
  if (h4 self).lastChild = none then h4.setLast self (h4 self).firstChild else h4

/-- `Tree::insertBefore`.  `dom/tree.cpp:95-114`. -/
def insertBefore (h : Heap) (self n : Nat) (child : Option Nat) : Heap :=
  match child with
  | none => appendChild h self n
  | some c =>
    let h0 := detach h n
    let h1 := h0.setPrev n (h0 c).prevSibling
    let h2 := h1.setNext n (some c)
    let h3 := onSome (h2 c).prevSibling h2 (fun g m => g.setNext m (some n))
    let h4 := if (h3 self).firstChild = some c then h3.setFirst self (some n) else h3
    let h5 := h4.setPrev c (some n)
    h5.setParent n (some self)

/-- `Tree::insertAfter`.  `dom/tree.cpp:116-135`. -/
def insertAfter (h : Heap) (self n : Nat) (child : Option Nat) : Heap :=
  match child with
  | none => appendChild h self n
  | some c =>
    let h0 := detach h n
    let h1 := h0.setPrev n (some c)
    let h2 := h1.setNext n (h1 c).nextSibling
    let h3 := onSome (h2 c).nextSibling h2 (fun g m => g.setPrev m (some n))
    let h4 := if (h3 self).lastChild = some c then h3.setLast self (some n) else h3
    let h5 := h4.setNext c (some n)
    h5.setParent n (some self)

/-- `Tree::removeChild`; `none` is the panic "node is not a child".
`dom/tree.cpp:158-163`. -/
def removeChild (h : Heap) (self n : Nat) : Option Heap :=
  if (h n).parent = some self then some (remove h n) else none

/-- The `for (child = start; child; child = child->nextSibling())` walk used by
`iterChildren`, `countChildren` and the matcher (`dom/tree.cpp:48-53, 175-179`).
`none`: the walk did not end within the fuel. -/
def walkNext (h : Heap) : Nat → Option Nat → Option (List Nat)
  | _, none => some []
  | 0, some _ => none
  | fuel + 1, some c => (walkNext h fuel (h c).nextSibling).map (c :: ·)

/-- The `previousSibling()` walk used by `index()` (`dom/tree.cpp:20-26`). -/
def walkPrev (h : Heap) : Nat → Option Nat → Option (List Nat)
  | _, none => some []
  | 0, some _ => none
  | fuel + 1, some c => (walkPrev h fuel (h c).prevSibling).map (c :: ·)

/-- `Tree::index(filter)`: matching nodes before this one.  `dom/tree.cpp:20-26`. -/
def index (h : Heap) (fuel : Nat) (filter : Nat → Bool) (n : Nat) : Option Nat :=
  (walkPrev h fuel (h n).prevSibling).map (fun l => (l.filter filter).length)

/-- `Tree::reverseIndex(filter)`: matching nodes after this one.  `dom/tree.cpp:34-40`. -/
def reverseIndex (h : Heap) (fuel : Nat) (filter : Nat → Bool) (n : Nat) : Option Nat :=
  (walkNext h fuel (h n).nextSibling).map (fun l => (l.filter filter).length)

mutual
/-- `Tree::iterDepthFirst`, as the list of yielded nodes.  `dom/tree.cpp:167-173`. -/
def iterDepthFirst (h : Heap) : Nat → Nat → Option (List Nat)
  | 0, _ => none
  | fuel + 1, n => (iterSiblings h fuel (h n).firstChild).map (n :: ·)
/-- The `for` loop in the body of `iterDepthFirst`. -/
def iterSiblings (h : Heap) : Nat → Option Nat → Option (List Nat)
  | _, none => some []
  | 0, some _ => none
  | fuel + 1, some c =>
    match iterDepthFirst h fuel c, iterSiblings h fuel (h c).nextSibling with
    | some a, some b => some (a ++ b)
    | _, _ => none
end

/-- The public tree edits. -/
inductive Edit where
  | append (self n : Nat)
  | prepend (self n : Nat)
  | insertBefore (self n : Nat) (child : Option Nat)
  | insertAfter (self n : Nat) (child : Option Nat)
  | remove (n : Nat)
  | removeChild (self n : Nat)
deriving DecidableEq, Repr

/-- One edit; `none` is a panic. -/
def Edit.run (h : Heap) : Edit → Option Heap
  | .append s n => some (appendChild h s n)
  | .prepend s n => some (prependChild h s n)
  | .insertBefore s n c => some (Dom.insertBefore h s n c)
  | .insertAfter s n c => some (Dom.insertAfter h s n c)
  | .remove n => some (Dom.remove h n)
  | .removeChild s n => Dom.removeChild h s n

/-- A history of edits. -/
def runEdits : Heap → List Edit → Option Heap
  | h, [] => some h
  | h, e :: es => (e.run h).bind (runEdits · es)

end Verif.Dom
