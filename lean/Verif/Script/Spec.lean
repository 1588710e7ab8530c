import Verif.Script.Model
/-!
# Script objects: specification

A heap is seen through the properties and prototypes of its objects.
-/
namespace Verif.Script

/-- The objects in which a property is searched, from the object itself to the last prototype. -/
inductive Chain (h : Heap) : Nat → List Nat → Prop where
  | last {o} : (h.at o).proto = none → Chain h o [o]
  | next {o p c} : (h.at o).proto = some p → Chain h p c → Chain h o (o :: c)

/-- The object in the chain in which a property is found. -/
inductive Found (h : Heap) (k : Key) : List Nat → Nat → Prop' → Prop where
  | here {o c p} : h.prop o k = some p → Found h k (o :: c) o p
  | later {o c r p} : h.prop o k = none → Found h k c r p → Found h k (o :: c) r p

/-- `h'` has all that `h` has: objects keep their prototypes, properties keep their values and attributes. -/
structure Ext (h h' : Heap) : Prop where
  len : h.length ≤ h'.length
  proto : ∀ o, o < h.length → (h'.at o).proto = (h.at o).proto
  prop : ∀ o k p, h.prop o k = some p → h'.prop o k = some p

/-- Prototypes are older than the objects that have them. -/
def Older (h : Heap) : Prop := ∀ o p, (h.at o).proto = some p → p < o

/-- Functions do with the heap what operations do. -/
def Code.Good (code : Code) : Prop := ∀ f t a h, Older h → Older (code f t a h).1 ∧ Ext h (code f t a h).1

/-- Operations name objects that exist. -/
def Op.Valid (h : Heap) : Op → Prop
  | .create p _ => ∀ x, p = some x → x < h.length
  | .define o _ _ => o < h.length
  | .get o _ => o < h.length
  | .set o _ _ => o < h.length

/-- The heaps that a program can have. -/
inductive Reach (code : Code) : Heap → Prop where
  | nil : Reach code []
  | step {h} (op) : Reach code h → op.Valid h → Reach code (step code h op)

/-- Two heaps differ at most in the property `k` of the object `o`. -/
def OnlyAt (h h' : Heap) (o : Nat) (k : Key) : Prop :=
  h'.length = h.length ∧ (∀ x, (h'.at x).proto = (h.at x).proto) ∧ ∀ x j, (x ≠ o ∨ j ≠ k) → h'.prop x j = h.prop x j

end Verif.Script
