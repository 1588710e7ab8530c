import Verif.Coerce.Model
import Verif.Script.Spec
/-!
# Objects as primitive values, and exceptions: what ECMAScript says
-/
namespace Verif.Coerce
open Verif.Script (Value Key Heap Out Code Chain Found)

/-- The method `n` of the object `o`: the function that is found in the object or its prototypes, if what is found there is
one.  Accessors are left out. -/
inductive Method (h : Heap) (o : Nat) (n : String) : Option Nat → Prop
  | function {c r p f} : Chain h o c → Found h (.str n) c r p → p.slot = .data (.obj f) → (h.at f).callable = true → Method h o n (some f)
  | absent {c} : Chain h o c → (∀ x ∈ c, h.prop x (.str n) = none) → Method h o n none
  | noObject {c r p v} : Chain h o c → Found h (.str n) c r p → p.slot = .data v → (∀ f, v ≠ .obj f) → Method h o n none
  | noFunction {c r p f} : Chain h o c → Found h (.str n) c r p → p.slot = .data (.obj f) → (h.at f).callable = false → Method h o n none

/-- OrdinaryToPrimitive, step 3: the first of the methods that gives a primitive value decides; one that throws ends it; if there
is none, an exception is thrown. -/
inductive Gives (code : Code) (o : Nat) : List String → Heap → Heap → Out Value → Prop
  | none {h} : Gives code o [] h h .throw
  | skip {n ns h h' r} : Method h o n none → Gives code o ns h h' r → Gives code o (n :: ns) h h' r
  | value {n ns h h' f v} : Method h o n (some f) → code f (.obj o) [] h = (h', .ok v) → (∀ x, v ≠ .obj x) →
      Gives code o (n :: ns) h h' (.ok v)
  | object {n ns h h1 h' f x r} : Method h o n (some f) → code f (.obj o) [] h = (h1, .ok (.obj x)) → Gives code o ns h1 h' r →
      Gives code o (n :: ns) h h' r
  | throw {n ns h h' f} : Method h o n (some f) → code f (.obj o) [] h = (h', .throw) → Gives code o (n :: ns) h h' .throw

/-- OrdinaryToPrimitive, steps 1 and 2. -/
def order : Hint → List String
  | .string => ["toString", "valueOf"]
  | _ => ["valueOf", "toString"]

/-- The names of the exceptions of ECMAScript. -/
def Kind.name : Kind → String
  | .error => "Error"
  | .typeError => "TypeError"
  | .rangeError => "RangeError"
  | .referenceError => "ReferenceError"
  | .syntaxError => "SyntaxError"
  | .uriError => "URIError"

end Verif.Coerce
