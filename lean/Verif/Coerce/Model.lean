import Verif.Script.Model
/-!
# Objects as primitive values, and exceptions: model

`src/vaev-script/ops-impl.cpp` 14–75, over the objects of `Verif.Script`.
-/
namespace Verif.Coerce
open Verif.Script (Value Key Heap Out Code get call set step)

/-- `PreferedType`, `ops.cpp` 42–46. -/
inductive Hint where
  | default | string | number
deriving DecidableEq

/-- `methodNames`, `ops-impl.cpp` 43–56: the order is the same for all hints. -/
def names (t : Hint) : List String := if t = .string then ["toString", "valueOf"] else ["toString", "valueOf"]

/-- `isCallable`, `ops-impl.cpp` 81–92. -/
def isCallable (h : Heap) : Value → Bool
  | .obj o => (h.at o).callable
  | _ => false

/-- `Value::isObject`. -/
def isObject : Value → Bool
  | .obj _ => true
  | _ => false

/-- The loop 59–72 of `ordinaryToPrimitive`, with the exception behind it, 75; `fuel` is for the chains of prototypes. -/
def tryNames (code : Code) (fuel o : Nat) : List String → Heap → Heap × Out Value
  | [], h => (h, .throw)
  | n :: ns, h =>
    match get code h (.str n) (.obj o) fuel o with
    | (h, .ok m) =>
      if isCallable h m then
        match call code h m (.obj o) [] with
        | (h, .ok v) => if isObject v then tryNames code fuel o ns h else (h, .ok v)
        | r => r
      else tryNames code fuel o ns h
    | r => r

/-- `ordinaryToPrimitive`, `ops-impl.cpp` 42–76. -/
def toPrimitive (code : Code) (fuel : Nat) (t : Hint) (o : Nat) (h : Heap) : Heap × Out Value := tryNames code fuel o (names t) h

/-- `ExceptionType`, `ops.cpp` 20–29. -/
inductive Kind where
  | error | typeError | rangeError | referenceError | syntaxError | uriError
deriving DecidableEq

/-- `createException`, `ops-impl.cpp` 14–25: the heap, the object, and what writing its name gave, of which `unwrap` is taken.
The kind is not used. -/
def createException (code : Code) (h : Heap) (_ : Kind) : Heap × Nat × Out Bool :=
  let h1 := step code h (.create none false)
  let r := set code h1 (.str "name") (.str "Exception") (.obj h.length) (h1.length + 1) h.length
  (r.1, h.length, r.2)

end Verif.Coerce
