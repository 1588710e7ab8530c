/-!
# Script objects: model

`src/vaev-script`: `internal-slots-impl.cpp`, `properties.cpp`, `ops-impl.cpp`, `object-impl.cpp`, `value.cpp`.

* The heap is a list of objects, a reference is a place in it. All objects have the ordinary internal methods
  (`internal-slots.cpp` 38–78); only `call` may be there or not.
* What a function does when called is a parameter: it gets the heap, the object called, `this` and the arguments.
* The object that stands for a thrown exception is not kept in the heap.
-/
namespace Verif.Script

/-- `Number`, `value.cpp` 48–127, as far as equality goes: not a number, the two zeros, all others. -/
inductive Number where
  | nan | zero (negative : Bool) | other (n : Nat)
  deriving DecidableEq, Repr

/-- `Value`, `value.cpp` 134–204. -/
inductive Value where
  | undefined | null | bool (b : Bool) | str (s : String) | sym (n : Nat) | num (x : Number) | obj (o : Nat)
  deriving DecidableEq, Repr

/-- `PropertyKey`, `properties.cpp` 8–32. -/
inductive Key where
  | str (s : String) | sym (n : Nat) | idx (n : Nat)
  deriving DecidableEq, Repr

/-- `PropertyDescriptor`, `properties.cpp` 35–41. The inner `Option` of `get` and `set` is the null pointer. -/
structure Desc where
  value : Value := .undefined
  writable : Option Bool := none
  get : Option (Option Nat) := none
  set : Option (Option Nat) := none
  enumerable : Option Bool := none
  configurable : Option Bool := none
  deriving DecidableEq, Repr

/-- `empty`, `properties.cpp` 43–50. -/
def Desc.empty (d : Desc) : Bool :=
  d.value = .undefined && d.writable.isNone && d.get.isNone && d.set.isNone && d.enumerable.isNone && d.configurable.isNone

/-- `properties.cpp` 53–62. -/
def Desc.isAccessor (d : Desc) : Bool := d.get.isSome || d.set.isSome

/-- `properties.cpp` 65–78. -/
def Desc.isData (d : Desc) : Bool := d.value ≠ .undefined || d.writable.isSome

/-- `properties.cpp` 81–91. -/
def Desc.isGeneric (d : Desc) : Bool := !(d.isAccessor || d.isData)

/-- The union in `PropertyStorage::Property`, `properties.cpp` 106–107. -/
inductive Slot where
  | data (v : Value)
  | accessor (get set : Option Nat)
  deriving DecidableEq, Repr

/-- `PropertyStorage::Property` with its attributes, `properties.cpp` 100–120. -/
structure Prop' where
  slot : Slot
  writable : Bool
  enumerable : Bool
  configurable : Bool
  deriving DecidableEq, Repr

/-- `Object`, `object.cpp` 25–30. -/
structure Object where
  props : List (Key × Prop') := []
  proto : Option Nat := none
  extensible : Bool := true
  callable : Bool := false
  deriving DecidableEq, Repr

abbrev Heap := List Object

/-- How an operation ends: with a value, with a thrown exception, with the end of the program, or not at all. -/
inductive Out (α : Type) where
  | ok (a : α) | throw | panic | loop
  deriving DecidableEq, Repr

/-- An object of the heap. References are always valid in the program; here an invalid one gives an empty object. -/
def Heap.at (h : Heap) (o : Nat) : Object := (h[o]?).getD {}

/-- `Map::lookup` as used in `properties.cpp` 128–134. -/
def find (k : Key) : List (Key × Prop') → Option Prop'
  | [] => none
  | (k', p) :: r => if k' = k then some p else find k r

/-- `PropertyStorage::set`, `properties.cpp` 124–126. -/
def insert (k : Key) (p : Prop') : List (Key × Prop') → List (Key × Prop')
  | [] => [(k, p)]
  | (k', p') :: r => if k' = k then (k, p) :: r else (k', p') :: insert k p r

def Heap.prop (h : Heap) (o : Nat) (k : Key) : Option Prop' := find k (h.at o).props

def Heap.setProp (h : Heap) (o : Nat) (k : Key) (p : Prop') : Heap :=
  h.modify o fun x => { x with props := insert k p x.props }

/-- What `ordinaryGetOwnProperty`, `internal-slots-impl.cpp` 30–56, makes of a property. -/
def Prop'.desc (p : Prop') : Desc :=
  match p.slot with
  | .data v => { value := v, writable := some p.writable, enumerable := some p.enumerable, configurable := some p.configurable }
  | .accessor g s => { get := some g, set := some s, enumerable := some p.enumerable, configurable := some p.configurable }

/-- `ordinaryGetOwnProperty`, `internal-slots-impl.cpp` 26–57. -/
def Heap.own (h : Heap) (o : Nat) (k : Key) : Option Desc := (h.prop o k).map Prop'.desc

/-- The property that is made of a descriptor, `internal-slots-impl.cpp` 75–114. -/
def Desc.make (d : Desc) : Prop' :=
  if d.isAccessor then
    { slot := .accessor (d.get.getD none) (d.set.getD none), writable := false, enumerable := d.enumerable.getD false, configurable := d.configurable.getD false }
  else
    { slot := .data d.value, writable := d.writable.getD false, enumerable := d.enumerable.getD false, configurable := d.configurable.getD false }

/-- The refusals of `internal-slots-impl.cpp` 126–154. The condition on `configurable` asks whether the descriptor has the
field, not for its value. -/
def refuses (d current : Desc) : Bool :=
  current.configurable.isNone &&
    (d.configurable == some true ||
     (d.enumerable.isSome && d.enumerable != current.enumerable) ||
     (!d.isGeneric && d.isAccessor != current.isAccessor) ||
     (!current.isGeneric && current.writable == some false && d.writable == some true))

/-- `_validateAndApplyPropertyDescriptor`, `internal-slots-impl.cpp` 60–178. The branches of 157–175 are empty. -/
def apply (h : Heap) (o : Nat) (k : Key) (extensible : Bool) (d : Desc) : Option Desc → Heap × Out Bool
  | none => if !extensible then (h, .ok false) else (h.setProp o k d.make, .ok true)
  | some c =>
    if d.empty then (h, .ok true)
    else if refuses d c then (h, .ok false)
    else (h, .ok true)

/-- `ordinaryDefineOwnProperty`, `internal-slots-impl.cpp` 181–190. -/
def define (h : Heap) (o : Nat) (k : Key) (d : Desc) : Heap × Out Bool :=
  apply h o k (h.at o).extensible d (h.own o k)

/-- `createDataProperty`, `ops-impl.cpp` 205–216. -/
def createData (h : Heap) (o : Nat) (k : Key) (v : Value) : Heap × Out Bool :=
  define h o k { value := v, writable := some true, enumerable := some true, configurable := some true }

/-- What functions do. -/
abbrev Code := Nat → Value → List Value → Heap → Heap × Out Value

/-- A reference that may be null, as a value: `value.cpp` 151–156. -/
def ofPtr : Option Nat → Value
  | none => .null
  | some o => .obj o

/-- `call`, `ops-impl.cpp` 194–202, with `isCallable` 81–92; `asObject` of a value that is no object aborts. -/
def call (code : Code) (h : Heap) (f this : Value) (args : List Value) : Heap × Out Value :=
  match f with
  | .obj o =>
    if (h.at o).callable then
      match this with
      | .obj _ => code o this args h
      | _ => (h, .panic)
    else (h, .throw)
  | _ => (h, .throw)

/-- The end of `ordinaryGet`, `internal-slots-impl.cpp` 210–228. -/
def getFrom (code : Code) (h : Heap) (d : Desc) (receiver : Value) : Heap × Out Value :=
  if d.isData then (h, .ok d.value)
  else if !d.isAccessor then (h, .panic)
  else
    match d.get with
    | none => (h, .ok .undefined)
    | some g => call code h (ofPtr g) receiver []

/-- `ordinaryGet`, `internal-slots-impl.cpp` 193–229. -/
def get (code : Code) (h : Heap) (k : Key) (receiver : Value) : Nat → Nat → Heap × Out Value
  | 0, _ => (h, .loop)
  | fuel + 1, o =>
    match h.own o k with
    | some d => getFrom code h d receiver
    | none =>
      match (h.at o).proto with
      | none => (h, .ok .undefined)
      | some p => get code h k receiver fuel p

/-- The end of `ordinarySetWithOwnDescriptor`, `internal-slots-impl.cpp` 249–300. -/
def setAt (code : Code) (h : Heap) (o : Nat) (k : Key) (v receiver : Value) (d : Desc) : Heap × Out Bool :=
  if d.isData then
    if d.writable = some false then (h, .ok false)
    else
      match receiver with
      | .obj r =>
        match h.own r k with
        | none => createData h o k v
        | some e =>
          if e.isAccessor then (h, .ok false)
          else if e.writable = some false then (h, .ok false)
          else define h r k { value := v }
      | _ => (h, .ok false)
  else
    match d.set with
    | none => (h, .ok false)
    | some _ =>
      match call code h receiver v [] with
      | (h, .ok _) => (h, .ok true)
      | (h, .throw) => (h, .throw)
      | (h, .panic) => (h, .panic)
      | (h, .loop) => (h, .loop)

/-- `ordinarySet`, `internal-slots-impl.cpp` 232–247 and 304–307. -/
def set (code : Code) (h : Heap) (k : Key) (v receiver : Value) : Nat → Nat → Heap × Out Bool
  | 0, _ => (h, .loop)
  | fuel + 1, o =>
    match h.own o k with
    | some d => setAt code h o k v receiver d
    | none =>
      match (h.at o).proto with
      | some p => set code h k v receiver fuel p
      | none => setAt code h o k v receiver { writable := some true, enumerable := some true, configurable := some true }

/-- What a program does with objects: `Object::create`, `object-impl.cpp` 15–19, `defineOwnProperty` 51–55, `get` 63–67,
`set` 69–73 (on the object itself as receiver). -/
inductive Op where
  | create (proto : Option Nat) (callable : Bool)
  | define (o : Nat) (k : Key) (d : Desc)
  | get (o : Nat) (k : Key)
  | set (o : Nat) (k : Key) (v : Value)
  deriving DecidableEq, Repr

/-- One operation; the fuel is enough for a chain through all objects. -/
def step (code : Code) (h : Heap) : Op → Heap
  | .create p c => h ++ [{ proto := p, callable := c }]
  | .define o k d => (define h o k d).1
  | .get o k => (get code h k (.obj o) (h.length + 1) o).1
  | .set o k v => (set code h k v (.obj o) (h.length + 1) o).1

/-! ## Comparing values -/

/-- `sameType`, `ops-impl.cpp` 95–131. -/
def sameType : Value → Value → Bool
  | .undefined, .undefined => true
  | .null, .null => true
  | .bool _, .bool _ => true
  | .num _, .num _ => true
  | .sym _, .sym _ => true
  | .str _, .str _ => true
  | .obj _, .obj _ => true
  | _, _ => false

/-- `Number::sameValue`, `value.cpp` 97–104: the comparison of the processor. -/
def Number.same : Number → Number → Bool
  | .nan, _ => false
  | _, .nan => false
  | .zero _, .zero _ => true
  | .other a, .other b => a = b
  | _, _ => false

/-- `sameValueNonNumber`, `ops-impl.cpp` 149–183: `asString` aborts for anything but strings. -/
def sameNonNumber (x y : Value) : Out Bool :=
  if !sameType x y then .panic
  else
    match x, y with
    | .null, _ => .ok true
    | .undefined, _ => .ok true
    | .str a, .str b => if a = b then .ok true else .panic
    | _, _ => .panic

/-- `sameValue`, `ops-impl.cpp` 134–146. -/
def sameValue (x y : Value) : Out Bool :=
  if !sameType x y then .ok false
  else
    match x, y with
    | .num a, .num b => .ok (a.same b)
    | x, y => sameNonNumber x y

end Verif.Script
