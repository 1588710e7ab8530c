/-!
# Counter styles: model

Models `CounterStyleSet` and `resolveExtends` of
`/repo/src/vaev-engine/style/counter.cpp` lines 143–641.

Simplifications, used throughout:

* `Integer` is `isize`; the model uses `Int`, so overflow is not modelled.
* A symbol is a string or an identifier; both are kept as a `String`.
* `speakAs` has no effect on the text and is left out.
* Recursion that the code does not bound is given fuel; running out is `none`.
-/
namespace Verif.Counter

abbrev Sym := String
abbrev Name := String

/-- `CounterSystem`, values/counter.cpp lines 63–87. -/
inductive System where
  | cyclic
  | numeric
  | alphabetic
  | symbolic
  | additive
  | fixed (first : Option Int)
  | extends_ (name : Name)
deriving DecidableEq, Repr

/-- `CounterStyle`, style/counter.cpp lines 160–189. `range = none` is `auto`; an
    end of a range that is `none` is `infinite`. -/
structure Style where
  system : System
  negative : Sym × Option Sym
  prefix_ : Sym
  suffix : Sym
  range : Option (List (Option Int × Option Int))
  pad : Int × Sym
  fallback : Name
  symbols : List Sym
  additive : List (Int × Sym)
deriving DecidableEq, Repr

/-- `CounterStyle::initial`, style/counter.cpp lines 191–204. -/
def Style.initial : Style :=
  { system := .symbolic, negative := ("-", none), prefix_ := "", suffix := ". ",
    range := none, pad := (0, ""), fallback := "decimal", symbols := [], additive := [] }

/-- What constructing the initial representation can end in: a list of symbols,
    `NONE` (the value cannot be represented) or a crash (an index outside a `Vec`,
    an endless push, or `unreachable()`). -/
inductive Gen where
  | repr (s : List Sym)
  | undefined
  | crash
deriving DecidableEq, Repr

/-- `_constructCyclicCounter`, style/counter.cpp lines 296–303. `%` on `isize`
    truncates, hence `Int.tmod`. -/
def cyclic (st : Style) (value : Int) : Gen :=
  if st.symbols.length = 0 then .undefined
  else
    let i := (value - 1).tmod st.symbols.length
    let i := if i < 0 then i + st.symbols.length else i
    match st.symbols[i.toNat]? with
    | some s => .repr [s]
    | none => .crash

/-- `_constructFixedCounter`, style/counter.cpp lines 306–314. A negative index
    converts to a huge `usize`, outside the vector. -/
def fixed (st : Style) (first : Option Int) (value : Int) : Gen :=
  if st.symbols.length = 0 then .undefined
  else
    let value := value - first.getD 0
    let value := value - 1
    if value ≥ st.symbols.length then .undefined
    else if value < 0 then .crash
    else match st.symbols[value.toNat]? with
      | some s => .repr [s]
      | none => .crash

/-- `_constructSymbolicCounter`, style/counter.cpp lines 317–333. `value - 1` is
    converted to `usize` by the `%` with a length, hence the wrap modulo `2^64`. The
    length `ceil(value / n)` is taken exactly, not in `f64`. -/
def symbolic (st : Style) (value : Nat) : Gen :=
  if st.symbols.length = 0 then .undefined
  else
    let n := st.symbols.length
    match st.symbols[((value + (2 ^ 64 - 1)) % 2 ^ 64) % n]? with
    | some chosen => .repr (List.replicate ((value + n - 1) / n) chosen)
    | none => .crash

/-- The loop of `_constructAlphabeticCounter`, style/counter.cpp lines 347–354; `s`
    is what has been prepended so far. -/
def alphabeticLoop (syms : List Sym) (h : 2 ≤ syms.length) (value : Nat) (s : List Sym) : List Sym :=
  if value = 0 then s
  else
    let value' := value - 1
    alphabeticLoop syms h (value' / syms.length)
      (syms[value' % syms.length]'(Nat.mod_lt _ (by omega)) :: s)
termination_by value
decreasing_by
  have := Nat.div_le_self (value - 1) syms.length
  omega

/-- `_constructAlphabeticCounter`, style/counter.cpp lines 336–358. -/
def alphabetic (st : Style) (value : Nat) : Gen :=
  if h : st.symbols.length < 2 then .undefined
  else if value = 0 then .undefined
  else .repr (alphabeticLoop st.symbols (by omega) value [])

/-- The loop of `_constructNumericCounter`, style/counter.cpp lines 376–381. -/
def numericLoop (syms : List Sym) (h : 2 ≤ syms.length) (value : Nat) (s : List Sym) : List Sym :=
  if value = 0 then s
  else
    numericLoop syms h (value / syms.length)
      (syms[value % syms.length]'(Nat.mod_lt _ (by omega)) :: s)
termination_by value
decreasing_by exact Nat.div_lt_self (by omega) (by omega)

/-- `_constructNumericCounter`, style/counter.cpp lines 361–385. -/
def numeric (st : Style) (value : Nat) : Gen :=
  if h : st.symbols.length < 2 then .undefined
  else if value = 0 then .repr [st.symbols[0]'(by omega)]
  else .repr (numericLoop st.symbols (by omega) value [])

/-- The loop of `_constructAdditiveCounter`, style/counter.cpp lines 418–443. A
    negative `reps` converts to a huge `usize` and the pushes exhaust memory. -/
def additiveLoop : List (Int × Sym) → Int → List Sym → Gen
  | [], value, s => if value ≠ 0 then .undefined else .repr s
  | (weight, symbol) :: rest, value, s =>
    if weight = 0 ∨ weight > value then additiveLoop rest value s
    else
      let reps := value.tdiv weight
      if reps < 0 then .crash
      else
        let s := s ++ List.replicate reps.toNat symbol
        let value := value - weight * reps
        if value = 0 then .repr s else additiveLoop rest value s

/-- `_constructAdditiveCounter`, style/counter.cpp lines 388–444. -/
def additive (st : Style) (value : Int) : Gen :=
  if st.additive.length = 0 then .undefined
  else if value = 0 then
    match st.additive.find? (fun it => it.1 = 0) with
    | some it => .repr [it.2]
    | none => .undefined
  else additiveLoop st.additive value []

/-- `_dispatchCounterSystem`, style/counter.cpp lines 446–473, as called at line 553
    with the absolute value. -/
def dispatchSystem (st : Style) (value : Nat) : Gen :=
  match st.system with
  | .cyclic => cyclic st value
  | .fixed first => fixed st first value
  | .numeric => numeric st value
  | .alphabetic => alphabetic st value
  | .symbolic => symbolic st value
  | .additive => additive st value
  | .extends_ _ => .crash

/-- One range of `_counterDefinedFor`, style/counter.cpp lines 479–498. -/
def inRange (r : Option Int × Option Int) (value : Int) : Bool :=
  (match r.1 with | some lo => decide (value ≥ lo) | none => true) &&
  (match r.2 with | some hi => decide (value ≤ hi) | none => true)

/-- `_counterDefinedFor`, style/counter.cpp lines 475–504. -/
def definedFor (st : Style) (value : Int) : Option Bool :=
  match st.range with
  | some rs => some (rs.any (inRange · value))
  | none => none

/-- Padding and wrapping, style/counter.cpp lines 558–582. `clusters` counts the
    grapheme clusters of a symbol (`_measureRepresentation`, lines 526–536; ICU is
    outside the model). `style.pad` is true when its length is not zero and its symbol
    is not empty (lines 150–152). -/
def finish (clusters : Sym → Nat) (st : Style) (value : Int) (repr : List Sym) : List Sym :=
  let repr :=
    if st.pad.1 ≠ 0 ∧ st.pad.2 ≠ "" then
      let len : Int := ((repr.map clusters).sum : Nat)
      if len < st.pad.1 then List.replicate (st.pad.1 - len).toNat st.pad.2 ++ repr else repr
    else repr
  let repr := st.prefix_ :: repr
  let repr :=
    if value < 0 then
      let repr := st.negative.1 :: repr
      match st.negative.2 with
      | some a => repr ++ [a]
      | none => repr
    else repr
  repr ++ [st.suffix]

/-- How formatting a counter ends. -/
inductive Out where
  | text (s : List Sym)
  | crash
deriving DecidableEq, Repr

/-- `CounterStyleSet::_counters`, style/counter.cpp line 289, as a lookup. -/
abbrev Styles := Name → Option Style

mutual
/-- `_dispatchToFallbackCounter`, style/counter.cpp lines 518–524. -/
def toFallback (clusters : Sym → Nat) (styles : Styles) (fuel : Nat) (st : Style) (value : Int)
    (seen : List Name) : Option Out :=
  match fuel with
  | 0 => none
  | fuel + 1 =>
    if st.fallback ∈ seen then
      match styles "decimal" with
      | some d => dispatch clusters styles fuel d value seen
      | none => some .crash
    else
      match (styles st.fallback).orElse (fun _ => styles "decimal") with
      | some f => dispatch clusters styles fuel f value (st.fallback :: seen)
      | none => some .crash

/-- `_dispatchCounterFallback`, style/counter.cpp lines 539–583. -/
def dispatch (clusters : Sym → Nat) (styles : Styles) (fuel : Nat) (st : Style) (value : Int)
    (seen : List Name) : Option Out :=
  match fuel with
  | 0 => none
  | fuel + 1 =>
    if definedFor st value = some false then toFallback clusters styles fuel st value seen
    else
      match dispatchSystem st value.natAbs with
      | .undefined => toFallback clusters styles fuel st value seen
      | .crash => some .crash
      | .repr s => some (.text (finish clusters st value s))
end

/-- `constructCounterRepresentation`, style/counter.cpp lines 586–590, with
    `_lookupCounterOrFallbackToDecimal`, lines 506–516. `none`: not finished within
    `fuel` calls. -/
def construct (clusters : Sym → Nat) (styles : Styles) (fuel : Nat) (name : Name) (value : Int) :
    Option Out :=
  match (styles name).orElse (fun _ => styles "decimal") with
  | some st => dispatch clusters styles fuel st value [name]
  | none => some .crash

/-- `CounterDescriptors`, style/counter.cpp lines 224–253. -/
structure Descriptors where
  system : Option System := none
  negative : Option (Sym × Option Sym) := none
  prefix_ : Option Sym := none
  suffix : Option Sym := none
  range : Option (Option (List (Option Int × Option Int))) := none
  pad : Option (Int × Sym) := none
  fallback : Option Name := none
  symbols : Option (List Sym) := none
  additive : Option (List (Int × Sym)) := none
deriving DecidableEq, Repr

/-- `CounterDescriptors::extends`, style/counter.cpp lines 255–268. -/
def Descriptors.over (d : Descriptors) (o : Style) : Style :=
  { system := d.system.getD o.system
    negative := d.negative.getD o.negative
    prefix_ := d.prefix_.getD o.prefix_
    suffix := d.suffix.getD o.suffix
    range := d.range.getD o.range
    pad := d.pad.getD o.pad
    fallback := d.fallback.getD o.fallback
    symbols := d.symbols.getD o.symbols
    additive := d.additive.getD o.additive }

/-- The `CounterDescriptorSet` map, style/counter.cpp line 602, as the list of its
    items in iteration order. -/
abbrev DescSet := List (Name × Descriptors)

/-- `Map::lookup`. -/
def look {α : Type} (m : List (Name × α)) (n : Name) : Option α :=
  (m.find? (fun kv => kv.1 = n)).map Prod.snd

/-- `Map::put`: replaces the entry of that key or adds one. -/
def put {α : Type} (m : List (Name × α)) (n : Name) (a : α) : List (Name × α) :=
  if (look m n).isSome then m.map (fun kv => if kv.1 = n then (n, a) else kv) else m ++ [(n, a)]

/-- The lambda `resolveOne`, style/counter.cpp lines 606–633. The state is the pair of
    captured `resolved` and `seen`; `none` is running out of fuel. -/
def resolveOne (counters : DescSet) :
    Nat → List (Name × Style) → List Name → Name → Option (Style × List (Name × Style) × List Name)
  | 0, _, _, _ => none
  | fuel + 1, resolved, seen, name =>
    match look resolved name with
    | some it => some (it, resolved, seen)
    | none =>
      if name ∈ seen then some (.initial, resolved, seen)
      else
        match look counters name with
        | none => some (.initial, resolved, seen)
        | some desc =>
          let seen := name :: seen
          match desc.system with
          | some (.extends_ ext) =>
            match resolveOne counters fuel resolved seen ext with
            | none => none
            | some (base, resolved, seen) =>
              let style := { desc.over base with system := base.system }
              some (style, put resolved name style, seen)
          | _ =>
            let style := desc.over .initial
            some (style, put resolved name style, seen)

/-- `resolveExtends`, style/counter.cpp lines 604–641. -/
def resolveExtends (counters : DescSet) (fuel : Nat) : Option (List (Name × Style)) :=
  counters.foldlM (init := []) fun resolved kv =>
    (resolveOne counters fuel resolved [] kv.1).map (fun r => r.2.1)

end Verif.Counter
