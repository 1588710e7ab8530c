import Verif.Decl.Var
/-!
# Declared values: model

`/repo/src/vaev-engine/props/base.cpp` lines 317–361 (`ToggleProperty`), 441–474
(`DeferredProperty::apply`), 481–545 (`DefaultedProperty`) and 719–788 (`parseValue`), for one
longhand property.

* What the property's own parser reads (`Registration::parse`) is a parameter: it gives the value
  and the items it left, or an error. A value is what `apply` stores.
* `toggle()` is left out of `parseValue` (`_parseToggle`, lines 736–751, is tried after the
  CSS-wide keywords): a property with it is modelled on its own below.
-/
namespace Verif.Decl
open Verif.Css

/-- A registered property: its parser, its initial value and whether it is inherited. -/
structure Reg (V : Type) where
  parse : List Sst → Option (V × List Sst)
  initial : V
  inherited : Bool

/-- `Default`, base.cpp lines 483–490. -/
inductive Wide where
  | initial | inherit | unset | revert
deriving DecidableEq, Repr

/-- The properties `parseValue` makes. -/
inductive Declared (V : Type) where
  | typed (v : V)
  | wide (d : Wide)
  | deferred (content : List Sst)

/-- `_parseDefaulted`, base.cpp lines 719–734. -/
def parseDefaulted : List Sst → Option Wide
  | [] => none
  | s :: _ =>
    if s.isIdent (u "initial") then some .initial
    else if s.isIdent (u "inherit") then some .inherit
    else if s.isIdent (u "unset") then some .unset
    else if s.isIdent (u "revert") then some .revert
    else none

/-- `parseValue` with the options of style sheets, base.cpp lines 757–788. -/
def parseValue {V : Type} (reg : Reg V) (content : List Sst) : Declared V :=
  let c := eatWs content
  match parseDefaulted c with
  | some d => .wide d
  | none =>
    match reg.parse c with
    | some (v, rest) => if (eatWs rest).isEmpty then .typed v else .deferred content
    | none => .deferred content

/-- What style computation comes to: a value, or `unreachable()`. -/
inductive Out (V : Type) where
  | ok (v : V)
  | crash
deriving DecidableEq, Repr

/-- `apply` of the three kinds of property, base.cpp lines 469–474 and 522–545; `cur` is the value
already there. -/
def applyDeclared {V : Type} (reg : Reg V) (env : Env) (parent cur : V) : Declared V → Out V
  | .typed v => .ok v
  | .wide .initial => .ok reg.initial
  | .wide .inherit => .ok parent
  | .wide .unset => .ok (if reg.inherited then parent else reg.initial)
  | .wide .revert => .crash
  | .deferred content =>
    match expand env content with
    | none => .ok cur
    | some out =>
      match reg.parse out with
      | none => .ok cur
      | some (v, _) => .ok v

/-- The value an element starts with, `inheritsComputedValues`, base.cpp lines 697–715. -/
def start {V : Type} (reg : Reg V) (parent : V) : V := if reg.inherited then parent else reg.initial

/-- The value of a property on an element: among its declarations, given in the order of the
cascade (see C12), the last one is applied
(`/repo/src/vaev-engine/style/computer.cpp` lines 354–398). -/
def valueOf {V : Type} (reg : Reg V) (env : Env) (parent : V) (decls : List (List Sst)) : Out V :=
  match decls.getLast? with
  | none => .ok (start reg parent)
  | some content => applyDeclared reg env parent (start reg parent) (parseValue reg content)

/-- The custom properties of a child element: its own, and for the rest its parent's
(base.cpp lines 699 and 308–310). -/
def childEnv (own parent : Env) : Env := fun x => (own x).or (parent x)

/-- The loop of `ToggleProperty::apply`, base.cpp lines 349–354: the index reached. `same` tells
whether the parent's value is the computed value of an option. -/
def toggleIndex {V : Type} (same : V → Bool) : Nat → List V → Nat
  | i, [] => i
  | i, v :: r => if same v then i + 1 else toggleIndex same (i + 1) r

/-- `ToggleProperty::apply`, base.cpp lines 344–356: the option that is applied. `computed cx v` is
what the option `v` computes to in the context `cx`; `Property::computedValue`, lines 220–227,
computes in the empty context `cx₀` and not in that of the element. -/
def toggle {Cx V C : Type} [DecidableEq C] (computed : Cx → V → C) (cx₀ : Cx) (parent : C) (options : List V) : Option V :=
  if options.isEmpty then none
  else options[toggleIndex (fun v => decide (parent = computed cx₀ v)) 0 options % options.length]?

end Verif.Decl
