import Verif.Css.Token
/-!
# `var()`: model

`/repo/src/vaev-engine/props/base.cpp` lines 363–457 (`DeferredProperty`).

* The custom properties of an element are a function from names to values.
* Instead of counting `depth` up to 32 the model counts the levels left, `32 - depth`, down to
  zero, so that the recursion is plainly well-founded. `none` is the error of line 376.
-/
namespace Verif.Decl
open Verif.Css

/-- The custom properties of an element, `ComputedValues::customProps`
(`/repo/src/vaev-engine/style/computed.cpp` line 61). -/
abbrev Env := Text → Option (List Sst)

/-- `c->prefix == Css::Token::function("var(")`, base.cpp lines 378–379. -/
def isVar (pre : Tok) : Bool := pre.same ⟨.func, u "var("⟩

/-- What follows the name in the arguments of `var()`, base.cpp lines 404–410. -/
def expandFallback (deeper : List Sst → Option (List Sst)) (r : List Sst) : Option (List Sst) :=
  match eatWs r with
  | [] => some []
  | k :: f => if k.is .comma then deeper f else some []

/-- `_expandVariable` behind its two tests, base.cpp lines 383–410, on the arguments of `var()`;
`deeper` is `_expandContent` one level further down. -/
def expandVariable (env : Env) (deeper : List Sst → Option (List Sst)) (content : List Sst) : Option (List Sst) :=
  match eatWs content with
  | .tok t :: r =>
    if t.type = .ident then
      match env t.data with
      | some (v :: vs) => if v.is .invalid then expandFallback deeper r else deeper (v :: vs)
      | _ => expandFallback deeper r
    else some []
  | _ => some []

mutual
/-- One turn of the loop of `_expandContent`, base.cpp lines 430–433, with `_expandFunction`,
lines 413–423. -/
def expandItem (env : Env) (deeper : List Sst → Option (List Sst)) : Sst → Option (List Sst)
  | .func pre content =>
    if isVar pre then expandVariable env deeper content
    else (expandItems env deeper content).map fun out => [.func pre out]
  | .rule t p c => some [.rule t p c]
  | .decl t c i => some [.decl t c i]
  | .tok t => some [.tok t]
  | .block c => some [.block c]

/-- The loop of `_expandContent`, base.cpp lines 429–436, where `var()` is still allowed. -/
def expandItems (env : Env) (deeper : List Sst → Option (List Sst)) : List Sst → Option (List Sst)
  | [] => some []
  | s :: r =>
    match expandItem env deeper s with
    | none => none
    | some a => (expandItems env deeper r).map (a ++ ·)
end

/-- `_expandContent`, base.cpp lines 425–439, with `n = 32 - depth`. At depth 32 every item is
an error (line 375 comes before line 378). -/
def expandContent (env : Env) : Nat → List Sst → Option (List Sst)
  | 0, [] => some []
  | 0, _ :: _ => none
  | n + 1, c => expandItems env (expandContent env n) c

/-- The expansion of a declared value, base.cpp lines 442–450. -/
def expand (env : Env) (value : List Sst) : Option (List Sst) := (expandContent env 32 value).map eatWs

end Verif.Decl
