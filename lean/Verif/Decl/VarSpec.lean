import Verif.Css.Token
/-!
# `var()`: what is meant

CSS Custom Properties 1, sections 2 and 3. A value with `var()` stands for the value in which
each `var()` is replaced by the value of the custom property, itself so treated, or by the
fallback. With `strict` the rules are cut down to what the code does.
-/
namespace Verif.Decl.Spec
open Verif.Css

/-- The function token of `var()`. -/
def Var (f : Tok) : Prop := f.type = .func ∧ f.data.map lower = u "var("

/-- The arguments of a `var()`: a name and perhaps a fallback. -/
inductive Args : List Sst → Text → Option (List Sst) → Prop
  | name {w₁ t w₂} : Blank w₁ → t.type = .ident → Blank w₂ → Args (w₁ ++ .tok t :: w₂) t.data none
  | fallback {w₁ t w₂ k fb} : Blank w₁ → t.type = .ident → Blank w₂ → k.type = .comma →
      Args (w₁ ++ .tok t :: (w₂ ++ .tok k :: fb)) t.data (some fb)

/-- `v` is the value of the custom property `x`. -/
def Value (env : Text → Option (List Sst)) (x : Text) (v : List Sst) : Prop :=
  env x = some v ∧ ∀ s r, v = s :: r → s.is .invalid = false

/-- The names of the custom properties that a value mentions anywhere. -/
inductive Mentions : List Sst → Text → Prop
  | here {f w t a r} : Var f → Blank w → t.type = .ident → Mentions (.func f (w ++ .tok t :: a) :: r) t.data
  | inFunc {f c x r} : Mentions c x → Mentions (.func f c :: r) x
  | inBlock {c x r} : Mentions c x → Mentions (.block c :: r) x
  | later {s r x} : Mentions r x → Mentions (s :: r) x

/-- The value of `x` leads to that of `y`. -/
inductive Leads (env : Text → Option (List Sst)) : Text → Text → Prop
  | one {x v y} : env x = some v → Mentions v y → Leads env x y
  | more {x v y z} : env x = some v → Mentions v y → Leads env y z → Leads env x z

/-- A custom property in a dependency cycle: it has no value. -/
def Cyclic (env : Text → Option (List Sst)) (x : Text) : Prop := Leads env x x

/-- `Subst strict env n c o`: the value `c` stands for `o`, and `var()` was followed at most `n`
times in depth. -/
inductive Subst (strict : Bool) (env : Text → Option (List Sst)) : Nat → List Sst → List Sst → Prop
  | nil {n} : Subst strict env n [] []
  | tok {n t r o} : Subst strict env n r o → Subst strict env n (.tok t :: r) (.tok t :: o)
  | block {n b b' r o} : Subst strict env n b b' → (strict = true → b' = b) → Subst strict env n r o →
      Subst strict env n (.block b :: r) (.block b' :: o)
  | func {n f b b' r o} : ¬ Var f → Subst strict env n b b' → Subst strict env n r o →
      Subst strict env n (.func f b :: r) (.func f b' :: o)
  | var {n f c x fb v o' r o} : Var f → Args c x fb → Value env x v → ¬ Cyclic env x → (strict = true → v ≠ []) →
      Subst strict env n v o' → Subst strict env (n + 1) r o → Subst strict env (n + 1) (.func f c :: r) (o' ++ o)
  | fallback {n f c x fb o' r o} : Var f → Args c x (some fb) → (∀ v, ¬ Value env x v) ∨ (strict = false ∧ Cyclic env x) →
      Subst strict env n fb o' → Subst strict env (n + 1) r o → Subst strict env (n + 1) (.func f c :: r) (o' ++ o)

/-- The custom properties whose values are needed to replace the `var()`s of a value one by
one. -/
inductive Follows (env : Text → Option (List Sst)) : List Sst → Text → Prop
  | here {f c x fb r} : Var f → Args c x fb → Follows env (.func f c :: r) x
  | fallback {f c x fb y r} : Var f → Args c x (some fb) → (∀ v, ¬ Value env x v) → Follows env fb y →
      Follows env (.func f c :: r) y
  | inFunc {f c x r} : ¬ Var f → Follows env c x → Follows env (.func f c :: r) x
  | later {s r x} : Follows env r x → Follows env (s :: r) x

/-- A value written without any of the things the code treats in its own way: a `var()` in a
bracketed block, one without value and fallback, one in a cycle, one with an empty value. -/
inductive Tidy (env : Text → Option (List Sst)) : List Sst → Prop
  | nil : Tidy env []
  | tok {t r} : Tidy env r → Tidy env (.tok t :: r)
  | block {b r} : Subst true env 0 b b → Tidy env r → Tidy env (.block b :: r)
  | func {f b r} : ¬ Var f → Tidy env b → Tidy env r → Tidy env (.func f b :: r)
  | var {f c x fb v r} : Var f → Args c x fb → Value env x v → ¬ Cyclic env x → v ≠ [] → Tidy env r → Tidy env (.func f c :: r)
  | fallback {f c x fb r} : Var f → Args c x (some fb) → (∀ v, ¬ Value env x v) → Tidy env fb → Tidy env r →
      Tidy env (.func f c :: r)

end Verif.Decl.Spec
