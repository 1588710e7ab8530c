import Verif.Cascade.Model
/-! # What the cascade should pick -/
namespace Verif.Cascade
open Verif.Selector (Specificity)

/-- Precedence of origins for normal declarations. -/
def place : Origin → Nat
  | .userAgent => 0
  | .user => 1
  | .presentationalHint => 2
  | .author => 3
  | .inline => 4

/-- Importance, then origin, then the three counts of the specificity. -/
def weights (d : Decl) : List Nat :=
  [if d.important then 1 else 0, place d.origin, d.specificity.a, d.specificity.b, d.specificity.c]

/-- Lexicographic order. -/
inductive LexLt : List Nat → List Nat → Prop
  | head {a b l l'} : a < b → LexLt (a :: l) (b :: l')
  | tail {a l l'} : LexLt l l' → LexLt (a :: l) (a :: l')

/-- `x` is outranked by `y`. -/
def Lower (x y : Decl) : Prop := LexLt (weights x) (weights y)

/-- `d` wins property `n` in the list `ds`: it is a valid declaration of `n`, no earlier
one outranks it, and it outranks every later one. -/
def Winner (ds : List Decl) (n : Nat) (d : Decl) : Prop :=
  ∃ pre post, ds = pre ++ d :: post ∧ d.name = n ∧ d.bogus = false ∧
    (∀ x ∈ pre, x.name = n → x.bogus = false → ¬ Lower d x) ∧
    (∀ x ∈ post, x.name = n → x.bogus = false → Lower x d)

/-- The declaration `p.1: p.2` in the place of `d`. -/
def inPlace (d : Decl) (p : Nat × Nat) : Decl :=
  { name := p.1, value := p.2, important := d.important, origin := d.origin, specificity := d.specificity,
    shorthand := false, bogus := d.bogus }

/-- Every shorthand written out as its longhands, in place. -/
def writtenOut (expand : Decl → List (Nat × Nat)) (ds : List Decl) : List Decl :=
  ds.flatMap fun d => if d.shorthand then (expand d).map (inPlace d) else [d]

end Verif.Cascade
