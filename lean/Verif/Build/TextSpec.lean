import Verif.Build.Text
/-!
# Building boxes: specification of white space

Nothing here refers to the loops of the model.
-/
namespace Verif.Build

/-- White space of CSS and HTML as far as ASCII goes. -/
def White (c : Char) : Prop :=
  c = ' ' ∨ c = '\t' ∨ c = '\n' ∨ c = '\r' ∨ c.toNat = 11 ∨ c.toNat = 12

instance : DecidablePred White := fun c => by unfold White; infer_instance

/-- Line ends in the source. -/
def LineEnd (c : Char) : Prop :=
  c = '\n' ∨ c = '\r' ∨ c.toNat = 11 ∨ c.toNat = 12

instance : DecidablePred LineEnd := fun c => by unfold LineEnd; infer_instance

/-- One character in place of a run of white space: with `pre-line` a run with a line end leaves a line end. -/
def oneFor (w : Ws) (r : List Char) : Char :=
  if w = .preLine ∧ r.any (fun c => decide (LineEnd c)) then '\n' else ' '

/-- `Squeeze one f s o`: `o` is `s` with each maximal run of white space replaced by the one character that `one` gives
for it and each other character by its image under `f`. -/
inductive Squeeze (one : List Char → Char) (f : Char → Char) : List Char → List Char → Prop where
  | nil : Squeeze one f [] []
  | char {c s o} : ¬ White c → Squeeze one f s o → Squeeze one f (c :: s) (f c :: o)
  | run {r s o} : r ≠ [] → (∀ c ∈ r, White c) → (∀ c, s.head? = some c → ¬ White c) →
      Squeeze one f s o → Squeeze one f (r ++ s) (one r :: o)

/-- `text-transform`, on ASCII letters. -/
def cased : Trans → Char → Char
  | .uppercase, c => c.toUpper
  | .lowercase, c => c.toLower
  | .none, c => c
  | .capitalize, c => c

/-- No two white space characters stand next to each other. -/
def NoTwo (o : List Char) : Prop :=
  ∀ (a b : List Char) (x y : Char), o = a ++ x :: y :: b → ¬ (White x ∧ White y)

/-- The characters that are not white space, in order. -/
def solid (s : List Char) : List Char :=
  s.filter fun c => !decide (White c)

end Verif.Build
