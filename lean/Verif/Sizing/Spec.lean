/-!
# Sizes: what is meant
-/
namespace Verif.Sizing.Spec

/-- Between minimum and maximum, the minimum winning where they conflict. -/
def InBounds (lo hi x : Int) : Prop := lo ≤ x ∧ (x ≤ hi ∨ x = lo)

/-- A size has the proportions of another one exactly. -/
def SameRatio (w h w' h' : Int) : Prop := w' * h = h' * w

/-- A size has the proportions of another one, one of its sides rounded down to the next unit. -/
def NearRatio (w h w' h' : Int) : Prop :=
  (h' * w ≤ w' * h ∧ w' * h < (h' + 1) * w) ∨ (w' * h ≤ h' * w ∧ h' * w < (w' + 1) * h)

end Verif.Sizing.Spec
