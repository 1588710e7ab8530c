import Verif.Baseline.Model
/-!
# What CSS says of boxes in lines

CSS 2.2, section 10.8.1 and 10.3.9.
-/
namespace Verif.Baseline

mutual
/-- The baselines of all lines in normal flow, from the top of the content, in order. -/
def linesOf : Content → List Rat
  | .para _ l ls => l :: ls
  | .image => []
  | .other => []
  | .block ks => linesIn ks
def linesIn : List Box → List Rat
  | [] => []
  | .mk t e _ _ skip _ c :: ks =>
    (if skip then [] else (linesOf c).map fun y => t + e + y) ++ linesIn ks
end

/-- The baseline of an inline block, from the top of its border box: that of its last line; without lines, or if it
scrolls, the bottom edge of its margin. -/
def specBaseline (b : Box) : Rat :=
  if b.scrolls then b.height + b.marginBottom
  else match (linesOf b.content).getLast? with
    | some y => b.edge + y
    | none => b.height + b.marginBottom

/-- The width that a box takes in a line, with its margins: its width, or as wide as there is space for, but not more than
its content wants nor less than it needs. -/
def specWidth (space : Rat) (a : Atom) : Rat :=
  let inner := match a.width with
    | some w => w
    | none =>
      let left := space - a.edges - a.margins
      if left < a.minC then a.minC else if a.maxC < left then a.maxC else left
  a.margins + a.edges + inner

end Verif.Baseline
