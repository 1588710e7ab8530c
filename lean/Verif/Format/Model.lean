import Verif.SelParse.Model
/-!
# Selectors as text: model

`style/selector.cpp`: `Selector::unparsed` (1088–1093) and `unparse` (1097–1152), with the `repr` of selectors (140–155, 159–161, 183–185,
205–207, 235–237, 245–247, 255–257, 467–469, 512–514, 550–552, 645–649).  Texts are lists of code points.  Paths are
relative to `src/vaev-engine`.
-/
namespace Verif.Format
open Verif.Css (Text u)
open Verif.Selector (Str Selector QSel NsPat AnB AttrSel Comb)

/-- How Karm prints what is not a selector itself: the names of enumerations with the vector behind them (`({} {})` of
`Nfix`), the combinator of an `Infix`, what stands in the brackets of an attribute selector, and pseudo-classes with their
arguments (the model does not keep all their names).  Nothing is assumed of these texts. -/
structure Karm where
  nfix : Nat → List Text → Text
  comb : Comb → Text
  attr : AttrSel → Text
  pseudo : Selector → Text

/-- The code points of a symbol. -/
def points (s : Str) : Text := s.map Char.toNat

/-- `QualifiedNameSelector::repr`, 140–155.  The namespace is printed, not a prefix for it. -/
def qname (q : QSel) : Text :=
  match q.ns, q.name with
  | .universal, some n => u "*|" ++ points n
  | .exact s, some n => points s ++ 124 :: points n
  | .null, some n => points n
  | .universal, none => u "*"
  | .exact s, none => points s ++ u "|*"
  | .null, none => u "|*"

mutual
/-- `Selector::repr`, 645–649, with that of each kind. -/
def repr (K : Karm) : Selector → Text
  | .and l => 40 :: (K.nfix 0 (reprs K l) ++ [41])
  | .or l => 40 :: (K.nfix 1 (reprs K l) ++ [41])
  | .not s => 40 :: (K.nfix 2 [repr K s] ++ [41])
  | .where_ s => 40 :: (K.nfix 3 [repr K s] ++ [41])
  | .infix c l r => 40 :: (repr K l ++ 32 :: (K.comb c ++ 32 :: (repr K r ++ [41])))
  | .type q => qname q
  | .empty => u "EMPTY"
  | .id n => 35 :: points n
  | .class_ n => 46 :: points n
  | .pseudoElement n => points n
  | .attr a => 91 :: (K.attr a ++ [93])
  | s => K.pseudo s
def reprs (K : Karm) : List Selector → List Text
  | [] => []
  | s :: l => repr K s :: reprs K l
end

/-- The loop 1101–1107. -/
def commas : List Text → Text
  | [] => []
  | [t] => t
  | t :: l => t ++ 44 :: commas l

/-- `unparse`, 1097–1152. -/
def unparse (K : Karm) : Selector → Text
  | .or l => commas (reprs K l)
  | .and l => (reprs K l).flatten
  | .infix .descendant l r => repr K l ++ 32 :: repr K r
  | .infix .child l r => repr K l ++ 62 :: repr K r
  | .infix .adjacent l r => repr K l ++ 43 :: repr K r
  | .infix .subsequent l r => repr K l ++ 126 :: repr K r
  | s => repr K s

end Verif.Format
