import Verif.Selector.Model
import Verif.Dom.Spec
/-!
# What selectors mean

A declarative reading of Selectors on ordered trees (child lists), independent of
links, loops and fuel.
-/
namespace Verif.Selector
open Verif.Dom (Kids InSubtree)

/-- Two characters are the same, up to ASCII case when `i`. -/
def SameChar (i : Bool) (a b : Char) : Prop :=
  a = b ∨ i = true ∧ ∃ j, j < 26 ∧
    (a.toNat = 65 + j ∧ b.toNat = 97 + j ∨ a.toNat = 97 + j ∧ b.toNat = 65 + j)

/-- Two strings are the same, up to ASCII case when `i`. -/
def SameStr (i : Bool) : Str → Str → Prop
  | [], [] => True
  | a :: as, b :: bs => SameChar i a b ∧ SameStr i as bs
  | _, _ => False

/-- ASCII white space. -/
def Blank (c : Char) : Prop := c = ' ' ∨ 9 ≤ c.toNat ∧ c.toNat ≤ 13

/-- `w` is one of the whitespace-separated words of `s`. -/
def WordOf (w s : Str) : Prop :=
  w ≠ [] ∧ (∀ c ∈ w, ¬ Blank c) ∧
  ∃ pre post, s = pre ++ w ++ post ∧
    (pre = [] ∨ ∃ p c, pre = p ++ [c] ∧ Blank c) ∧
    (post = [] ∨ ∃ c p, post = c :: p ∧ Blank c)

/-- Meaning of a name pattern. -/
def NameMeans (s : QSel) (q : QName) : Prop :=
  (s.ns = .universal ∨ (s.ns = .null ∧ q.ns = none) ∨ ∃ x, s.ns = .exact x ∧ q.ns = some x) ∧
  (s.name = none ∨ s.name = some q.name)

/-- `v` is the value of the first attribute of `e` named by `s`. -/
def AttrHas (s : QSel) (e : Element) (v : Str) : Prop :=
  s.name ≠ none ∧ ∃ pre q post, e.attrs = pre ++ (q, v) :: post ∧ NameMeans s q ∧ ∀ x ∈ pre, ¬ NameMeans s x.1

/-- Meaning of attribute selectors (Selectors 4, §6). -/
def AttrMeans (s : AttrSel) (e : Element) : Prop :=
  ∃ v, AttrHas s.qname e v ∧
    match s.op with
    | .present => True
    | .exact => SameStr s.insensitive v s.value
    | .contains => ∃ w, WordOf w v ∧ SameStr s.insensitive w s.value
    | .hyphenated => SameStr s.insensitive v s.value ∨
        ∃ x y, v = x ++ '-' :: y ∧ SameStr s.insensitive x s.value
    | .startWith => s.value ≠ [] ∧ ∃ x y, v = x ++ y ∧ SameStr s.insensitive x s.value
    | .endWith => s.value ≠ [] ∧ ∃ x y, v = x ++ y ∧ SameStr s.insensitive y s.value
    | .contain => s.value ≠ [] ∧ ∃ x y z, v = x ++ y ++ z ∧ SameStr s.insensitive y s.value

/-- `l` are the siblings of `n` counted by a position: those before it, or those after
it when counting from the end.  A node without parent has none. -/
def SiblingsOn (k : Kids) (reverse : Bool) (n : Nat) (l : List Nat) : Prop :=
  (∃ p other, if reverse then k p = other ++ n :: l else k p = l ++ n :: other) ∨
  ((∀ p, n ∉ k p) ∧ l = [])

/-- `n`'s position among the siblings satisfying `P` is in the progression `a*i + b`. -/
noncomputable def Nth (k : Kids) (reverse : Bool) (anb : AnB) (P : Nat → Prop) (n : Nat) : Prop :=
  open Classical in
  ∃ l, SiblingsOn k reverse n l ∧ ∃ i : Nat, anb.a * i + anb.b = ((l.countP (fun m => decide (P m)) + 1 : Nat) : Int)

mutual
/-- Meaning of a selector on node `n` (contents `e`), for the element itself
(`pe = none`) or one of its pseudo-elements. -/
def Means (k : Kids) (data : Nat → NodeData) : Selector → Nat → Element → Option Str → Prop
  | .and l, n, e, pe => MeansAll k data l n e pe
  | .or l, n, e, pe => MeansSome k data l n e pe
  | .not s, n, e, pe => ¬ Means k data s n e pe
  | .where_ s, n, e, pe => Means k data s n e pe
  | .infix .descendant lhs rhs, n, e, pe => Means k data rhs n e pe ∧
      ∃ a ea, (∃ c ∈ k a, InSubtree k c n) ∧ data a = .element ea ∧ Means k data lhs a ea none
  | .infix .child lhs rhs, n, e, pe => Means k data rhs n e pe ∧
      ∃ a ea, n ∈ k a ∧ data a = .element ea ∧ Means k data lhs a ea none
  | .infix .adjacent lhs rhs, n, e, pe => Means k data rhs n e pe ∧
      ∃ p a ea pre mid post, k p = pre ++ a :: mid ++ n :: post ∧ (∀ m ∈ mid, data m = .other) ∧
        data a = .element ea ∧ Means k data lhs a ea none
  | .infix .subsequent lhs rhs, n, e, pe => Means k data rhs n e pe ∧
      ∃ p a ea pre mid post, k p = pre ++ a :: mid ++ n :: post ∧
        data a = .element ea ∧ Means k data lhs a ea none
  | .infix .column _ _, _, _, _ => False
  | .type q, _, e, _ => NameMeans q e.qname
  | .empty, _, _, _ => False
  | .id s, _, e, _ => AttrHas ⟨.universal, some "id".toList⟩ e s
  | .class_ s, _, e, _ => s ∈ e.classes
  | .pseudoElement s, _, _, pe => pe = some s
  | .attr a, _, e, _ => AttrMeans a e
  | .link, _, e, _ => e.qname = aTag ∧ ∃ v, (hrefAttr, v) ∈ e.attrs
  | .root, _, e, _ => e.qname = htmlTag
  | .nthChild _ none, _, _, _ => False
  | .nthChild rev (some (anb, none)), n, _, _ => Nth k rev anb (fun m => ∃ e, data m = .element e) n
  | .nthChild rev (some (anb, some s)), n, e, _ => Means k data s n e none ∧
      Nth k rev anb (fun m => ∃ e', data m = .element e' ∧ Means k data s m e' none) n
  | .nthOfType _ none, _, _, _ => False
  | .nthOfType rev (some anb), n, e, _ =>
      Nth k rev anb (fun m => ∃ e', data m = .element e' ∧ e'.qname = e.qname) n
  | .firstOfType, n, e, _ => ∃ l, SiblingsOn k false n l ∧ ∀ m ∈ l, ∀ e', data m = .element e' → e'.qname ≠ e.qname
  | .lastOfType, n, e, _ => ∃ l, SiblingsOn k true n l ∧ ∀ m ∈ l, ∀ e', data m = .element e' → e'.qname ≠ e.qname
  | .firstChild, n, _, _ => ∃ l, SiblingsOn k false n l ∧ ∀ m ∈ l, data m = .other
  | .lastChild, n, _, _ => ∃ l, SiblingsOn k true n l ∧ ∀ m ∈ l, data m = .other
  | .otherPseudo, _, _, _ => False
def MeansAll (k : Kids) (data : Nat → NodeData) : List Selector → Nat → Element → Option Str → Prop
  | [], _, _, _ => True
  | s :: l, n, e, pe => Means k data s n e pe ∧ MeansAll k data l n e pe
def MeansSome (k : Kids) (data : Nat → NodeData) : List Selector → Nat → Element → Option Str → Prop
  | [], _, _, _ => False
  | s :: l, n, e, pe => Means k data s n e pe ∨ MeansSome k data l n e pe
end

mutual
/-- Selectors the parser can produce and whose functional pseudo-classes have their
argument: no `:where` (never produced), no bare `:nth-child`. -/
def Selector.Complete : Selector → Prop
  | .and l => AllComplete l
  | .or l => AllComplete l
  | .not s => s.Complete
  | .where_ _ => False
  | .infix _ l r => l.Complete ∧ r.Complete
  | .nthChild _ none => False
  | .nthChild _ (some (_, none)) => True
  | .nthChild _ (some (_, some s)) => s.Complete
  | .nthOfType _ a => a ≠ none
  | _ => True
def AllComplete : List Selector → Prop
  | [] => True
  | s :: l => s.Complete ∧ AllComplete l
end

mutual
/-- The selector has no next-sibling combinator. -/
def Selector.NoAdjacent : Selector → Prop
  | .and l => AllNoAdjacent l
  | .or l => AllNoAdjacent l
  | .not s => s.NoAdjacent
  | .where_ s => s.NoAdjacent
  | .infix c l r => c ≠ .adjacent ∧ l.NoAdjacent ∧ r.NoAdjacent
  | .nthChild _ (some (_, some s)) => s.NoAdjacent
  | _ => True
def AllNoAdjacent : List Selector → Prop
  | [] => True
  | s :: l => s.NoAdjacent ∧ AllNoAdjacent l
end

/-- No element is immediately preceded by a non-element sibling (text, comment). -/
def Unmixed (k : Kids) (data : Nat → NodeData) : Prop :=
  ∀ p pre a n post e, k p = pre ++ a :: n :: post → data n = .element e → ∃ ea, data a = .element ea

end Verif.Selector
