import Verif.Dom.Model
/-!
# Selector matching: `style/selector.cpp`, `style/matcher.cpp`

Strings and symbols are lists of characters.  Nodes are the cells of the DOM heap
model; `NodeData` says what each cell is.  Answers are `Except Fault Bool`: `panic`
is a failed `unwrap`, `fuel` means a loop over links did not end within the fuel.
-/
namespace Verif.Selector
open Verif.Dom (Heap)

abbrev Str := List Char

/-- `Dom::QualifiedName`. -/
structure QName where
  ns : Option Str
  name : Str
deriving DecidableEq, Repr

/-- `Dom::Element`: the parts matching looks at.  `dom/element.cpp:64-74`.
`attrs` is the map in insertion order. -/
structure Element where
  qname : QName
  attrs : List (QName × Str) := []
  classes : List Str := []
deriving DecidableEq, Repr

/-- `NodeType`: element, or anything else (text, comment, document, …). -/
inductive NodeData
  | element (e : Element)
  | other
deriving DecidableEq, Repr

/-- A document: links and node contents. -/
structure Doc where
  heap : Heap
  data : Nat → NodeData

/-- `node->is<Dom::Element>()`.  `dom/node.cpp:36-40`. -/
def Doc.elem? (d : Doc) (n : Nat) : Option Element :=
  match d.data n with
  | .element e => some e
  | .other => none

/-- `QualifiedNameSelector::NamespacePattern`.  `selector.cpp:60`. -/
inductive NsPat | null | universal | exact (s : Str)
deriving DecidableEq, Repr

/-- `QualifiedNameSelector`; `name = none` is universal.  `selector.cpp:59-64`. -/
structure QSel where
  ns : NsPat
  name : Option Str
deriving DecidableEq, Repr

/-- `QualifiedNameSelector::match`.  `selector.cpp:95-124`. -/
def QSel.matches (s : QSel) (q : QName) : Bool :=
  (match s.ns with
   | .null => q.ns == none
   | .universal => true
   | .exact x => q.ns == some x) &&
  (match s.name with
   | none => true
   | some x => q.name == x)

/-- `AnB`.  `selector.cpp:262-263`. -/
structure AnB where
  a : Int
  b : Int
deriving DecidableEq, Repr

/-- `AnB::match`; C++ `%` and `/` truncate.  `selector.cpp:271-282`.  Machine integers
are modelled as `Int`. -/
def AnB.matches (s : AnB) (index : Nat) : Bool :=
  let intIndex : Int := (index : Int) - s.b
  if s.a = 0 then intIndex == 0
  else if Int.tmod intIndex s.a ≠ 0 then false
  else decide (0 ≤ Int.tdiv intIndex s.a)

/-- `Infix::Type`.  `selector.cpp:169-176`. -/
inductive Comb | descendant | child | adjacent | subsequent | column
deriving DecidableEq, Repr

/-- `AttributeSelector::Match`.  `selector.cpp:531-543`. -/
inductive AttrMatch | present | exact | contains | hyphenated | startWith | endWith | contain
deriving DecidableEq, Repr

/-- `AttributeSelector`.  `selector.cpp:523-556`. -/
structure AttrSel where
  qname : QSel
  insensitive : Bool
  op : AttrMatch
  value : Str
deriving DecidableEq, Repr

/-- `Selector`.  `selector.cpp:558-570`.  `not_`/`where` hold exactly one inner
selector (`selector.cpp:586-598`), so they are unary here.  Pseudo-classes: the ones
with a matching rule are spelled out, the rest is `otherPseudo`.  `nth` stands for
`:nth-child`, `:nth-last-child`, `:nth-of-type`, `:nth-last-of-type`; its `arg` is
`extra`, missing when written without parentheses (`selector.cpp:941`). -/
inductive Selector
  | and (inners : List Selector)
  | or (inners : List Selector)
  | not (inner : Selector)
  | where_ (inner : Selector)
  | infix (c : Comb) (lhs rhs : Selector)
  | type (q : QSel)
  | empty
  | id (s : Str)
  | class_ (s : Str)
  | pseudoElement (s : Str)
  | attr (a : AttrSel)
  | link
  | root
  | nthChild (reverse : Bool) (arg : Option (AnB × Option Selector))
  | nthOfType (reverse : Bool) (arg : Option AnB)
  | firstOfType | lastOfType | firstChild | lastChild
  | otherPseudo

inductive Fault | panic | fuel
deriving DecidableEq, Repr

abbrev Answer := Except Fault Bool

/-- `Html::HTML_TAG`, `Html::A_TAG`, `Html::HREF_ATTR`, as far as needed. -/
def htmlNs : Str := "http://www.w3.org/1999/xhtml".toList
def htmlTag : QName := ⟨some htmlNs, "html".toList⟩
def aTag : QName := ⟨some htmlNs, "a".toList⟩
def hrefAttr : QName := ⟨none, "href".toList⟩

/-- `Element::getAttributeUnqualified`.  `dom/element.cpp:151-156`. -/
def Element.attrUnqualified (e : Element) (name : Str) : Option Str :=
  (e.attrs.find? (fun a => a.1.name == name)).map (·.2)

/-- `Element::getAttribute`.  `dom/element.cpp:144-149`. -/
def Element.attr (e : Element) (q : QName) : Option Str :=
  (e.attrs.find? (fun a => a.1 == q)).map (·.2)

/-- `toAsciiLower`. -/
def lower (c : Char) : Char := if 'A' ≤ c ∧ c ≤ 'Z' then Char.ofNat (c.toNat + 32) else c

/-- The comparison lambda.  `matcher.cpp:189-194`. -/
def cmp (insensitive : Bool) (a b : Char) : Bool :=
  if insensitive then lower a == lower b else a == b

/-- Karm's three-valued `Match`. -/
inductive Match | no | part | yes
deriving DecidableEq, Repr

/-- Karm's `startWith(str, prefix, cmp)`: `yes` when all of `str` was used, `part` when
some is left, `no` otherwise. -/
def startWith (eq : Char → Char → Bool) : Str → Str → Match
  | [], [] => .yes
  | _ :: _, [] => .part
  | [], _ :: _ => .no
  | a :: as, b :: bs => if eq a b then startWith eq as bs else .no

/-- Karm's `endWith`. -/
def endWith (eq : Char → Char → Bool) (s suffix : Str) : Match :=
  startWith eq s.reverse suffix.reverse

/-- Karm's `contains(str, needle, cmp)`. -/
def containsSub (eq : Char → Char → Bool) (s needle : Str) : Bool :=
  match s with
  | [] => startWith eq [] needle != .no
  | c :: cs => startWith eq (c :: cs) needle != .no || containsSub eq cs needle

/-- Karm's `isAsciiSpace`. -/
def isSpace (c : Char) : Bool :=
  c == ' ' || c == '\t' || c == '\n' || c == '\r' || c == Char.ofNat 11 || c == Char.ofNat 12

/-- The inner loops of `_matchContainsWord`: skip spaces, then take a word. -/
def skipSpaces : Str → Str
  | [] => []
  | c :: cs => if isSpace c then skipSpaces cs else c :: cs

def takeWord : Str → Str × Str
  | [] => ([], [])
  | c :: cs => if isSpace c then ([], c :: cs) else
    let (w, r) := takeWord cs
    (c :: w, r)

/-- `_matchContainsWord`.  `matcher.cpp:153-170`.  The loop runs at most once per
character, which is the fuel given by `matchesWord`. -/
def matchesWordLoop (eq : Char → Char → Bool) (word : Str) : Nat → Str → Bool
  | 0, _ => false
  | _ + 1, [] => false
  | f + 1, s@(_ :: _) =>
    let (w, r) := takeWord (skipSpaces s)
    if w ≠ [] ∧ startWith eq w word = .yes then true else matchesWordLoop eq word f r

def matchesWord (eq : Char → Char → Bool) (s word : Str) : Bool :=
  matchesWordLoop eq word (s.length + 1) s

/-- `_getAttributeValue`.  `matcher.cpp:141-150`. -/
def attrValue (s : AttrSel) (e : Element) : Option Str :=
  match s.qname.name with
  | none => none
  | some name =>
    match s.qname.ns with
    | .universal => e.attrUnqualified name
    | .null => e.attr ⟨none, name⟩
    | .exact ns => e.attr ⟨some ns, name⟩

/-- `_match(AttributeSelector)`.  `matcher.cpp:172-235`. -/
def matchAttr (s : AttrSel) (e : Element) : Bool :=
  match s.op, attrValue s e with
  | .present, v => v.isSome
  | _, none => false
  | .exact, some v => startWith (cmp s.insensitive) v s.value == .yes
  | .contains, some v =>
    if s.value.contains ' ' then false
    else if s.value.length = 0 then false
    else matchesWord (cmp s.insensitive) v s.value
  | .hyphenated, some v =>
    match startWith (cmp s.insensitive) v s.value with
    | .yes => true
    | .no => false
    | .part => v[s.value.length]? == some '-'
  | .startWith, some v =>
    if s.value.length = 0 then false else startWith (cmp s.insensitive) v s.value != .no
  | .endWith, some v =>
    if s.value.length = 0 then false else endWith (cmp s.insensitive) v s.value != .no
  | .contain, some v =>
    if s.value.length = 0 then false else containsSub (cmp s.insensitive) v s.value

/-- `_matchLink`.  `matcher.cpp:240-242`. -/
def matchLink (e : Element) : Bool := e.qname == aTag && e.attrs.any (fun a => a.1 == hrefAttr)

/-- `_matchDescendant`: climb the parents.  `matcher.cpp:22-32`. -/
def climb (d : Doc) (p : Nat → Answer) : Nat → Nat → Answer
  | 0, _ => .error .fuel
  | f + 1, curr =>
    match (d.heap curr).parent with
    | none => .ok false
    | some q =>
      match d.elem? q with
      | none => climb d p f q
      | some _ => (p q).bind fun b => if b then .ok true else climb d p f q

/-- `_matchChild`.  `matcher.cpp:35-43`. -/
def onParent (d : Doc) (p : Nat → Answer) (n : Nat) : Answer :=
  match (d.heap n).parent with
  | none => .ok false
  | some q =>
    match d.elem? q with
    | none => .ok false
    | some _ => p q

/-- `_matchAdjacent`: the previous *node*.  `matcher.cpp:46-54`. -/
def onPrev (d : Doc) (p : Nat → Answer) (n : Nat) : Answer :=
  match (d.heap n).prevSibling with
  | none => .ok false
  | some q =>
    match d.elem? q with
    | none => .ok false
    | some _ => p q

/-- `_matchSubsequent`.  `matcher.cpp:57-67`. -/
def scanPrev (d : Doc) (p : Nat → Answer) : Nat → Nat → Answer
  | 0, _ => .error .fuel
  | f + 1, curr =>
    match (d.heap curr).prevSibling with
    | none => .ok false
    | some q =>
      match d.elem? q with
      | none => scanPrev d p f q
      | some _ => (p q).bind fun b => if b then .ok true else scanPrev d p f q

/-- `Tree::index(filter)`/`reverseIndex(filter)` with a filter that may fault.
`dom/tree.cpp:27-47`. -/
def countSiblings (d : Doc) (reverse : Bool) (p : Nat → Answer) : Nat → Nat → Except Fault Nat
  | 0, _ => .error .fuel
  | f + 1, curr =>
    match (if reverse then (d.heap curr).nextSibling else (d.heap curr).prevSibling) with
    | none => .ok 0
    | some q => (p q).bind fun b => (countSiblings d reverse p f q).bind fun c =>
        .ok (if b then c + 1 else c)

/-- `_matchNthOfType`.  `matcher.cpp:284-299`. -/
def matchNthOfType (d : Doc) (fuel : Nat) (anb : AnB) (e : Element) (n : Nat) (reverse : Bool) : Answer :=
  (countSiblings d reverse (fun m => .ok (match d.elem? m with
    | some e' => e'.qname == e.qname
    | none => false)) fuel n).bind fun i => .ok (anb.matches (i + 1))

/-- The filter of `:nth-child` without `of S`: is it an element?  `matcher.cpp:268-273`. -/
def matchNthPlain (d : Doc) (fuel : Nat) (anb : AnB) (n : Nat) (reverse : Bool) : Answer :=
  (countSiblings d reverse (fun m => .ok (d.elem? m).isSome) fuel n).bind fun i => .ok (anb.matches (i + 1))

mutual
/-- `_matchSelector` and the `_match` overloads it routes to.  `matcher.cpp:69-135,
301-361`.  `e` is the contents of node `n`.  In `nthChild` the code asks
`matchSelector(s) != NONE`, which is the same question (`Props.lean`,
`matchSelector_isSome`). -/
def matchSel (d : Doc) (fuel : Nat) : Selector → Nat → Element → Option Str → Answer
  | .and l, n, e, pe => matchAll d fuel l n e pe
  | .or l, n, e, pe => matchAny d fuel l n e pe
  | .not s, n, e, pe => (matchSel d fuel s n e pe).map (!·)
  | .where_ s, n, e, pe => (matchSel d fuel s n e pe).map (!·)
  | .infix c lhs rhs, n, e, pe =>
    (matchSel d fuel rhs n e pe).bind fun b =>
      if !b then .ok false else
      let p : Nat → Answer := fun m =>
        match d.elem? m with
        | some e' => matchSel d fuel lhs m e' none
        | none => .ok false
      match c with
      | .descendant => climb d p fuel n
      | .child => onParent d p n
      | .adjacent => onPrev d p n
      | .subsequent => scanPrev d p fuel n
      | .column => .ok false
  | .type q, _, e, _ => .ok (q.matches e.qname)
  | .empty, _, _, _ => .ok false
  | .id s, _, e, _ => .ok (e.attrUnqualified "id".toList == some s)
  | .class_ s, _, e, _ => .ok (e.classes.contains s)
  | .pseudoElement s, _, _, pe => .ok (pe == some s)
  | .attr a, _, e, _ => .ok (matchAttr a e)
  | .link, _, e, _ => .ok (matchLink e)
  | .root, _, e, _ => .ok (e.qname == htmlTag)
  | .nthChild _ none, _, _, _ => .error .panic
  | .nthChild rev (some (anb, none)), n, _, _ => matchNthPlain d fuel anb n rev
  | .nthChild rev (some (anb, some s)), n, e, _ =>
    (matchSel d fuel s n e none).bind fun b =>
      if !b then .ok false else
      (countSiblings d rev (fun m =>
        match d.elem? m with
        | some e' => matchSel d fuel s m e' none
        | none => .ok false) fuel n).bind fun i => .ok (anb.matches (i + 1))
  | .nthOfType _ none, _, _, _ => .error .panic
  | .nthOfType rev (some anb), n, e, _ => matchNthOfType d fuel anb e n rev
  | .firstOfType, n, e, _ => matchNthOfType d fuel ⟨0, 1⟩ e n false
  | .lastOfType, n, e, _ => matchNthOfType d fuel ⟨0, 1⟩ e n true
  | .firstChild, n, _, _ => matchNthPlain d fuel ⟨0, 1⟩ n false
  | .lastChild, n, _, _ => matchNthPlain d fuel ⟨0, 1⟩ n true
  | .otherPseudo, _, _, _ => .ok false
/-- Nfix AND.  `matcher.cpp:94-98`. -/
def matchAll (d : Doc) (fuel : Nat) : List Selector → Nat → Element → Option Str → Answer
  | [], _, _, _ => .ok true
  | s :: l, n, e, pe => (matchSel d fuel s n e pe).bind fun b =>
      if b then matchAll d fuel l n e pe else .ok false
/-- Nfix OR.  `matcher.cpp:105-109`. -/
def matchAny (d : Doc) (fuel : Nat) : List Selector → Nat → Element → Option Str → Answer
  | [], _, _, _ => .ok false
  | s :: l, n, e, pe => (matchSel d fuel s n e pe).bind fun b =>
      if b then .ok true else matchAny d fuel l n e pe
end

/-- `Specificity`.  `selector.cpp:1148-1152`. -/
structure Specificity where
  a : Nat
  b : Nat
  c : Nat
deriving DecidableEq, Repr

namespace Specificity
def zero : Specificity := ⟨0, 0, 0⟩
/-- `operator+`.  `selector.cpp:1160-1166`. -/
def add (x y : Specificity) : Specificity := ⟨x.a + y.a, x.b + y.b, x.c + y.c⟩
/-- defaulted `operator<=>`: lexicographic.  `selector.cpp:1191`. -/
def lt (x y : Specificity) : Bool :=
  x.a < y.a || (x.a == y.a && (x.b < y.b || (x.b == y.b && x.c < y.c)))
end Specificity

mutual
/-- `spec`.  `selector.cpp:1208-1249`. -/
def spec : Selector → Specificity
  | .and l => specList l
  | .or l => specList l
  | .not s => Specificity.zero.add (spec s)
  | .where_ _ => .zero
  | .infix _ l r => (spec l).add (spec r)
  | .empty => .zero
  | .id _ => ⟨1, 0, 0⟩
  | .type q => if q.name.isSome then ⟨0, 0, 1⟩ else .zero
  | .class_ _ => ⟨0, 1, 0⟩
  | .attr _ => ⟨0, 1, 0⟩
  | .pseudoElement _ => .zero
  | .link | .root | .nthChild _ _ | .nthOfType _ _ | .firstOfType | .lastOfType
  | .firstChild | .lastChild | .otherPseudo => ⟨0, 1, 0⟩
/-- The summing loop over `inners`. -/
def specList : List Selector → Specificity
  | [] => .zero
  | s :: l => (spec s).add (specList l)
end

/-- `max` on `Opt<Specificity>` (an empty option is smallest). -/
def maxSpec (x : Option Specificity) (y : Specificity) : Option Specificity :=
  match x with
  | none => some y
  | some x => if x.lt y then some y else some x

/-- The loop of `matchSelector` over a selector list. -/
def matchList (d : Doc) (fuel : Nat) (n : Nat) (e : Element) (pe : Option Str) :
    List Selector → Option Specificity → Except Fault (Option Specificity)
  | [], acc => .ok acc
  | s :: l, acc => (matchSel d fuel s n e pe).bind fun b =>
      matchList d fuel n e pe l (if b then maxSpec acc (spec s) else acc)

/-- `matchSelector`.  `matcher.cpp:363-377`. -/
def matchSelector (d : Doc) (fuel : Nat) (s : Selector) (n : Nat) (e : Element) (pe : Option Str) :
    Except Fault (Option Specificity) :=
  match s with
  | .or l => matchList d fuel n e pe l none
  | s => (matchSel d fuel s n e pe).bind fun b => .ok (if b then some (spec s) else none)

end Verif.Selector
