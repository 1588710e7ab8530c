import Verif.Selector.Model
/-!
# The rule index: `style/rules-index.cpp`

A rule is its selector.  An `Entry` (order and pointer to the rule) is the order: rule
`i` (counted from 1) is the `i`-th one added.  `eval` is `rule.match(el, pseudo)`.
-/
namespace Verif.RuleIndex
open Verif.Selector

/-- The key of one of the lookup maps, or the list of rules without key.
`rules-index.cpp:28-35`. -/
inductive Key
  | id (s : Str) | class_ (s : Str) | typeName (s : Str) | pseudo (s : Str)
  | attrPresent (s : Str) | attrExact (s v : Str) | rest
deriving DecidableEq, Repr

/-- `isLookupEquivalentToMatch`, giving the key `_add` uses.  `rules-index.cpp:39-73,
125-149`. -/
def lookup : Selector → Option Key
  | .attr a =>
    match a.qname.ns, a.qname.name, a.op with
    | .universal, some n, .present => some (.attrPresent n)
    | .universal, some n, .exact => some (.attrExact n a.value)
    | _, _, _ => none
  | .type q =>
    match q.ns, q.name with
    | .universal, some n => some (.typeName n)
    | _, _ => none
  | .pseudoElement s => some (.pseudo s)
  | .id s => some (.id s)
  | .class_ s => some (.class_ s)
  | _ => none

/-- `selector.is<Nfix>()`. -/
def isNfix : Selector → Bool
  | .and _ | .or _ | .not _ | .where_ _ => true
  | _ => false

/-- `_add`: the keys a rule is filed under.  `rules-index.cpp:39-118`. -/
def addKeys : Selector → List Key
  | .infix _ _ rhs => if (lookup rhs).isSome || isNfix rhs then addKeys rhs else [.rest]
  | .and l => let ks := l.filterMap lookup; if ks.length = 0 then [.rest] else ks
  | .or l => l.filterMap lookup ++ if l.any (fun s => (lookup s).isNone) then [.rest] else []
  | s => match lookup s with
    | some k => [k]
    | none => [.rest]

/-- `_add`: the count put in `_ruleIdToNeededCount`.  `rules-index.cpp:82-98`. -/
def neededCount : Selector → Option Nat
  | .infix _ _ rhs => if (lookup rhs).isSome || isNfix rhs then neededCount rhs else none
  | .and l => let ks := l.filterMap lookup; if ks.length = 0 then none else some ks.length
  | _ => none

/-- `RuleIndex`.  `rules-index.cpp:26-37`. -/
structure Index where
  count : Nat := 0
  table : Key → List Nat := fun _ => []
  needed : Nat → Option Nat := fun _ => none

/-- `lookupOrPutDefault(key).pushBack`. -/
def pushAt (t : Key → List Nat) (i : Nat) (k : Key) : Key → List Nat := fun k' => if k' = k then t k' ++ [i] else t k'

/-- `add`.  `rules-index.cpp:120-123`. -/
def Index.add (x : Index) (s : Selector) : Index where
  count := x.count + 1
  table := (addKeys s).foldl (fun t k => pushAt t (x.count + 1) k) x.table
  needed := fun i => if i = x.count + 1 then neededCount s else x.needed i

def build (rules : List Selector) : Index := rules.foldl Index.add {}

/-- The keys looked up for an element.  `rules-index.cpp:153-183`. -/
def probe (e : Element) (pe : Option Str) : List Key :=
  e.classes.map .class_ ++
  (match e.attrUnqualified "id".toList with | some s => [.id s] | none => []) ++
  (match pe with | some s => [.pseudo s] | none => []) ++
  [.typeName e.qname.name] ++
  e.attrs.flatMap (fun a => [.attrPresent a.1.name, .attrExact a.1.name a.2]) ++
  [.rest]

/-- `_collectMatchedRulesCursors`: only keys that have rules. -/
def cursors (x : Index) (e : Element) (pe : Option Str) : List (List Nat) :=
  (probe e pe).filterMap fun k => if (x.table k).isEmpty then none else some (x.table k)

/-- First element under a cursor; cursors are never empty. -/
def front (c : List Nat) : Nat := c.headD 0

/-- The scan for `bestCursorIdx`.  `rules-index.cpp:257-262`. -/
def bestIdx (cs : List (List Nat)) : Nat :=
  (List.range cs.length).foldl (fun b i => if front (cs.getD i []) < front (cs.getD b []) then i else b) 0

/-- Advance cursor `b`; an ended one is swapped with the last and popped.
`rules-index.cpp:280-284`. -/
def advance (cs : List (List Nat)) (b : Nat) : List (List Nat) :=
  let c := (cs.getD b []).tail
  if c.isEmpty then (cs.set b (cs.getLastD [])).dropLast else cs.set b c

/-- Local variables of `_mergeMatchedRules` and `_matchingRules`. -/
structure Merge where
  count : Nat := 0
  lastId : Nat := 0
  last : Option Selector := none
  out : List (Nat × Specificity) := []

/-- `_evalStyleRule`.  `rules-index.cpp:187-190`. -/
def evalRule (eval : Selector → Option Specificity) (i : Nat) (s : Selector) (out : List (Nat × Specificity)) :
    List (Nat × Specificity) :=
  match eval s with
  | some sp => out ++ [(i, sp)]
  | none => out

/-- `maybeFinalizeNfixOrRule`.  `rules-index.cpp:237-254`. -/
def finalize (eval : Selector → Option Specificity) (m : Merge) : List (Nat × Specificity) :=
  match m.last with
  | none => m.out
  | some s =>
    match s with
    | .or l => if m.count = 1 then evalRule eval m.lastId (.or l) m.out else m.out ++ [(m.lastId, spec (.or l))]
    | _ => m.out

/-- `_maybeDeferRuleEvaluation` followed by `_evalStyleRule` when it says no.
`rules-index.cpp:192-230, 274-275`. -/
def evaluate (eval : Selector → Option Specificity) (needed : Nat → Option Nat) (i : Nat) (s : Selector) (count : Nat)
    (out : List (Nat × Specificity)) : List (Nat × Specificity) :=
  if (lookup s).isSome then out ++ [(i, spec s)]
  else match s with
    | .or _ => out
    | .and l =>
      match needed i with
      | none => evalRule eval i (.and l) out
      | some n =>
        if count ≠ n then out
        else if l.length ≠ count then evalRule eval i (.and l) out
        else out ++ [(i, spec (.and l))]
    | s => evalRule eval i s out

/-- One round of the merge loop for the entry `i`.  `rules-index.cpp:264-278`. -/
def round (eval : Selector → Option Specificity) (needed : Nat → Option Nat) (rule : Nat → Selector) (m : Merge) (i : Nat) : Merge :=
  let out := if m.lastId ≠ i then finalize eval m else m.out
  let count := if m.lastId ≠ i then 1 else m.count + 1
  { count, lastId := i, last := some (rule i), out := evaluate eval needed i (rule i) count out }

/-- The merge loop; it runs once per entry, which is the fuel given by `matchRules`.
`rules-index.cpp:256-285`. -/
def mergeLoop (f : Merge → Nat → Merge) : Nat → List (List Nat) → Merge → Merge
  | 0, _, m => m
  | _ + 1, [], m => m
  | n + 1, c :: cs, m =>
    let b := bestIdx (c :: cs)
    mergeLoop f n (advance (c :: cs) b) (f m (front ((c :: cs).getD b [])))

/-- `match` on the index of `rules`: numbers of rules with specificities.
`rules-index.cpp:232-298`. -/
def matchRules (eval : Selector → Option Specificity) (rules : List Selector) (e : Element) (pe : Option Str) :
    List (Nat × Specificity) :=
  let x := build rules
  let cs := cursors x e pe
  finalize eval (mergeLoop (round eval x.needed (fun i => rules.getD (i - 1) .empty)) (cs.map List.length).sum cs {})

end Verif.RuleIndex
