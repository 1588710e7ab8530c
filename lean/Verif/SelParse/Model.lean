import Verif.Selector.Model
import Verif.Css.Token
/-!
# Reading selectors: model

`/repo/src/vaev-engine/style/selector.cpp` lines 22–33, 284–453, 489–505 and 656–1075, and
`/repo/src/vaev-engine/style/namespace.cpp`.

* The input is a list of component values (`Verif.Css.Sst`); what is left of it stands for the cursor.
* The result is a `Verif.Selector.Selector`, the value that matching (`Verif.Selector.Model`) works on.
* `fault` is reading where there is nothing: behind the end of the input, or the first character of an
  empty text. `err` is a returned error. `fuel` is fuel running out; it stands for a reader that never
  stops.
* `Io::atoi` (Karm, not in the repository) reads a sign, if there is one, and the longest run of
  decimal digits, and fails without digits. `Integer` is `Int`, so overflow is not modelled.
* The type of a pseudo-class that is not matched by any rule is not kept (`otherPseudo`).
-/
namespace Verif.SelParse
open Verif.Css (Sst Tok TT Text u eatWs)
open Verif.Selector (Str Selector QSel NsPat AnB AttrSel AttrMatch Comb htmlNs)

/-- What a function of the reader comes to. -/
inductive Out (α : Type) where
  | ok (a : α)
  | err
  | fault
  | fuel
deriving DecidableEq, Repr

/-- `try$`. -/
def Out.bind {α β : Type} : Out α → (α → Out β) → Out β
  | .ok a, f => f a
  | .err, _ => .err
  | .fault, _ => .fault
  | .fuel, _ => .fuel

/-- The characters of a text. -/
def str (t : Text) : Str := t.map Char.ofNat

/-- `Namespace`, namespace.cpp lines 10–20. -/
structure Namespaces where
  default : Str := htmlNs
  prefixes : List (Str × Str) := []

/-- `Namespace::lookup`, namespace.cpp lines 14–19. -/
def Namespaces.lookup (ns : Namespaces) (p : Str) : Option Str := (ns.prefixes.find? (·.1 == p)).map (·.2)

/-- `Sst::token`, css/parser.cpp lines 45–47: `Token::NIL` when it is none. -/
def tokOf : Sst → Tok
  | .tok t => t
  | .rule t _ _ => t
  | .decl t _ _ => t
  | _ => ⟨.nil, []⟩

/-- `*cur == Token::delim(d)`. -/
def isDelim (d : String) (s : Sst) : Bool :=
  match s with
  | .tok k => k.same ⟨.delim, u d⟩
  | _ => false

/-- `cur.skip(Token::delim(d))`: what is left when it is there. -/
def skipDelim (d : String) : List Sst → Option (List Sst)
  | [] => none
  | s :: r => if isDelim d s then some r else none

/-- `OpCode`, lines 22–33. `NOT`, `WHERE` and `COLUMN` are never made. -/
inductive Op where
  | nop | or | descendant | child | adjacent | subsequent | and
deriving DecidableEq, Repr

/-- The order of the enumeration. -/
def Op.rank : Op → Nat
  | .nop => 0
  | .or => 1
  | .descendant => 2
  | .child => 3
  | .adjacent => 4
  | .subsequent => 5
  | .and => 8

/-! ## `An+B` -/

def isDigit (c : Nat) : Bool := 48 ≤ c && c ≤ 57

/-- The value of decimal digits. -/
def digits (t : Text) : Nat := t.foldl (fun v c => 10 * v + (c - 48)) 0

/-- `Io::atoi` behind the sign. -/
def atou (t : Text) : Option (Nat × Text) :=
  if t.takeWhile isDigit = [] then none else some (digits (t.takeWhile isDigit), t.dropWhile isDigit)

/-- `Io::atoi`. -/
def atoi : Text → Option (Int × Text)
  | 45 :: t => (atou t).map fun p => (-(p.1 : Int), p.2)
  | 43 :: t => (atou t).map fun p => ((p.1 : Int), p.2)
  | t => (atou t).map fun p => ((p.1 : Int), p.2)

/-- `ValueParser<Integer>::parse`, values/primitives.cpp lines 25–38. -/
def integer : List Sst → Out (Int × List Sst)
  | [] => .err
  | s :: r =>
    if s.is .number then
      match atoi (tokOf s).data with
      | some (v, []) => .ok (v, r)
      | _ => .err
    else .err

/-- `_parseAfterN`, lines 284–309. -/
def afterN (c : List Sst) : Out (Int × List Sst) :=
  match eatWs c with
  | [] => .ok (0, [])
  | s :: r =>
    if s.is .number then
      match (tokOf s).data with
      | [] => .fault
      | d :: _ => if d ≠ 43 ∧ d ≠ 45 then .err else integer (s :: r)
    else if s.is .delim then
      if (tokOf s).data ≠ u "+" ∧ (tokOf s).data ≠ u "-" then .err
      else
        let neg := decide ((tokOf s).data = u "-")
        let put (x : Out (Int × List Sst)) : Out (Int × List Sst) :=
          x.bind fun p => .ok (if neg then -p.1 else p.1, p.2)
        match eatWs r with
        | [] => put (integer [])
        | s' :: r' =>
          match (tokOf s').data with
          | [] => .fault
          | d :: _ => if d = 43 ∨ d = 45 then .err else put (integer (s' :: r'))
    else .err

/-- `_parseAfterNDash`, lines 311–320. -/
def afterNDash (c : List Sst) : Out (Int × List Sst) :=
  match eatWs c with
  | [] => .err
  | s :: r =>
    if s.is .number then
      match (tokOf s).data with
      | [] => .fault
      | d :: _ => if isDigit d then integer (s :: r) else .err
    else .err

/-- How many digits a text ends with, the loops of lines 325–328 and 379–382. -/
def tailDigits (t : Text) : Nat := (t.reverse.takeWhile isDigit).length

/-- `_parseIdent`, lines 322–366, behind the identifier `ident`. -/
def anbIdent (ident : Text) (plus : Bool) (c : List Sst) : Out (AnB × List Sst) :=
  let n := tailDigits ident
  let c := eatWs c
  match ident with
  | [] => .fault
  | d :: _ =>
    if d = 45 ∧ plus then .err
    else if n = 0 then
      if ident = u "n" then (afterN c).bind fun p => .ok (⟨1, p.1⟩, p.2)
      else if ident = u "-n" then (afterN c).bind fun p => .ok (⟨-1, p.1⟩, p.2)
      else if ident = u "n-" then (afterNDash c).bind fun p => .ok (⟨1, -p.1⟩, p.2)
      else if ident = u "-n-" then (afterNDash c).bind fun p => .ok (⟨-1, -p.1⟩, p.2)
      else .err
    else if n = ident.length then .fault
    else
      let n := if ident[ident.length - 1 - n]? = some 45 then n + 1 else n
      match atoi (ident.drop (ident.length - n)) with
      | none => .err
      | some (b, _) =>
        if ident.take (ident.length - n) = u "n" then .ok (⟨1, b⟩, c)
        else if ident.take (ident.length - n) = u "-n" then .ok (⟨-1, b⟩, c)
        else .err

/-- `_parseDimension`, lines 368–411, behind the dimension `dim`. -/
def anbDimension (dim : Text) (plus : Bool) (c : List Sst) : Out (AnB × List Sst) :=
  match atoi dim with
  | none => .err
  | some (a, unit) =>
    if a < 0 ∧ plus then .err
    else
      let n := tailDigits unit
      let nUnit := unit.take (unit.length - n)
      if nUnit ≠ u "n" ∧ nUnit ≠ u "n-" then .err
      else
        let c := eatWs c
        if n = 0 then
          if nUnit = u "n" then (afterN c).bind fun p => .ok (⟨a, p.1⟩, p.2)
          else (afterNDash c).bind fun p => .ok (⟨a, -p.1⟩, p.2)
        else
          let n := if nUnit = u "n-" then n + 1 else n
          match atoi (unit.drop (unit.length - n)) with
          | none => .err
          | some (b, _) => .ok (⟨a, b⟩, c)

/-- `AnB::parse`, lines 414–444; `peek` at the end of the input is a fault. -/
def anb (c : List Sst) : Out (AnB × List Sst) :=
  match eatWs c with
  | [] => .fault
  | s :: r =>
    let data := (tokOf s).data
    if s.is .ident ∧ (data = u "odd" ∨ data = u "even") then
      .ok (⟨2, if data = u "odd" then 1 else 0⟩, r)
    else if s.is .number then (integer (s :: r)).bind fun p => .ok (⟨0, p.1⟩, p.2)
    else if s.is .delim ∧ data = u "+" then
      match r with
      | [] => .err
      | s' :: r' =>
        if s'.is .ws then .err
        else if s'.is .ident then anbIdent (tokOf s').data true r'
        else if s'.is .dimension then anbDimension (tokOf s').data true r'
        else .err
    else if s.is .ident then anbIdent data false r
    else if s.is .dimension then anbDimension data false r
    else .err

/-! ## Names and attributes -/

/-- `QualifiedNameSelector(Opt<Symbol>, Opt<Symbol>)`, lines 74–77. -/
def qsel (ns name : Option Str) : QSel := ⟨match ns with | some n => .exact n | none => .null, name⟩

/-- The namespace prefix of `_parseQualifiedNameSelector`. -/
inductive Prefix where
  | omitted
  | ident (name : Str)
  | star

/-- What the prefix is, lines 678–684. -/
def prefixOf (c : List Sst) : Prefix × List Sst :=
  match c with
  | [] => (.omitted, [])
  | s :: r =>
    if (tokOf s).type = .ident then (.ident (str (tokOf s).data), r)
    else if isDelim "*" s then (.star, r)
    else (.omitted, s :: r)

/-- `firstName` when no bar follows. -/
def Prefix.name : Prefix → Option Str
  | .ident n => some n
  | _ => none

/-- The name behind the bar, lines 693–700; the cursor is not checked. -/
def secondName (c : List Sst) : Out (Option Str × List Sst) :=
  match c with
  | [] => .fault
  | s :: r =>
    if (tokOf s).type = .ident then .ok (some (str (tokOf s).data), r)
    else if isDelim "*" s then .ok (none, r)
    else .ok (none, s :: r)

/-- `_parseQualifiedNameSelector`, lines 660–710. -/
def qualified (ns : Namespaces) (default : Option Str) (c : List Sst) : Out (QSel × List Sst) :=
  if c.isEmpty then .err
  else
    let p := prefixOf c
    match skipDelim "|" p.2 with
    | none => .ok (qsel default p.1.name, p.2)
    | some r =>
      (secondName r).bind fun q =>
        match p.1 with
        | .omitted => .ok (⟨.null, q.1⟩, q.2)
        | .star => .ok (⟨.universal, q.1⟩, q.2)
        | .ident x =>
          match ns.lookup x with
          | none => .err
          | some y => .ok (⟨.exact y, q.1⟩, q.2)

/-- The operator of an attribute selector, lines 734–760. -/
def attrOp (c : List Sst) : Out (AttrMatch × List Sst) :=
  match c with
  | [] => .fault
  | s :: r =>
    if isDelim "=" s then .ok (.exact, r)
    else if s.is .delim then
      match skipDelim "=" r with
      | none => .err
      | some r' =>
        let d := (tokOf s).data
        if d = u "~" then .ok (.contains, r')
        else if d = u "|" then .ok (.hyphenated, r')
        else if d = u "^" then .ok (.startWith, r')
        else if d = u "$" then .ok (.endWith, r')
        else if d = u "*" then .ok (.contain, r')
        else .err
    else .err

/-- Its value, lines 762–770; at the end of the input `*cur` is a fault. -/
def attrValue (c : List Sst) : Out (Text × List Sst) :=
  match eatWs c with
  | [] => .fault
  | s :: r => if s.is .string ∨ s.is .ident then .ok ((tokOf s).data, r) else .err

/-- Its modifier and its end, lines 772–791. -/
def attrFlag (c : List Sst) : Out Bool :=
  match eatWs c with
  | [] => .ok false
  | s :: r =>
    if s.is .ident then
      if (tokOf s).data = u "s" then (if (eatWs r).isEmpty then .ok false else .err)
      else if (tokOf s).data = u "i" then (if (eatWs r).isEmpty then .ok true else .err)
      else .err
    else .err

/-- `_parseAttributeSelector`, lines 712–799. -/
def attrSel (ns : Namespaces) (content : List Sst) : Out Selector :=
  if (eatWs content).isEmpty then .err
  else
    (qualified ns none (eatWs content)).bind fun q =>
      if (eatWs q.2).isEmpty then .ok (.attr ⟨q.1, false, .present, []⟩)
      else
        (attrOp (eatWs q.2)).bind fun m =>
        (attrValue m.2).bind fun v =>
        (attrFlag v.2).bind fun i => .ok (.attr ⟨q.1, i, m.1, str v.1⟩)

/-! ## Operators -/

/-- Whether white space before it is a descendant combinator, lines 819–825. -/
def startsSimple (s : Sst) : Bool :=
  s.is .ident || s.is .hash || (tokOf s).data == u "." || (tokOf s).data == u "*" || (tokOf s).data == u ":"

/-- Lines 830–834: what comes behind the operator is passed over when white space follows it. -/
def skipLone : List Sst → List Sst
  | s :: s' :: r => if (tokOf s').type = .ws then s' :: r else s :: s' :: r
  | c => c

/-- `_peekOpCode`, lines 802–870. -/
def peekOp : List Sst → Op × List Sst
  | [] => (.nop, [])
  | .tok t :: r =>
    match t.type with
    | .comma => (.or, r)
    | .ws =>
      match r with
      | [] => (.nop, [])
      | s :: _ => if startsSimple s then (.descendant, r) else ((peekOp r).1, skipLone (peekOp r).2)
    | .delim =>
      if r.isEmpty then (.nop, .tok t :: r)
      else if t.data = u ">" then (.child, r)
      else if t.data = u "~" then (.subsequent, r)
      else if t.data = u "+" then (.adjacent, r)
      else if t.data = u "." ∨ t.data = u "*" then (.and, .tok t :: r)
      else (.nop, .tok t :: r)
    | _ => (.and, .tok t :: r)
  | s :: r => (.and, s :: r)

/-- `PseudoClassSelector::make`, lines 489–493, with `defs/pseudo-class.inc`: an unknown name is the
first pseudo-class, `:any-link`, which matches nothing (matcher.cpp lines 339–341). -/
def pseudoClass (name : Text) (extra : Option (AnB × Option Selector)) : Selector :=
  if name = u "link" then .link
  else if name = u "root" then .root
  else if name = u "nth-child" then .nthChild false extra
  else if name = u "nth-last-child" then .nthChild true extra
  else if name = u "first-child" then .firstChild
  else if name = u "last-child" then .lastChild
  else if name = u "nth-of-type" then .nthOfType false (extra.map (·.1))
  else if name = u "nth-last-of-type" then .nthOfType true (extra.map (·.1))
  else if name = u "first-of-type" then .firstOfType
  else if name = u "last-of-type" then .lastOfType
  else .otherPseudo

/-- The pseudo-elements and pseudo-classes without arguments, lines 931–941; the symbols are those of
dom/element.cpp lines 59–61. -/
def pseudoName (name : Text) : Selector :=
  if name = u "before" then .pseudoElement "::before".toList
  else if name = u "after" then .pseudoElement "::after".toList
  else if name = u "marker" then .pseudoElement "::marker".toList
  else pseudoClass name none

/-- The combinator of an operator. -/
def Op.comb : Op → Option Comb
  | .descendant => some .descendant
  | .child => some .child
  | .adjacent => some .adjacent
  | .subsequent => some .subsequent
  | _ => none

/-- Lines 1005–1007. -/
def skipTwo (c : List Sst) : List Sst :=
  match c with
  | [_, s'] => if s'.is .ws then [s'] else c
  | _ => c

/-- Lines 1011–1020. -/
def joined (op : Op) (l : List Selector) : Selector := if op = .or then .or l else .and l

/-! ## Selectors -/

mutual
/-- `Selector::parse`, lines 1058–1074. -/
def parse : Nat → Namespaces → List Sst → Out Selector
  | 0, _, _ => .fuel
  | n + 1, ns, c =>
    if c.isEmpty then .err
    else (elem n ns .nop c).bind fun p => loop n ns p.1 p.2

/-- Its loop, lines 1065–1071, with the first lines of `_parseInfixExpr` (1025–1026). -/
def loop : Nat → Namespaces → Selector → List Sst → Out Selector
  | 0, _, _, _ => .fuel
  | n + 1, ns, s, c =>
    if c.isEmpty then .ok s
    else
      (infixE n ns s (peekOp c).1 (peekOp c).2).bind fun p =>
        if ¬ p.2.isEmpty ∧ p.2.length = c.length then .err else loop n ns p.1 p.2

/-- `_parseSelectorElement`, lines 893–978. -/
def elem : Nat → Namespaces → Op → List Sst → Out (Selector × List Sst)
  | 0, _, _, _ => .fuel
  | _ + 1, _, _, [] => .err
  | n + 1, ns, op, s :: r =>
    if s.is .ws then elem n ns op r
    else
      (simple n ns s r).bind fun p =>
        if p.2.isEmpty then .ok p
        else if (peekOp p.2).1.rank > op.rank then infixE n ns p.1 (peekOp p.2).1 (peekOp p.2).2
        else .ok p

/-- The simple selectors, lines 899–966; `s` is what the cursor is at and `r` what is behind it. -/
def simple : Nat → Namespaces → Sst → List Sst → Out (Selector × List Sst)
  | 0, _, _, _ => .fuel
  | n + 1, ns, s, r =>
    match s with
    | .tok t =>
      match t.type with
      | .hash => .ok (.id (str (t.data.drop 1)), r)
      | .ident => (qualified ns (some ns.default) (s :: r)).bind fun p => .ok (.type p.1, p.2)
      | .delim =>
        if t.data = u "." then
          match r with
          | [] => .fault
          | s' :: r' => .ok (.class_ (str (tokOf s').data), r')
        else if t.data = u "*" then
          (qualified ns (some ns.default) (s :: r)).bind fun p => .ok (.type p.1, p.2)
        else .ok (.empty, r)
      | .colon =>
        match r with
        | [] => .fault
        | s' :: r' =>
          if (tokOf s').type = .colon then
            match r' with
            | [] => .err
            | s'' :: r'' => (pseudo n ns s'').bind fun v => .ok (v, r'')
          else (pseudo n ns s').bind fun v => .ok (v, r')
      | _ => .err
    | .block content => (attrSel ns content).bind fun v => .ok (v, r)
    | _ => .err

/-- What stands behind the colons, lines 930–951. -/
def pseudo : Nat → Namespaces → Sst → Out Selector
  | 0, _, _ => .fuel
  | n + 1, ns, s =>
    match s with
    | .tok t => .ok (pseudoName t.data)
    | .func t content =>
      if t.same ⟨.func, u "not("⟩ then (parse n ns content).bind fun v => .ok (.not v)
      else pseudoFunc n ns (t.data.take (t.data.length - 1)) content
    | _ => .ok .empty

/-- `_parsePseudoClassFunction`, lines 872–890. -/
def pseudoFunc : Nat → Namespaces → Text → List Sst → Out Selector
  | 0, _, _, _ => .fuel
  | n + 1, ns, name, content =>
    (anb content).bind fun p =>
      match eatWs p.2 with
      | [] => .ok (pseudoClass name (some (p.1, none)))
      | s :: r =>
        if name = u "nth-of-type" ∨ name = u "nth-last-of-type" then .err
        else if s.isIdent (u "of") then
          (parse n ns r).bind fun v => .ok (pseudoClass name (some (p.1, some v)))
        else .err

/-- `_parseInfixExpr`, lines 1023–1056, when the operator is known. -/
def infixE : Nat → Namespaces → Selector → Op → List Sst → Out (Selector × List Sst)
  | 0, _, _, _, _ => .fuel
  | n + 1, ns, lhs, op, c =>
    match op.comb with
    | some k => (elem n ns op c).bind fun p => .ok (.infix k lhs p.1, p.2)
    | none => if op = .nop then .ok (lhs, c) else nfix n ns lhs op c

/-- `_parseNfixExpr`, lines 980–1021. -/
def nfix : Nat → Namespaces → Selector → Op → List Sst → Out (Selector × List Sst)
  | 0, _, _, _, _ => .fuel
  | n + 1, ns, lhs, op, c =>
    (elem n ns op c).bind fun p =>
    (nfixLoop n ns op [lhs] p.1 p.2).bind fun q => .ok (joined op q.1, q.2)

/-- Its loop, lines 986–1009: `pre` and `last` are `selectors`. -/
def nfixLoop : Nat → Namespaces → Op → List Selector → Selector → List Sst → Out (List Selector × List Sst)
  | 0, _, _, _, _, _ => .fuel
  | n + 1, ns, op, pre, last, c =>
    if c.isEmpty then .ok (pre ++ [last], c)
    else
      let nx := (peekOp c).1
      let c' := (peekOp c).2
      if nx = .nop then .ok (pre ++ [last], c')
      else if nx = op then (elem n ns op c').bind fun p => nfixLoop n ns op (pre ++ [last]) p.1 p.2
      else if nx.rank < op.rank then .ok (pre ++ [last], c)
      else if nx = .or ∨ nx = .and then (nfix n ns last nx c').bind fun p => nfixLoop n ns op pre p.1 p.2
      else (infixE n ns last nx c').bind fun p => nfixLoop n ns op pre p.1 (skipTwo p.2)
end

end Verif.SelParse
