import Verif.Css.Token

/-!
# The CSS parser: model

`/repo/src/vaev-engine/css/parser.cpp`.

* The `Lexer` is the list of tokens it is going to yield. At its end it yields
  `Token::END_OF_FILE` over and over (lexer.cpp lines 334–337): that is the empty list, and
  `next` leaves it empty. `peek` looks without moving (lexer.cpp lines 396–399).
* Every function takes fuel; `none` is fuel running out. A parser that loops for ever gives
  `none` on all fuel.
* Diagnostics are left out.
-/
namespace Verif.Css

/-- `Token::END_OF_FILE`. -/
def eofTok : Tok := ⟨.eof, []⟩

/-- `lex.peek().type`. -/
def peekType : List Tok → TT
  | [] => .eof
  | t :: _ => t.type

/-- `eatWhitespace(Lexer&)`, lexer.cpp lines 407–410. -/
def eatWsT : List Tok → List Tok
  | [] => []
  | t :: r => if t.type = .ws then eatWsT r else t :: r

mutual
/-- `consumeComponentValue`, parser.cpp lines 408–425. -/
def compValue : Nat → List Tok → Option (Sst × List Tok)
  | 0, _ => none
  | _ + 1, [] => some (.tok eofTok, [])
  | n + 1, t :: r =>
    match t.type with
    | .lsquare => (blockLoop n .rsquare r).map fun x => (.block x.1, x.2)
    | .lcurly => (blockLoop n .rcurly r).map fun x => (.block x.1, x.2)
    | .lpar => (blockLoop n .rpar r).map fun x => (.block x.1, x.2)
    | .func => (funcLoop n r).map fun x => (.func t x.1, x.2)
    | _ => some (.tok t, r)

/-- The loop of `consumeBlock`, parser.cpp lines 432–452. -/
def blockLoop : Nat → TT → List Tok → Option (List Sst × List Tok)
  | 0, _, _ => none
  | _ + 1, _, [] => some ([], [])
  | n + 1, term, t :: r =>
    if t.type = .eof then some ([], t :: r)
    else if t.type = term then some ([], r)
    else
      match compValue n (t :: r) with
      | none => none
      | some (v, ts) => (blockLoop n term ts).map fun x => (v :: x.1, x.2)

/-- The loop of `consumeFunc`, parser.cpp lines 382–404. -/
def funcLoop : Nat → List Tok → Option (List Sst × List Tok)
  | 0, _ => none
  | _ + 1, [] => some ([], [])
  | n + 1, t :: r =>
    if t.type = .comment then funcLoop n r
    else if t.type = .eof then some ([], t :: r)
    else if t.type = .rpar then some ([], r)
    else
      match compValue n (t :: r) with
      | none => none
      | some (v, ts) => (funcLoop n ts).map fun x => (v :: x.1, x.2)
end

/-- `consumeImportant`, parser.cpp lines 223–234. -/
def important : List Tok → Bool × List Tok
  | [] => (false, [])
  | t :: r =>
    if t.same ⟨.delim, u "!"⟩ then
      match eatWsT r with
      | [] => (false, r)
      | i :: r' => if i.same ⟨.ident, u "important"⟩ then (true, r') else (false, r)
    else (false, t :: r)

/-- `endedDeclarationValue`, parser.cpp lines 236–240. -/
def endedValue (ts : List Tok) : Bool :=
  peekType ts == .eof || peekType ts == .semi || peekType ts == .rcurly

/-- The loop of `consumeDeclarationValue`, parser.cpp lines 250–264. -/
def valueLoop : Nat → List Tok → Option ((List Sst × Bool) × List Tok)
  | 0, _ => none
  | n + 1, ts =>
    if endedValue ts then some (([], false), ts)
    else
      let i := important ts
      if i.1 then some (([], true), eatWsT i.2)
      else
        match compValue n i.2 with
        | none => none
        | some (v, ts) => (valueLoop n (eatWsT ts)).map fun x => ((v :: x.1.1, x.1.2), x.2)

/-- `consumeDeclarationValue`, parser.cpp lines 242–265. -/
def declValue (n : Nat) (ts : List Tok) : Option ((List Sst × Bool) × List Tok) := valueLoop n (eatWsT ts)

/-- `declarationAhead`, parser.cpp lines 270–275. -/
def declAhead : List Tok → Bool
  | [] => false
  | t :: r => t.type == .ident && peekType (eatWsT r) == .colon

/-- `consumeDeclaration`, parser.cpp lines 349–375. -/
def declaration (n : Nat) (ts : List Tok) : Option (Option Sst × List Tok) :=
  let t := ts.headD eofTok
  let r := eatWsT ts.tail
  if peekType r = .colon then
    (declValue n r.tail).map fun x => (some (.decl t x.1.1 x.1.2), x.2)
  else some (none, r)

/-- Adds a rule if there is one, as in parser.cpp lines 166–167. -/
def push (o : Option Sst) (l : List Sst) : List Sst :=
  match o with
  | some s => s :: l
  | none => l

mutual
/-- The loop of `consumeRule`, parser.cpp lines 124–144; `pre` is the prefix read so far. -/
def ruleLoop : Nat → List Sst → List Tok → Option (Option Sst × List Tok)
  | 0, _, _ => none
  | _ + 1, _, [] => some (none, [])
  | n + 1, pre, t :: r =>
    if t.type = .eof then some (none, t :: r)
    else if t.type = .lcurly then (declBlock n (t :: r)).map fun x => (some (.rule ⟨.nil, []⟩ pre x.1), x.2)
    else
      match compValue n (t :: r) with
      | none => none
      | some (v, ts) => ruleLoop n (pre ++ [v]) ts

/-- The loop of `consumeAtRule`, parser.cpp lines 193–220. -/
def atLoop : Nat → Tok → List Sst → List Tok → Option (Sst × List Tok)
  | 0, _, _, _ => none
  | _ + 1, kw, pre, [] => some (.rule kw pre [], [])
  | n + 1, kw, pre, t :: r =>
    if t.type = .semi then some (.rule kw pre [], r)
    else if t.type = .eof then some (.rule kw pre [], r)
    else if t.type = .lcurly then (declBlock n (t :: r)).map fun x => (.rule kw pre x.1, x.2)
    else
      match compValue n (t :: r) with
      | none => none
      | some (v, ts) => atLoop n kw (pre ++ [v]) ts

/-- `consumeDeclarationList`, parser.cpp lines 280–332. -/
def declList : Nat → List Tok → Option (List Sst × List Tok)
  | 0, _ => none
  | _ + 1, [] => some ([], [])
  | n + 1, t :: r =>
    match t.type with
    | .ws | .semi | .comment => declList n r
    | .eof => some ([], r)
    | .atKeyword =>
      match atLoop n t [] r with
      | none => none
      | some (s, ts) => (declList n ts).map fun x => (s :: x.1, x.2)
    | .ident =>
      if t.data = u "&" then
        match ruleLoop n [] (t :: r) with
        | none => none
        | some (o, ts) => (declList n ts).map fun x => (push o x.1, x.2)
      else if declAhead (t :: r) then
        match declaration n (t :: r) with
        | none => none
        | some (o, ts) => (declList n ts).map fun x => (push o x.1, x.2)
      else
        match ruleLoop n [] (t :: r) with
        | none => none
        | some (o, ts) => (declList n ts).map fun x => (push o x.1, x.2)
    | .rcurly => some ([], t :: r)
    | _ =>
      match ruleLoop n [] (t :: r) with
      | none => none
      | some (o, ts) => (declList n ts).map fun x => (push o x.1, x.2)

/-- `consumeDeclarationBlock`, parser.cpp lines 334–346. -/
def declBlock : Nat → List Tok → Option (List Sst × List Tok)
  | 0, _ => none
  | n + 1, ts =>
    match declList n ts.tail with
    | none => none
    | some (l, r) => if peekType r = .rcurly then some (l, r.tail) else some (l, r)
end

/-- `consumeRule`, parser.cpp lines 120–145. -/
def rule (n : Nat) (ts : List Tok) : Option (Option Sst × List Tok) := ruleLoop n [] ts

/-- `consumeAtRule`, parser.cpp lines 188–221. -/
def atRule (n : Nat) (ts : List Tok) : Option (Sst × List Tok) := atLoop n (ts.headD eofTok) [] ts.tail

/-- `consumeRuleList`, parser.cpp lines 148–185. -/
def ruleList (topLevel : Bool) : Nat → List Tok → Option (List Sst × List Tok)
  | 0, _ => none
  | _ + 1, [] => some ([], [])
  | n + 1, t :: r =>
    match t.type with
    | .comment | .ws => ruleList topLevel n r
    | .eof => some ([], r)
    | .cdc | .cdo =>
      if topLevel then ruleList topLevel n (t :: r)
      else
        match rule n (t :: r) with
        | none => none
        | some (o, ts) => (ruleList topLevel n ts).map fun x => (push o x.1, x.2)
    | .atKeyword =>
      match atRule n (t :: r) with
      | none => none
      | some (s, ts) => (ruleList topLevel n ts).map fun x => (s :: x.1, x.2)
    | _ =>
      match rule n (t :: r) with
      | none => none
      | some (o, ts) => (ruleList topLevel n ts).map fun x => (push o x.1, x.2)

/-- The reading of a style sheet, /repo/src/vaev-engine/style/stylesheet.cpp lines 43–46. -/
def sheet (n : Nat) (ts : List Tok) : Option (List Sst × List Tok) := ruleList true n ts

/-- The reading of a `style` attribute, /repo/src/vaev-engine/props/base.cpp lines 833–838. -/
def styleAttr (n : Nat) (ts : List Tok) : Option (List Sst × List Tok) := declList n ts

end Verif.Css
