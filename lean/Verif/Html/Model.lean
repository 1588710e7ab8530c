import Verif.Html.Entities
/-
The HTML tokenizer.

`src/vaev-engine/html/lexer.cpp`, `html/token.cpp`, and `HtmlParser::write` of
`html/parser.cpp:4327-4350`.

* A `Rune` is a `Char`; the input is text that was decoded already.
* Parse errors (`_raise`, `lexer.cpp:112-114`) and positions (`Io::Loc`, `span`) are left out:
  they have no influence on the tokens.
* The tree builder that receives the tokens (`HtmlSink`, `token.cpp:78-81`) is a parameter: all
  the tokenizer sees of it is the state it may switch the tokenizer to when it is given a start
  tag (`parser.cpp:952,959,1304,2109,2582`).
* What would stop the program or read outside a buffer is recorded in `fault`; the model goes
  on after it, which is harmless because the field is never reset.
-/
namespace Verif.Html

abbrev Str := List Char

/-- The states.  `html/defs/states.inc:1-80`, in the order of that file. -/
inductive State
  | data | rcdata | rawtext | scriptData | plaintext
  | tagOpen | endTagOpen | tagName
  | rcdataLessThan | rcdataEndTagOpen | rcdataEndTagName
  | rawtextLessThan | rawtextEndTagOpen | rawtextEndTagName
  | scriptLessThan | scriptEndTagOpen | scriptEndTagName
  | scriptEscapeStart | scriptEscapeStartDash
  | scriptEscaped | scriptEscapedDash | scriptEscapedDashDash
  | scriptEscapedLessThan | scriptEscapedEndTagOpen | scriptEscapedEndTagName
  | scriptDoubleEscapeStart | scriptDoubleEscaped | scriptDoubleEscapedDash
  | scriptDoubleEscapedDashDash | scriptDoubleEscapedLessThan | scriptDoubleEscapeEnd
  | beforeAttributeName | attributeName | afterAttributeName
  | beforeAttributeValue | valueDoubleQuoted | valueSingleQuoted | valueUnquoted
  | afterValueQuoted | selfClosingStartTag
  | bogusComment | markupDeclarationOpen
  | commentStart | commentStartDash | comment
  | commentLessThan | commentLessThanBang | commentLessThanBangDash
  | commentLessThanBangDashDash | commentEndDash | commentEnd | commentEndBang
  | doctype | beforeDoctypeName | doctypeName | afterDoctypeName
  | afterDoctypePublicKeyword | beforeDoctypePublic
  | doctypePublicDouble | doctypePublicSingle | afterDoctypePublic
  | betweenDoctypeIdentifiers
  | afterDoctypeSystemKeyword | beforeDoctypeSystem
  | doctypeSystemDouble | doctypeSystemSingle | afterDoctypeSystem
  | bogusDoctype
  | cdataSection | cdataSectionBracket | cdataSectionEnd
  | characterReference | namedReference | ambiguousAmpersand
  | numericReference | hexReferenceStart | decReferenceStart
  | hexReference | decReference | numericReferenceEnd
deriving DecidableEq, Repr

/-- `HtmlToken::Type`.  `html/token.cpp:12-29`.  `NIL` is never given to the sink and is left
out. -/
inductive Kind | doctype | startTag | endTag | comment | character | endOfFile
deriving DecidableEq, Repr

/-- `HtmlToken::Attr`.  `html/token.cpp:31-34`. -/
structure Attr where
  name : Str := []
  value : Str := []
deriving DecidableEq, Repr

/-- `HtmlToken`.  `html/token.cpp:36-45`. -/
structure Token where
  kind : Kind
  name : Option Str := none
  rune : Char := '\x00'
  data : Str := []
  publicIdent : Option Str := none
  systemIdent : Option Str := none
  attrs : List Attr := []
  forceQuirks : Bool := false
  selfClosing : Bool := false
deriving DecidableEq, Repr

/-- How the program can go wrong: a `panic`, a use of the current attribute when there is none
(`_currAttr`, `lexer.cpp:97`), a read past the end of a buffer, or a character that is
reconsumed without end. -/
inductive Fault | panic | noAttribute | outOfBounds | endless
deriving DecidableEq, Repr

/-- The members of `HtmlLexer`.  `html/lexer.cpp:44-59,97`.  `_currAttr`, a reference to the last
attribute of `_token`, is kept as the flag `attr` that says whether it is set.  `out` is what
was given to the sink, oldest first.  `_inForeignContent` is never written by the program, so
it is the constant `false`. -/
structure Lex where
  state : State := .data
  ret : State := .data
  token : Option Token := none
  lastStartTag : Option Token := none
  cur : Nat := 0
  builder : Str := []
  temp : Str := []
  peek : Str := []
  attr : Bool := false
  matched : Option Nat := none
  out : List Token := []
  fault : Option Fault := none
deriving DecidableEq, Repr

/-- A named character reference: the name with its `&`, and what it stands for.
`html/lexer.cpp:15-22`. -/
structure Entity where
  name : Str
  runes : Str

/-- The table as the tokenizer sees it.  `html/lexer.cpp:25-31`. -/
def entities : List Entity := rows.map fun r => ⟨'&' :: r.key, r.points.map Char.ofNat⟩

/-- The states the tree builder puts the tokenizer in.  `html/parser.cpp:952` (`RAWTEXT`), 959 and
2582 (`RCDATA`), 1304 (`SCRIPT_DATA`), 2109 (`PLAINTEXT`). -/
inductive Content | rcdata | rawtext | scriptData | plaintext
deriving DecidableEq, Repr

def Content.state : Content → State
  | .rcdata => .rcdata
  | .rawtext => .rawtext
  | .scriptData => .scriptData
  | .plaintext => .plaintext

/-- The surroundings of the tokenizer: the table of references and the tree builder, which
answers each start tag by a state to go on in, or by nothing.  The answer may depend on all the
tokens given so far, the last one included. -/
structure Env where
  ents : List Entity
  sink : List Token → Option Content

/-! ### Character classes of Karm -/

/-- The four characters that every state of the tokenizer treats as white space. -/
def isSpace (c : Char) : Bool := c == '\t' || c == '\n' || c == '\x0c' || c == ' '

/-- Karm's `isAsciiUpper`, `isAsciiLower`, `isAsciiAlpha`, `isAsciiDigit`, `isAsciiAlphaNum`,
`isAsciiHexDigit`, `toAsciiLower`. -/
def isUpper (c : Char) : Bool := 65 ≤ c.toNat && c.toNat ≤ 90
def isLower (c : Char) : Bool := 97 ≤ c.toNat && c.toNat ≤ 122
def isAlpha (c : Char) : Bool := isUpper c || isLower c
def isDigit (c : Char) : Bool := 48 ≤ c.toNat && c.toNat ≤ 57
def isAlphaNum (c : Char) : Bool := isAlpha c || isDigit c
def isHexDigit (c : Char) : Bool :=
  isDigit c || (65 ≤ c.toNat && c.toNat ≤ 70) || (97 ≤ c.toNat && c.toNat ≤ 102)
def toLower (c : Char) : Char := if isUpper c then Char.ofNat (c.toNat + 32) else c

/-- Karm's `eqAsciiCi`. -/
def eqCi (a b : Char) : Bool := toLower a == toLower b

/-- Karm's `isUnicode` and `isUnicodeSurrogate`. -/
def isUnicode (n : Nat) : Bool := n ≤ 0x10FFFF
def isSurrogate (n : Nat) : Bool := 0xD800 ≤ n && n ≤ 0xDFFF

/-- Karm's three-valued `Match`. -/
inductive Match | no | part | yes
deriving DecidableEq, Repr

/-- Karm's `startWith(str, prefix, eq)`: `yes` when all of `str` was used, `part` when some is
left, `no` otherwise. -/
def startWith (eq : Char → Char → Bool) : Str → Str → Match
  | [], [] => .yes
  | _ :: _, [] => .part
  | [], _ :: _ => .no
  | a :: as, b :: bs => if eq a b then startWith eq as bs else .no

/-- U+FFFD. -/
def replacement : Char := Char.ofNat 0xFFFD

/-! ### The helpers of the tokenizer -/

/-- What a state does with a character: the tokenizer after it, and whether the character has to
be read again in the state it is now in (`_reconsumeIn`, `html/lexer.cpp:103-106`). -/
abbrev Step := Lex × Bool

def stay (s : Lex) : Step := (s, false)
/-- `_reconsumeIn`.  `html/lexer.cpp:103-106`. -/
def again (st : State) (s : Lex) : Step := ({ s with state := st }, true)
/-- `_switchTo`.  `html/lexer.cpp:108-110`. -/
def go (st : State) (s : Lex) : Lex := { s with state := st }

def fail (f : Fault) (s : Lex) : Lex :=
  { s with fault := match s.fault with | some g => some g | none => some f }

/-- `_begin`.  `html/lexer.cpp:61-67`. -/
def begin_ (k : Kind) (s : Lex) : Lex := { s with token := some { kind := k } }

/-- `_ensure()` followed by a change of the token.  `html/lexer.cpp:69-73`. -/
def onToken (f : Token → Token) (s : Lex) : Lex :=
  match s.token with
  | none => fail .panic s
  | some t => { s with token := some (f t) }

/-- `_ensure(type)` followed by a change of the token.  `html/lexer.cpp:75-80`. -/
def onKind (k : Kind) (f : Token → Token) (s : Lex) : Lex :=
  match s.token with
  | none => fail .panic s
  | some t => if t.kind = k then { s with token := some (f t) } else fail .panic s

/-- The state the tokenizer is in when the sink has had the token. -/
def stateAfter (E : Env) (t : Token) (out : List Token) (st : State) : State :=
  if t.kind = .startTag then
    match E.sink out with
    | some c => c.state
    | none => st
  else st

/-- `_emit(diags)`.  `html/lexer.cpp:82-90`.  A start tag is moved to `_lastStartTag`, so that
there is no token in progress after it. -/
def emit (E : Env) (s : Lex) : Lex :=
  match s.token with
  | none => fail .panic s
  | some t =>
    { s with
      out := s.out ++ [t]
      state := stateAfter E t (s.out ++ [t]) s.state
      lastStartTag := if t.kind = .startTag then some t else s.lastStartTag
      token := if t.kind = .startTag then none else some t }

/-- `_emit(rune, loc, diags)`.  `html/lexer.cpp:92-95`. -/
def emitChar (E : Env) (c : Char) (s : Lex) : Lex :=
  emit E { s with token := some { kind := .character, rune := c } }

def emitChars (E : Env) (cs : Str) (s : Lex) : Lex := cs.foldl (fun s c => emitChar E c s) s

/-- `_begin(END_OF_FILE)` and `_emit`. -/
def emitEof (E : Env) (s : Lex) : Lex := emit E (begin_ .endOfFile s)

/-- `_beginAttribute`.  `html/lexer.cpp:99-101`. -/
def beginAttribute (s : Lex) : Lex :=
  { onToken (fun t => { t with attrs := t.attrs ++ [{}] }) s with attr := true }

def setLast (f : Attr → Attr) : List Attr → List Attr
  | [] => []
  | [a] => [f a]
  | a :: b :: r => a :: setLast f (b :: r)

/-- A change of the attribute `_currAttr` refers to. -/
def onAttr (f : Attr → Attr) (s : Lex) : Lex :=
  match s.token with
  | none => fail .noAttribute s
  | some t =>
    if t.attrs = [] then fail .noAttribute s
    else { s with token := some { t with attrs := setLast f t.attrs } }

def append (c : Char) (s : Lex) : Lex := { s with builder := s.builder ++ [c] }
def appends (cs : Str) (s : Lex) : Lex := { s with builder := s.builder ++ cs }
def clearBuilder (s : Lex) : Lex := { s with builder := [] }

/-- `_ensure().name = _commitSymbol()`.  `html/lexer.cpp:138-142`. -/
def commitName (s : Lex) : Lex :=
  clearBuilder (onToken (fun t => { t with name := some s.builder }) s)

/-- `_ensure(DOCTYPE).name = _commitSymbol()`. -/
def commitDoctypeName (s : Lex) : Lex :=
  clearBuilder (onKind .doctype (fun t => { t with name := some s.builder }) s)

/-- `_ensure(COMMENT).data = _builder.take()`. -/
def takeData (s : Lex) : Lex :=
  clearBuilder (onKind .comment (fun t => { t with data := s.builder }) s)

/-- `_ensure(DOCTYPE).publicIdent = _builder.take()` and the same for `systemIdent`. -/
def takeIdent (pub : Bool) (s : Lex) : Lex :=
  clearBuilder (onKind .doctype
    (fun t => if pub then { t with publicIdent := some s.builder }
      else { t with systemIdent := some s.builder }) s)

/-- `_ensure(DOCTYPE).forceQuirks = true`. -/
def quirks (s : Lex) : Lex := onKind .doctype (fun t => { t with forceQuirks := true }) s

/-- `if (_currAttr) _currAttr->name = _commitSymbol(); else _builder.clear();`
`html/lexer.cpp:1556-1559,1568-1571`. -/
def commitAttrName (s : Lex) : Lex :=
  clearBuilder (if s.attr then onAttr (fun a => { a with name := s.builder }) s else s)

/-- `if (_currAttr) _currAttr->value = _builder.take(); else _builder.clear();`
`html/lexer.cpp:1714-1717,1763-1766,1814-1817,1833-1836`. -/
def takeValue (s : Lex) : Lex :=
  clearBuilder (if s.attr then onAttr (fun a => { a with value := s.builder }) s else s)

/-- The search of `leaveAttributeNameState`: whether an attribute before the last one has the
name of the last one. -/
def isDuplicate (attrs : List Attr) : Bool :=
  match attrs.getLast? with
  | none => false
  | some a => attrs.dropLast.any fun b => startWith eqCi a.name b.name == .yes

/-- `leaveAttributeNameState`.  `html/lexer.cpp:1535-1544`.  The loop reads `_currAttr` as soon
as there are two attributes. -/
def leaveAttributeName (s : Lex) : Lex :=
  match s.token with
  | none => fail .panic s
  | some t =>
    if t.attrs.length ≤ 1 then s
    else if s.attr = false then fail .noAttribute s
    else if isDuplicate t.attrs then
      { s with attr := false, token := some { t with attrs := t.attrs.dropLast } }
    else s

/-- `_isAppropriateEndTagToken`.  `html/lexer.cpp:116-120`. -/
def isAppropriate (s : Lex) : Bool :=
  match s.lastStartTag with
  | none => false
  | some t => t.name == some s.builder

/-- `_consumedAsPartOfAnAttribute`.  `html/lexer.cpp:132-136`. -/
def inAttribute (s : Lex) : Bool :=
  s.ret == .valueDoubleQuoted || s.ret == .valueSingleQuoted || s.ret == .valueUnquoted

/-- `_flushCodePointsConsumedAsACharacterReference`.  `html/lexer.cpp:122-130`. -/
def flush (E : Env) (s : Lex) : Lex :=
  if inAttribute s then appends s.temp s else emitChars E s.temp s

/-! ### Text -/

/-- `html/lexer.cpp:155-195`. -/
def onData (E : Env) (s : Lex) (c : Char) (eof : Bool) : Step :=
  if c = '&' then stay { s with ret := .data, state := .characterReference }
  else if c = '<' then stay (go .tagOpen s)
  else if c = '\x00' then stay (emitChar E c s)
  else if eof then stay (emitEof E s)
  else stay (emitChar E c s)

/-- `html/lexer.cpp:197-236`. -/
def onRcdata (E : Env) (s : Lex) (c : Char) (eof : Bool) : Step :=
  if c = '&' then stay { s with ret := .rcdata, state := .characterReference }
  else if c = '<' then stay (go .rcdataLessThan s)
  else if c = '\x00' then stay (emitChar E replacement s)
  else if eof then stay (emitEof E s)
  else stay (emitChar E c s)

/-- `html/lexer.cpp:238-270` (`RAWTEXT`) and 272-304 (`SCRIPT_DATA`); `lt` is the state that `<`
leads to. -/
def onRaw (lt : State) (E : Env) (s : Lex) (c : Char) (eof : Bool) : Step :=
  if c = '<' then stay (go lt s)
  else if c = '\x00' then stay (emitChar E replacement s)
  else if eof then stay (emitEof E s)
  else stay (emitChar E c s)

/-- `html/lexer.cpp:306-332`. -/
def onPlaintext (E : Env) (s : Lex) (c : Char) (eof : Bool) : Step :=
  if c = '\x00' then stay (emitChar E replacement s)
  else if eof then stay (emitEof E s)
  else stay (emitChar E c s)

/-! ### Tags -/

/-- `html/lexer.cpp:334-389`. -/
def onTagOpen (E : Env) (s : Lex) (c : Char) (eof : Bool) : Step :=
  if c = '!' then stay (go .markupDeclarationOpen s)
  else if c = '/' then stay (go .endTagOpen s)
  else if isAlpha c then again .tagName (begin_ .startTag s)
  else if c = '?' then again .bogusComment (begin_ .comment s)
  else if eof then stay (emitEof E (emitChar E '<' s))
  else again .data (emitChar E '<' s)

/-- `html/lexer.cpp:391-434`. -/
def onEndTagOpen (E : Env) (s : Lex) (c : Char) (eof : Bool) : Step :=
  if isAlpha c then again .tagName (begin_ .endTag s)
  else if c = '>' then stay (go .data s)
  else if eof then stay (emitEof E (emitChar E '/' (emitChar E '<' s)))
  else again .bogusComment (begin_ .comment s)

/-- `html/lexer.cpp:436-498`. -/
def onTagName (E : Env) (s : Lex) (c : Char) (eof : Bool) : Step :=
  if isSpace c then stay (go .beforeAttributeName (commitName s))
  else if c = '/' then stay (go .selfClosingStartTag (commitName s))
  else if c = '>' then stay (emit E (go .data (commitName s)))
  else if isUpper c then stay (append (toLower c) s)
  else if c = '\x00' then stay (append replacement s)
  else if eof then stay (emitEof E s)
  else stay (append c s)

/-- `html/lexer.cpp:500-521` (`RCDATA`) and 620-641 (`RAWTEXT`); `open_` and `back` are the end
tag open state and the text state of the group. -/
def onLessThan (open_ back : State) (E : Env) (s : Lex) (c : Char) (_eof : Bool) : Step :=
  if c = '/' then stay (go open_ { s with temp := [] })
  else again back (emitChar E '<' s)

/-- `html/lexer.cpp:523-545` (`RCDATA`), 643-665 (`RAWTEXT`), 772-794 (`SCRIPT_DATA`) and
1103-1125 (`SCRIPT_DATA_ESCAPED`). -/
def onRawEndTagOpen (name back : State) (E : Env) (s : Lex) (c : Char) (_eof : Bool) : Step :=
  if isAlpha c then again name (begin_ .endTag s)
  else again back (emitChar E '/' (emitChar E '<' s))

/-- `html/lexer.cpp:547-619` (`RCDATA`), 667-738 (`RAWTEXT`), 796-869 (`SCRIPT_DATA`) and
1127-1197 (`SCRIPT_DATA_ESCAPED`).  The last two switch to `DATA` before they set the name, the
others after: the name does not depend on it. -/
def onRawEndTagName (back : State) (E : Env) (s : Lex) (c : Char) (_eof : Bool) : Step :=
  if isSpace c && isAppropriate s then stay (go .beforeAttributeName (commitName s))
  else if c == '/' && isAppropriate s then stay (go .selfClosingStartTag (commitName s))
  else if c == '>' && isAppropriate s then stay (emit E (go .data (commitName s)))
  else if isUpper c then stay { append (toLower c) s with temp := s.temp ++ [c] }
  else if isLower c then stay { append c s with temp := s.temp ++ [c] }
  else again back
    (emitChars E s.temp (emitChar E '/' (emitChar E '<' (clearBuilder s))))

/-! ### Script text -/

/-- `html/lexer.cpp:740-770`. -/
def onScriptLessThan (E : Env) (s : Lex) (c : Char) (_eof : Bool) : Step :=
  if c = '/' then stay (go .scriptEndTagOpen { s with temp := [] })
  else if c = '!' then stay (emitChar E '!' (emitChar E '<' (go .scriptEscapeStart s)))
  else again .scriptData (emitChar E '<' s)

/-- `html/lexer.cpp:871-890` and 892-911; `next` is the state after the dash. -/
def onScriptEscapeStart (next : State) (E : Env) (s : Lex) (c : Char) (_eof : Bool) : Step :=
  if c = '-' then stay (emitChar E '-' (go next s))
  else again .scriptData s

/-- `html/lexer.cpp:913-955`. -/
def onScriptEscaped (E : Env) (s : Lex) (c : Char) (eof : Bool) : Step :=
  if c = '-' then stay (emitChar E '-' (go .scriptEscapedDash s))
  else if c = '<' then stay (go .scriptEscapedLessThan s)
  else if c = '\x00' then stay (emitChar E replacement s)
  else if eof then stay (emitEof E s)
  else stay (emitChar E c s)

/-- `html/lexer.cpp:957-1027`.  The second tests for `NUL` and the end of the input, lines
1003-1016, can never be reached. -/
def onScriptEscapedDash (E : Env) (s : Lex) (c : Char) (eof : Bool) : Step :=
  if c = '-' then stay (emitChar E '-' (go .scriptEscapedDashDash s))
  else if c = '<' then stay (go .scriptEscapedLessThan s)
  else if c = '\x00' then stay (emitChar E replacement (go .scriptEscaped s))
  else if eof then stay (emitEof E s)
  else if c = '>' then stay (emitChar E '>' (go .scriptData s))
  else stay (emitChar E c (go .scriptEscaped s))

/-- `html/lexer.cpp:1029-1068`. -/
def onScriptEscapedDashDash (E : Env) (s : Lex) (c : Char) (eof : Bool) : Step :=
  if c = '-' then stay (emitChar E '-' s)
  else if c = '<' then stay (go .scriptEscapedLessThan s)
  else if c = '>' then stay (emitChar E '>' (go .scriptData s))
  else if c = '\x00' then stay (emitChar E replacement (go .scriptEscaped s))
  else if eof then stay (emitEof E s)
  else stay (emitChar E c (go .scriptEscaped s))

/-- `html/lexer.cpp:1070-1101`. -/
def onScriptEscapedLessThan (E : Env) (s : Lex) (c : Char) (_eof : Bool) : Step :=
  if c = '/' then stay (go .scriptEscapedEndTagOpen { s with temp := [] })
  else if isAlpha c then again .scriptDoubleEscapeStart (emitChar E '<' { s with temp := [] })
  else again .scriptEscaped (emitChar E '<' s)

/-- The word `script`. -/
def scriptWord : Str := ['s', 'c', 'r', 'i', 'p', 't']

/-- `html/lexer.cpp:1199-1247` (`yes` the double escaped state, `no` the escaped one) and
1424-1473 (the other way round). -/
def onScriptDoubleEscape (yes no : State) (E : Env) (s : Lex) (c : Char) (_eof : Bool) : Step :=
  if isSpace c || c == '/' || c == '>' then
    stay (emitChar E c (go (if s.temp = scriptWord then yes else no) s))
  else if isUpper c then stay (emitChar E c { s with temp := s.temp ++ [toLower c] })
  else if isLower c then stay (emitChar E c { s with temp := s.temp ++ [c] })
  else again no s

/-- `html/lexer.cpp:1249-1293`. -/
def onScriptDoubleEscaped (E : Env) (s : Lex) (c : Char) (eof : Bool) : Step :=
  if c = '-' then stay (emitChar E '-' (go .scriptDoubleEscapedDash s))
  else if c = '<' then stay (emitChar E '<' (go .scriptDoubleEscapedLessThan s))
  else if c = '\x00' then stay (emitChar E replacement s)
  else if eof then stay (emitEof E s)
  else stay (emitChar E c s)

/-- `html/lexer.cpp:1295-1343`. -/
def onScriptDoubleEscapedDash (E : Env) (s : Lex) (c : Char) (eof : Bool) : Step :=
  if c = '-' then stay (emitChar E '-' (go .scriptDoubleEscapedDashDash s))
  else if c = '<' then stay (emitChar E '<' (go .scriptDoubleEscapedLessThan s))
  else if c = '\x00' then stay (emitChar E replacement (go .scriptDoubleEscaped s))
  else if eof then stay (emitEof E s)
  else stay (emitChar E c (go .scriptDoubleEscaped s))

/-- `html/lexer.cpp:1345-1399`. -/
def onScriptDoubleEscapedDashDash (E : Env) (s : Lex) (c : Char) (eof : Bool) : Step :=
  if c = '-' then stay (emitChar E '-' s)
  else if c = '<' then stay (emitChar E '<' (go .scriptDoubleEscapedLessThan s))
  else if c = '>' then stay (emitChar E '>' (go .scriptData s))
  else if c = '\x00' then stay (emitChar E replacement (go .scriptDoubleEscaped s))
  else if eof then stay (emitEof E s)
  else stay (emitChar E c (go .scriptDoubleEscaped s))

/-- `html/lexer.cpp:1401-1422`. -/
def onScriptDoubleEscapedLessThan (E : Env) (s : Lex) (c : Char) (_eof : Bool) : Step :=
  if c = '/' then stay (emitChar E '/' (go .scriptDoubleEscapeEnd { s with temp := [] }))
  else again .scriptDoubleEscaped s

/-! ### Attributes -/

/-- `html/lexer.cpp:1475-1518`. -/
def onBeforeAttributeName (_E : Env) (s : Lex) (c : Char) (eof : Bool) : Step :=
  if isSpace c then stay s
  else if c = '/' ∨ c = '>' ∨ eof = true then again .afterAttributeName s
  else if c = '=' then stay (go .attributeName (append c (beginAttribute s)))
  else again .attributeName (beginAttribute s)

/-- `html/lexer.cpp:1520-1610`. -/
def onAttributeName (_E : Env) (s : Lex) (c : Char) (eof : Bool) : Step :=
  if isSpace c = true ∨ c = '/' ∨ c = '>' ∨ eof = true then
    again .afterAttributeName (leaveAttributeName (commitAttrName s))
  else if c = '=' then
    stay (go .beforeAttributeValue (leaveAttributeName (commitAttrName s)))
  else if isUpper c then stay (append (toLower c) s)
  else if c = '\x00' then stay (append replacement s)
  else stay (append c s)

/-- `html/lexer.cpp:1612-1662`. -/
def onAfterAttributeName (E : Env) (s : Lex) (c : Char) (eof : Bool) : Step :=
  if isSpace c then stay s
  else if c = '/' then stay (go .selfClosingStartTag s)
  else if c = '=' then stay (go .beforeAttributeValue s)
  else if c = '>' then stay (emit E (go .data s))
  else if eof then stay (emitEof E s)
  else again .attributeName (beginAttribute s)

/-- `html/lexer.cpp:1664-1705`. -/
def onBeforeAttributeValue (E : Env) (s : Lex) (c : Char) (_eof : Bool) : Step :=
  if isSpace c then stay s
  else if c = '"' then stay (go .valueDoubleQuoted s)
  else if c = '\'' then stay (go .valueSingleQuoted s)
  else if c = '>' then stay (emit E (go .data s))
  else again .valueUnquoted s

/-- `html/lexer.cpp:1707-1754` and 1756-1803. -/
def onValueQuoted (self : State) (quote : Char) (E : Env) (s : Lex) (c : Char) (eof : Bool) :
    Step :=
  if c = quote then stay (go .afterValueQuoted (takeValue s))
  else if c = '&' then stay { s with ret := self, state := .characterReference }
  else if c = '\x00' then stay (append replacement s)
  else if eof then stay (emitEof E s)
  else stay (append c s)

/-- `html/lexer.cpp:1804-1878`.  The branch for `"`, `'`, `<`, `=` and the backtick, lines
1857-1860, only adds a diagnostic to what the last branch does, except that it comes before the
end of the input, which is none of these characters. -/
def onValueUnquoted (E : Env) (s : Lex) (c : Char) (eof : Bool) : Step :=
  if isSpace c then stay (go .beforeAttributeName (takeValue s))
  else if c = '&' then stay { s with ret := .valueUnquoted, state := .characterReference }
  else if c = '>' then stay (emit E (go .data (takeValue s)))
  else if c = '\x00' then stay (append replacement s)
  else if eof then stay (emitEof E s)
  else stay (append c s)

/-- `html/lexer.cpp:1880-1923`. -/
def onAfterValueQuoted (E : Env) (s : Lex) (c : Char) (eof : Bool) : Step :=
  if isSpace c then stay (go .beforeAttributeName s)
  else if c = '/' then stay (go .selfClosingStartTag s)
  else if c = '>' then stay (emit E (go .data s))
  else if eof then stay (emitEof E s)
  else again .beforeAttributeName s

/-- `html/lexer.cpp:1925-1956`. -/
def onSelfClosing (E : Env) (s : Lex) (c : Char) (eof : Bool) : Step :=
  if c = '>' then
    stay (emit E (go .data (clearBuilder (onToken (fun t => { t with selfClosing := true }) s))))
  else if eof then stay (emitEof E s)
  else again .beforeAttributeName s

/-! ### Comments -/

/-- `html/lexer.cpp:1957-1993`. -/
def onBogusComment (E : Env) (s : Lex) (c : Char) (eof : Bool) : Step :=
  if c = '>' then stay (emit E (go .data (takeData s)))
  else if eof then stay (emitEof E (emit E (takeData s)))
  else if c = '\x00' then stay (append replacement s)
  else stay (append c s)

def exact (a b : Char) : Bool := a == b

/-- What `MARKUP_DECLARATION_OPEN` and `AFTER_DOCTYPE_NAME` look for. -/
def dashDash : Str := ['-', '-']
def doctypeWord : Str := ['D', 'O', 'C', 'T', 'Y', 'P', 'E']
def cdataWord : Str := ['[', 'C', 'D', 'A', 'T', 'A', '[']
def publicWord : Str := ['P', 'U', 'B', 'L', 'I', 'C']
def systemWord : Str := ['S', 'Y', 'S', 'T', 'E', 'M']

/-- `html/lexer.cpp:1995-2057`.  In the branch of `[CDATA[` nothing happens, because
`_inForeignContent` is `false`: the characters stay in `_peek`, and the next one does not match
any more. -/
def onMarkupDeclarationOpen (_E : Env) (s : Lex) (c : Char) (_eof : Bool) : Step :=
  if startWith exact dashDash (s.peek ++ [c]) ≠ .no then
    if startWith exact dashDash (s.peek ++ [c]) = .part then stay { s with peek := s.peek ++ [c] }
    else stay (go .commentStart (begin_ .comment { s with peek := [] }))
  else if startWith eqCi doctypeWord (s.peek ++ [c]) ≠ .no then
    if startWith eqCi doctypeWord (s.peek ++ [c]) = .part then
      stay { s with peek := s.peek ++ [c] }
    else stay (go .doctype { s with peek := [] })
  else if startWith exact cdataWord (s.peek ++ [c]) ≠ .no then
    stay { s with peek := s.peek ++ [c] }
  else again .bogusComment (begin_ .comment { appends s.peek s with peek := [] })

/-- `html/lexer.cpp:2059-2085`. -/
def onCommentStart (E : Env) (s : Lex) (c : Char) (_eof : Bool) : Step :=
  if c = '-' then stay (go .commentStartDash s)
  else if c = '>' then stay (emit E (go .data s))
  else again .comment s

/-- `html/lexer.cpp:2087-2126`. -/
def onCommentStartDash (E : Env) (s : Lex) (c : Char) (eof : Bool) : Step :=
  if c = '-' then stay (go .commentEnd s)
  else if c = '>' then stay (emit E (go .data (takeData s)))
  else if eof then stay (emitEof E (emit E s))
  else again .comment (append '-' s)

/-- `html/lexer.cpp:2128-2173`. -/
def onComment (E : Env) (s : Lex) (c : Char) (eof : Bool) : Step :=
  if c = '<' then stay (go .commentLessThan (append c s))
  else if c = '-' then stay (go .commentEndDash s)
  else if c = '\x00' then stay (append replacement s)
  else if eof then stay (emitEof E (emit E (takeData s)))
  else stay (append c s)

/-- `html/lexer.cpp:2175-2200`. -/
def onCommentLessThan (_E : Env) (s : Lex) (c : Char) (_eof : Bool) : Step :=
  if c = '!' then stay (go .commentLessThanBang (append c s))
  else if c = '<' then stay (append c s)
  else again .comment s

/-- `html/lexer.cpp:2202-2219`. -/
def onCommentLessThanBang (_E : Env) (s : Lex) (c : Char) (_eof : Bool) : Step :=
  if c = '-' then stay (go .commentLessThanBangDash s) else again .comment s

/-- `html/lexer.cpp:2221-2238`. -/
def onCommentLessThanBangDash (_E : Env) (s : Lex) (c : Char) (_eof : Bool) : Step :=
  if c = '-' then stay (go .commentLessThanBangDashDash s) else again .commentEndDash s

/-- `html/lexer.cpp:2240-2260`.  The two branches differ by a diagnostic only. -/
def onCommentLessThanBangDashDash (_E : Env) (s : Lex) (_c : Char) (_eof : Bool) : Step :=
  again .commentEnd s

/-- `html/lexer.cpp:2262-2292`. -/
def onCommentEndDash (E : Env) (s : Lex) (c : Char) (eof : Bool) : Step :=
  if c = '-' then stay (go .commentEnd s)
  else if eof then stay (emitEof E (emit E (takeData s)))
  else again .comment (append '-' s)

/-- `html/lexer.cpp:2294-2340`. -/
def onCommentEnd (E : Env) (s : Lex) (c : Char) (eof : Bool) : Step :=
  if c = '>' then stay (emit E (go .data (takeData s)))
  else if c = '!' then stay (go .commentEndBang s)
  else if c = '-' then stay (append '-' s)
  else if eof then stay (emitEof E (emit E (takeData s)))
  else again .comment (appends ['-', '-'] s)

/-- `html/lexer.cpp:2342-2390`. -/
def onCommentEndBang (E : Env) (s : Lex) (c : Char) (eof : Bool) : Step :=
  if c = '-' then stay (go .commentEndDash (appends ['-', '-', '!'] s))
  else if c = '>' then stay (emit E (go .data (takeData s)))
  else if eof then stay (emitEof E (emit E (takeData s)))
  else again .comment (appends ['-', '-', '!'] s)

/-! ### The document type -/

/-- `_begin(DOCTYPE)`, force quirks, and the end of the input. -/
def quirksEof (E : Env) (s : Lex) : Lex := emitEof E (emit E (quirks s))

/-- `html/lexer.cpp:2392-2433`. -/
def onDoctype (E : Env) (s : Lex) (c : Char) (eof : Bool) : Step :=
  if isSpace c then stay (go .beforeDoctypeName s)
  else if c = '>' then again .beforeDoctypeName s
  else if eof then stay (quirksEof E (begin_ .doctype s))
  else again .beforeDoctypeName s

/-- `html/lexer.cpp:2435-2504`. -/
def onBeforeDoctypeName (E : Env) (s : Lex) (c : Char) (eof : Bool) : Step :=
  if isSpace c then stay s
  else if isUpper c then stay (go .doctypeName (append (toLower c) (begin_ .doctype s)))
  else if c = '\x00' then stay (go .doctypeName (append replacement (begin_ .doctype s)))
  else if c = '>' then stay (emit E (go .data (quirks (begin_ .doctype s))))
  else if eof then stay (quirksEof E (begin_ .doctype s))
  else stay (go .doctypeName (append c (begin_ .doctype s)))

/-- `html/lexer.cpp:2506-2566`. -/
def onDoctypeName (E : Env) (s : Lex) (c : Char) (eof : Bool) : Step :=
  if isSpace c then stay (go .afterDoctypeName (commitDoctypeName s))
  else if c = '>' then stay (emit E (go .data (commitDoctypeName s)))
  else if isUpper c then stay (append (toLower c) s)
  else if c = '\x00' then stay (append replacement s)
  else if eof then stay (quirksEof E (commitDoctypeName s))
  else stay (append c s)

/-- The keyword part of `AFTER_DOCTYPE_NAME`, with `_peek` already longer.
`html/lexer.cpp:2606-2635`. -/
def onDoctypeKeyword (s : Lex) : Step :=
  if startWith eqCi publicWord s.peek ≠ .no then
    if startWith eqCi publicWord s.peek = .part then stay s
    else stay (go .afterDoctypePublicKeyword { s with peek := [] })
  else if startWith eqCi systemWord s.peek ≠ .no then
    if startWith eqCi systemWord s.peek = .part then stay s
    else stay (go .afterDoctypeSystemKeyword { s with peek := [] })
  else again .bogusDoctype (quirks { s with peek := [] })

/-- `html/lexer.cpp:2568-2638`.  Every character is added to `_peek`, white space and `>` too. -/
def onAfterDoctypeName (E : Env) (s : Lex) (c : Char) (eof : Bool) : Step :=
  if isSpace c then stay { s with peek := s.peek ++ [c] }
  else if c = '>' then stay (emit E (go .data { s with peek := s.peek ++ [c] }))
  else if eof then stay (quirksEof E { s with peek := s.peek ++ [c] })
  else onDoctypeKeyword { s with peek := s.peek ++ [c] }

/-- `html/lexer.cpp:2640-2707`, 2709-2772, 3012-3079 and 3081-3144; `space` is the state after
white space, `double` and `single` those after a quote. -/
def onBeforeIdent (space double single : State) (E : Env) (s : Lex) (c : Char) (eof : Bool) :
    Step :=
  if isSpace c then stay (go space s)
  else if c = '"' then stay (go double s)
  else if c = '\'' then stay (go single s)
  else if c = '>' then stay (emit E (go .data (quirks s)))
  else if eof then stay (quirksEof E s)
  else again .bogusDoctype (quirks s)

/-- `html/lexer.cpp:2774-2827`, 2829-2881, 3146-3199 and 3201-3254. -/
def onIdent (pub : Bool) (quote : Char) (after : State) (E : Env) (s : Lex) (c : Char)
    (eof : Bool) : Step :=
  if c = quote then stay (go after (takeIdent pub s))
  else if c = '\x00' then stay (append replacement s)
  else if c = '>' then stay (emit E (go .data (quirks (takeIdent pub s))))
  else if eof then stay (quirksEof E (takeIdent pub s))
  else stay (append c s)

/-- `html/lexer.cpp:2883-2949` and 2951-3010. -/
def onAfterPublic (E : Env) (s : Lex) (c : Char) (eof : Bool) : Step :=
  if isSpace c then stay (go .betweenDoctypeIdentifiers s)
  else if c = '>' then stay (emit E (go .data s))
  else if c = '"' then stay (go .doctypeSystemDouble s)
  else if c = '\'' then stay (go .doctypeSystemSingle s)
  else if eof then stay (quirksEof E s)
  else again .bogusDoctype (quirks s)

/-- `html/lexer.cpp:3256-3298`. -/
def onAfterSystem (E : Env) (s : Lex) (c : Char) (eof : Bool) : Step :=
  if isSpace c then stay s
  else if c = '>' then stay (emit E (go .data s))
  else if eof then stay (quirksEof E s)
  else again .bogusDoctype s

/-- `html/lexer.cpp:3300-3334`. -/
def onBogusDoctype (E : Env) (s : Lex) (c : Char) (eof : Bool) : Step :=
  if c = '>' then stay (emit E (go .data s))
  else if c = '\x00' then stay s
  else if eof then stay (emitEof E (emit E s))
  else stay s

/-! ### CDATA -/

/-- `html/lexer.cpp:3336-3364`. -/
def onCdata (E : Env) (s : Lex) (c : Char) (eof : Bool) : Step :=
  if c = ']' then stay (go .cdataSectionBracket s)
  else if eof then stay (emitEof E s)
  else stay (emitChar E c s)

/-- `html/lexer.cpp:3366-3385`. -/
def onCdataBracket (E : Env) (s : Lex) (c : Char) (_eof : Bool) : Step :=
  if c = ']' then stay (go .cdataSectionEnd s)
  else again .cdataSection (emitChar E ']' s)

/-- `html/lexer.cpp:3387-3413`. -/
def onCdataEnd (E : Env) (s : Lex) (c : Char) (_eof : Bool) : Step :=
  if c = ']' then stay (emitChar E ']' s)
  else if c = '>' then stay (go .data s)
  else again .cdataSection (emitChar E ']' (emitChar E ']' s))

/-! ### Character references -/

/-- `html/lexer.cpp:3415-3448`. -/
def onCharacterReference (E : Env) (s : Lex) (c : Char) (_eof : Bool) : Step :=
  if isAlphaNum c then again .namedReference { s with temp := ['&'] }
  else if c = '#' then stay (go .numericReference { s with temp := ['&', '#'] })
  else again s.ret (flush E { s with temp := ['&'] })

/-- `computeMatchState`: whether the text is the beginning of a longer name, and whether it is a
name.  `html/lexer.cpp:3484-3502`. -/
def hasPart (E : Env) (target : Str) : Bool :=
  E.ents.any fun e => startWith exact e.name target == .part
def hasYes (E : Env) (target : Str) : Bool :=
  E.ents.any fun e => startWith exact e.name target == .yes

/-- The expansion of the name: the first row of that name.  `html/lexer.cpp:3607-3613`. -/
def expand (E : Env) (name : Str) : Option Str :=
  (E.ents.find? fun e => e.name == name).map Entity.runes

/-- The buffer with its first `m` characters expanded.  `html/lexer.cpp:3556-3569`.  The names
are ASCII, so that bytes and characters are counted alike. -/
def expandFirst (E : Env) (m : Nat) (temp : Str) : Str :=
  match expand E (temp.take m) with
  | some r => r ++ temp.drop m
  | none => temp

/-- The second branch of `NAMED_CHARACTER_REFERENCE`.  `html/lexer.cpp:3522-3577`.  Taking the
first `m` bytes of a shorter buffer, line 3557, reads past its end. -/
def onLegacy (E : Env) (m : Nat) (s : Lex) (c : Char) : Step :=
  if inAttribute s && (c == '=' || (decide (m < s.temp.length) || isAlphaNum c)) then
    again s.ret (flush E s)
  else if s.temp.length < m then again s.ret (fail .outOfBounds s)
  else again s.ret (flush E { s with temp := expandFirst E m s.temp, matched := none })

/-- `html/lexer.cpp:3450-3629`. -/
def onNamed (E : Env) (s : Lex) (c : Char) (_eof : Bool) : Step :=
  if hasPart E (s.temp ++ [c]) then
    stay { s with
      temp := s.temp ++ [c]
      matched := if hasYes E (s.temp ++ [c]) then some (s.temp.length + 1) else s.matched }
  else if hasYes E (s.temp ++ [c]) then
    if c ≠ ';' then stay (fail .panic s)
    else
      stay (go s.ret (flush E { s with
        temp := (expand E (s.temp ++ [c])).getD (s.temp ++ [c]), matched := none }))
  else
    match s.matched with
    | none => again .ambiguousAmpersand (flush E s)
    | some m =>
      if c == ';' && inAttribute s then
        stay (go s.ret (flush E { s with temp := s.temp ++ [c], matched := none }))
      else onLegacy E m s c

/-- `html/lexer.cpp:3631-3663`. -/
def onAmbiguous (E : Env) (s : Lex) (c : Char) (_eof : Bool) : Step :=
  if isAlphaNum c then stay (if inAttribute s then append c s else emitChar E c s)
  else again s.ret s

/-- `html/lexer.cpp:3665-3688`. -/
def onNumeric (_E : Env) (s : Lex) (c : Char) (_eof : Bool) : Step :=
  if c = 'x' ∨ c = 'X' then
    stay (go .hexReferenceStart { s with cur := 0, temp := s.temp ++ [c] })
  else again .decReferenceStart { s with cur := 0 }

/-- `html/lexer.cpp:3690-3711`. -/
def onHexStart (E : Env) (s : Lex) (c : Char) (_eof : Bool) : Step :=
  if isHexDigit c then again .hexReference s else again s.ret (flush E s)

/-- `html/lexer.cpp:3713-3734`. -/
def onDecStart (E : Env) (s : Lex) (c : Char) (_eof : Bool) : Step :=
  if isDigit c then again .decReference s else again s.ret (flush E s)

/-- `_currChar` after one more digit, which counts only as long as the number is a code point. -/
def addDigit (base d : Nat) (s : Lex) : Lex :=
  if isUnicode s.cur then { s with cur := s.cur * base + d } else s

/-- `html/lexer.cpp:3736-3790`.  The tests are for letters, not for hexadecimal digits; `'7'` is
`'A' - 10` and `'W'` is `'a' - 10`. -/
def onHex (_E : Env) (s : Lex) (c : Char) (_eof : Bool) : Step :=
  if isDigit c then stay (addDigit 16 (c.toNat - '0'.toNat) s)
  else if isUpper c then stay (addDigit 16 (c.toNat - '7'.toNat) s)
  else if isLower c then stay (addDigit 16 (c.toNat - 'W'.toNat) s)
  else if c = ';' then stay (go .numericReferenceEnd s)
  else again .numericReferenceEnd s

/-- `html/lexer.cpp:3792-3822`. -/
def onDec (_E : Env) (s : Lex) (c : Char) (_eof : Bool) : Step :=
  if isDigit c then stay (addDigit 10 (c.toNat - '0'.toNat) s)
  else if c = ';' then stay (go .numericReferenceEnd s)
  else again .numericReferenceEnd s

/-- `CONV`.  `html/lexer.cpp:3897-3925`. -/
def conv : List (Nat × Nat) :=
  [(0x80, 0x20AC), (0x82, 0x201A), (0x83, 0x0192), (0x84, 0x201E), (0x85, 0x2026),
   (0x86, 0x2020), (0x87, 0x2021), (0x88, 0x02C6), (0x89, 0x2030), (0x8A, 0x0160),
   (0x8B, 0x2039), (0x8C, 0x0152), (0x8E, 0x017D), (0x91, 0x2018), (0x92, 0x2019),
   (0x93, 0x201C), (0x94, 0x201D), (0x95, 0x2022), (0x96, 0x2013), (0x97, 0x2014),
   (0x98, 0x02DC), (0x99, 0x2122), (0x9A, 0x0161), (0x9B, 0x203A), (0x9C, 0x0153),
   (0x9E, 0x017E), (0x9F, 0x0178)]

/-- The code point of a number.  `html/lexer.cpp:3830-3932`.  The branches for noncharacters and
control characters, lines 3853-3861, only add a diagnostic. -/
def codePoint (n : Nat) : Nat :=
  if n = 0 then 0xFFFD
  else if isUnicode n = false then 0xFFFD
  else if isSurrogate n then 0xFFFD
  else
    match conv.find? fun p => p.1 == n with
    | some p => p.2
    | none => n

/-- `html/lexer.cpp:3824-3945`. -/
def onNumericEnd (E : Env) (s : Lex) (_c : Char) (_eof : Bool) : Step :=
  again s.ret (flush E { s with cur := codePoint s.cur, temp := [Char.ofNat (codePoint s.cur)] })

/-! ### One character -/

/-- The `switch` of `consume`.  `html/lexer.cpp:150-3951`. -/
def step (E : Env) (s : Lex) (c : Char) (eof : Bool) : Step :=
  match s.state with
  | .data => onData E s c eof
  | .rcdata => onRcdata E s c eof
  | .rawtext => onRaw .rawtextLessThan E s c eof
  | .scriptData => onRaw .scriptLessThan E s c eof
  | .plaintext => onPlaintext E s c eof
  | .tagOpen => onTagOpen E s c eof
  | .endTagOpen => onEndTagOpen E s c eof
  | .tagName => onTagName E s c eof
  | .rcdataLessThan => onLessThan .rcdataEndTagOpen .rcdata E s c eof
  | .rcdataEndTagOpen => onRawEndTagOpen .rcdataEndTagName .rcdata E s c eof
  | .rcdataEndTagName => onRawEndTagName .rcdata E s c eof
  | .rawtextLessThan => onLessThan .rawtextEndTagOpen .rawtext E s c eof
  | .rawtextEndTagOpen => onRawEndTagOpen .rawtextEndTagName .rawtext E s c eof
  | .rawtextEndTagName => onRawEndTagName .rawtext E s c eof
  | .scriptLessThan => onScriptLessThan E s c eof
  | .scriptEndTagOpen => onRawEndTagOpen .scriptEndTagName .scriptData E s c eof
  | .scriptEndTagName => onRawEndTagName .scriptData E s c eof
  | .scriptEscapeStart => onScriptEscapeStart .scriptEscapeStartDash E s c eof
  | .scriptEscapeStartDash => onScriptEscapeStart .scriptEscapedDashDash E s c eof
  | .scriptEscaped => onScriptEscaped E s c eof
  | .scriptEscapedDash => onScriptEscapedDash E s c eof
  | .scriptEscapedDashDash => onScriptEscapedDashDash E s c eof
  | .scriptEscapedLessThan => onScriptEscapedLessThan E s c eof
  | .scriptEscapedEndTagOpen => onRawEndTagOpen .scriptEscapedEndTagName .scriptEscaped E s c eof
  | .scriptEscapedEndTagName => onRawEndTagName .scriptEscaped E s c eof
  | .scriptDoubleEscapeStart =>
    onScriptDoubleEscape .scriptDoubleEscaped .scriptEscaped E s c eof
  | .scriptDoubleEscaped => onScriptDoubleEscaped E s c eof
  | .scriptDoubleEscapedDash => onScriptDoubleEscapedDash E s c eof
  | .scriptDoubleEscapedDashDash => onScriptDoubleEscapedDashDash E s c eof
  | .scriptDoubleEscapedLessThan => onScriptDoubleEscapedLessThan E s c eof
  | .scriptDoubleEscapeEnd => onScriptDoubleEscape .scriptEscaped .scriptDoubleEscaped E s c eof
  | .beforeAttributeName => onBeforeAttributeName E s c eof
  | .attributeName => onAttributeName E s c eof
  | .afterAttributeName => onAfterAttributeName E s c eof
  | .beforeAttributeValue => onBeforeAttributeValue E s c eof
  | .valueDoubleQuoted => onValueQuoted .valueDoubleQuoted '"' E s c eof
  | .valueSingleQuoted => onValueQuoted .valueSingleQuoted '\'' E s c eof
  | .valueUnquoted => onValueUnquoted E s c eof
  | .afterValueQuoted => onAfterValueQuoted E s c eof
  | .selfClosingStartTag => onSelfClosing E s c eof
  | .bogusComment => onBogusComment E s c eof
  | .markupDeclarationOpen => onMarkupDeclarationOpen E s c eof
  | .commentStart => onCommentStart E s c eof
  | .commentStartDash => onCommentStartDash E s c eof
  | .comment => onComment E s c eof
  | .commentLessThan => onCommentLessThan E s c eof
  | .commentLessThanBang => onCommentLessThanBang E s c eof
  | .commentLessThanBangDash => onCommentLessThanBangDash E s c eof
  | .commentLessThanBangDashDash => onCommentLessThanBangDashDash E s c eof
  | .commentEndDash => onCommentEndDash E s c eof
  | .commentEnd => onCommentEnd E s c eof
  | .commentEndBang => onCommentEndBang E s c eof
  | .doctype => onDoctype E s c eof
  | .beforeDoctypeName => onBeforeDoctypeName E s c eof
  | .doctypeName => onDoctypeName E s c eof
  | .afterDoctypeName => onAfterDoctypeName E s c eof
  | .afterDoctypePublicKeyword =>
    onBeforeIdent .beforeDoctypePublic .doctypePublicDouble .doctypePublicSingle E s c eof
  | .beforeDoctypePublic =>
    onBeforeIdent .beforeDoctypePublic .doctypePublicDouble .doctypePublicSingle E s c eof
  | .doctypePublicDouble => onIdent true '"' .afterDoctypePublic E s c eof
  | .doctypePublicSingle => onIdent true '\'' .afterDoctypePublic E s c eof
  | .afterDoctypePublic => onAfterPublic E s c eof
  | .betweenDoctypeIdentifiers => onAfterPublic E s c eof
  | .afterDoctypeSystemKeyword =>
    onBeforeIdent .beforeDoctypeSystem .doctypeSystemDouble .doctypeSystemSingle E s c eof
  | .beforeDoctypeSystem =>
    onBeforeIdent .beforeDoctypeSystem .doctypeSystemDouble .doctypeSystemSingle E s c eof
  | .doctypeSystemDouble => onIdent false '"' .afterDoctypeSystem E s c eof
  | .doctypeSystemSingle => onIdent false '\'' .afterDoctypeSystem E s c eof
  | .afterDoctypeSystem => onAfterSystem E s c eof
  | .bogusDoctype => onBogusDoctype E s c eof
  | .cdataSection => onCdata E s c eof
  | .cdataSectionBracket => onCdataBracket E s c eof
  | .cdataSectionEnd => onCdataEnd E s c eof
  | .characterReference => onCharacterReference E s c eof
  | .namedReference => onNamed E s c eof
  | .ambiguousAmpersand => onAmbiguous E s c eof
  | .numericReference => onNumeric E s c eof
  | .hexReferenceStart => onHexStart E s c eof
  | .decReferenceStart => onDecStart E s c eof
  | .hexReference => onHex E s c eof
  | .decReference => onDec E s c eof
  | .numericReferenceEnd => onNumericEnd E s c eof

/-- `consume`, with a bound on how often one character may be read again.
`html/lexer.cpp:150-3951`. -/
def consumeN (E : Env) : Nat → Lex → Char → Bool → Lex
  | 0, s, _, _ => fail .endless s
  | n + 1, s, c, eof =>
    if (step E s c eof).2 then consumeN E n (step E s c eof).1 c eof else (step E s c eof).1

/-- The program has no bound.  Twelve is enough for every character in every state a run can
reach, see `C111_tokens_end`; were it not, the run would end with the fault `endless`. -/
def consume (E : Env) (s : Lex) (c : Char) (eof : Bool) : Lex := consumeN E 12 s c eof

/-! ### A document -/

/-- The newlines of `HtmlParser::write`.  `html/parser.cpp:4333-4343`. -/
def newlines : Str → Str
  | [] => []
  | '\r' :: '\n' :: r => '\n' :: newlines r
  | c :: r => (if c = '\r' then '\n' else c) :: newlines r

/-- The placeholder given together with the end of the input.  `html/parser.cpp:4348-4349`. -/
def etx : Char := '\x03'

/-- The characters of a text, one by one. -/
def feed (E : Env) (s : Lex) (cs : Str) : Lex := cs.foldl (fun s c => consume E s c false) s

/-- `HtmlParser::write` on a new parser, as far as the tokenizer goes.
`html/parser.cpp:4327-4350`. -/
def run (E : Env) (doc : Str) : Lex := consume E (feed E {} (newlines doc)) etx true

/-- The tokens of a document. -/
def tokens (E : Env) (doc : Str) : List Token := (run E doc).out

end Verif.Html
