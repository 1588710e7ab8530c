import Verif.Html.Model
import Verif.Tree.Names
/-
The state of the tree builder and the operations it is made of.

`src/vaev-engine/html/parser.cpp:20-1040`, with `dom/names.cpp`, `dom/element.cpp`,
`dom/character-data.cpp` for the nodes.

* Nodes are numbered; node 0 is the document.  The tree is kept as the list of children and the
  parent of every node.  That the pointers of `dom/tree.cpp` behave like this is C01.
* A reference to an element is its number together with its qualified name, which never changes.
* The stack of open elements is kept with the current element first.
* Parse errors and positions are left out: they have no influence on the tree.
* `_scriptingEnabled` (`parser.cpp:379`), `_templateInsertionModes` (385) and `_contextElement`
  (396) are never written by the program: they are `false`, empty, and null.
-/
namespace Verif.Tree

open Verif.Html (Str Attr Content)

/-- The tokens, as the tree builder looks at them.  `html/token.cpp:36-45`.  A tag always has a
name (C118). -/
inductive Tok
  | doctype (name pub sys : Option Str)
  | opens (name : Str) (attrs : List Attr) (self : Bool)
  | closes (name : Str) (attrs : List Attr) (self : Bool)
  | comment (data : Str)
  | char (c : Char)
  | eof
deriving DecidableEq, Repr

def Tok.of (t : Html.Token) : Tok :=
  match t.kind with
  | .doctype => .doctype t.name t.publicIdent t.systemIdent
  | .startTag => .opens (t.name.getD []) t.attrs t.selfClosing
  | .endTag => .closes (t.name.getD []) t.attrs t.selfClosing
  | .comment => .comment t.data
  | .character => .char t.rune
  | .endOfFile => .eof

/-- The namespaces that elements are created in. -/
inductive Ns | html | svg | math
deriving DecidableEq, Repr

/-- `Dom::QualifiedName` of an element.  `dom/names.cpp:14-26`. -/
structure QName where
  ns : Ns
  name : Str
deriving DecidableEq, Repr

/-- `Dom::QualifiedName` of an attribute.  Its namespace is absent, or the empty string
(`parser.cpp:1752,1786`), which is not the same: `blank`. -/
structure Key where
  blank : Bool
  name : Str
deriving DecidableEq, Repr

abbrev Attrs := List (Key × Str)

/-- What a node is.  `dom/document.cpp`, `dom/document-type.cpp`, `dom/element.cpp:63-75`,
`dom/text.cpp`, `dom/comment.cpp`. -/
inductive Data
  | document
  | doctype (name pub sys : Str)
  | element (q : QName) (attrs : Attrs)
  | text (d : Str)
  | comment (d : Str)
deriving DecidableEq, Repr

/-- `Gc::Ref<Dom::Element>`. -/
structure El where
  id : Nat
  q : QName
deriving DecidableEq, Repr

/-- `_ActiveFormattingElementList::Entry`: a marker, or an element with its token, of which only
the name and the attributes are used again.  `parser.cpp:137-163`. -/
inductive Entry
  | marker
  | elem (el : El) (name : Str) (attrs : List Attr)
deriving DecidableEq, Repr

/-- The insertion modes.  `parser.cpp:341-362`. -/
inductive Mode
  | initial | beforeHtml | beforeHead | inHead | inHeadNoscript | afterHead | inBody | text
  | inTable | inTableText | inCaption | inColumnGroup | inTableBody | inRow | inCell | inTemplate
  | afterBody | inFrameset | afterFrameset | afterAfterBody | afterAfterFrameset
deriving DecidableEq, Repr

/-- How the tree builder can go wrong: `panic("no current element")` and the like, a `popBack` of
an empty vector, a null pointer or an empty `Opt` used, an index out of range, an insertion past
the end of a vector, `unreachable()`, a recursion without end. -/
inductive Fault
  | panic | popEmpty | null | index | pastEnd | unreachable | endless
deriving DecidableEq, Repr

abbrev M := Except Fault

/-- The members of `HtmlParser`, with the nodes of the document.  `parser.cpp:377-405`.
`pending` are the characters of `_pendingTableCharacterTokens`; `lexer` is the state that the
tokenizer was last switched to, if any. -/
structure St where
  data : Nat → Data := fun _ => .document
  kids : Nat → List Nat := fun _ => []
  parent : Nat → Option Nat := fun _ => none
  next : Nat := 1
  quirks : Bool := false
  framesetOk : Bool := true
  foster : Bool := false
  mode : Mode := .initial
  orig : Mode := .initial
  head : Option El := none
  form : Option El := none
  stack : List El := []
  entries : List Entry := []
  after : Nat := 0
  pending : List Char := []
  skipLf : Bool := false
  lexer : Option Content := none

/-! ### Nodes -/

def update {α : Type} (f : Nat → α) (n : Nat) (v : α) : Nat → α := fun m => if m = n then v else f m

/-- `_heap.alloc`: a new node without parent and children. -/
def alloc (s : St) (d : Data) : St × Nat :=
  ({ s with
      data := update s.data s.next d
      kids := update s.kids s.next []
      parent := update s.parent s.next none
      next := s.next + 1 }, s.next)

/-- `Tree::remove`, and the detaching that every insertion begins with.  `dom/tree.cpp:70-71,
99-100,137-156`. -/
def detach (s : St) (n : Nat) : St :=
  match s.parent n with
  | none => s
  | some p => { s with
      kids := update s.kids p ((s.kids p).filter (· ≠ n))
      parent := update s.parent n none }

/-- `Tree::appendChild`.  `dom/tree.cpp:69-80`. -/
def append (s : St) (p n : Nat) : St :=
  let s := detach s n
  { s with kids := update s.kids p (s.kids p ++ [n]), parent := update s.parent n (some p) }

/-- Put `n` before `c` in a list. -/
def putBefore (n c : Nat) : List Nat → List Nat
  | [] => []
  | x :: xs => if x = c then n :: x :: xs else x :: putBefore n c xs

/-- `Tree::insertBefore` with a node to insert before.  `dom/tree.cpp:95-114`. -/
def insertBefore (s : St) (p n c : Nat) : St :=
  let s := detach s n
  { s with kids := update s.kids p (putBefore n c (s.kids p))
           parent := update s.parent n (some p) }

/-- The node before `c` in a list, if any. -/
def prevIn (c : Nat) : List Nat → Option Nat
  | x :: y :: xs => if y = c then some x else prevIn c (y :: xs)
  | _ => none

/-- `Map::put`. -/
def putAttr (k : Key) (v : Str) : Attrs → Attrs
  | [] => [(k, v)]
  | (k', v') :: r => if k' = k then (k, v) :: r else (k', v') :: putAttr k v r

/-- `Element::setAttribute`, without the list of classes.  `dom/element.cpp:117-127`. -/
def setAttr (d : Data) (k : Key) (v : Str) : Data :=
  match d with
  | .element q as => .element q (putAttr k v as)
  | d => d

/-- `Element::hasAttribute`.  `dom/element.cpp:129-131`. -/
def hasAttr (d : Data) (k : Key) : Bool :=
  match d with
  | .element _ as => as.any fun p => p.1 = k
  | _ => false

/-- `Element::getAttribute`.  `dom/element.cpp:142-147`. -/
def getAttr (d : Data) (k : Key) : Option Str :=
  match d with
  | .element _ as => (as.find? fun p => p.1 = k).map (·.2)
  | _ => none

def attrsOf : Data → Attrs
  | .element _ as => as
  | _ => []

/-! ### The stack of open elements -/

def h (name : Str) : QName := ⟨.html, name⟩

/-- The name is one of these, in the namespace of HTML. -/
def QName.isIn (q : QName) (names : List Str) : Bool := q.ns = .html && names.contains q.name

/-- `_currentElement`.  `parser.cpp:413-419`. -/
def current (s : St) : M El :=
  match s.stack with
  | [] => .error .panic
  | e :: _ => .ok e

/-- `_ElementStack::pop`.  `parser.cpp:34-36`. -/
def pop (s : St) : M St :=
  match s.stack with
  | [] => .error .popEmpty
  | _ :: r => .ok { s with stack := r }

/-- The loop of `popUntil` and `popUntilOneOf`: nothing is left when there is no such element.
`parser.cpp:38-51`. -/
def dropPast (p : El → Bool) : List El → List El
  | [] => []
  | e :: r => if p e then r else dropPast p r

/-- `popUntil`.  `parser.cpp:38-43`. -/
def popUntil (s : St) (el : El) : St := { s with stack := dropPast (· == el) s.stack }

/-- `popUntilOneOf`.  `parser.cpp:45-51`. -/
def popUntilOneOf (s : St) (names : List Str) : St :=
  { s with stack := dropPast (·.q.isIn names) s.stack }

/-- `elementImmediatelyAbove`.  `parser.cpp:67-75`. -/
def elementAbove (el : El) : List El → Option El
  | x :: y :: r => if x = el then some y else elementAbove el (y :: r)
  | _ => none

/-- `contains(QualifiedName)`.  `parser.cpp:99-107`. -/
def hasOpen (s : St) (name : Str) : Bool := s.stack.any (·.q == h name)

/-- `remove`.  `parser.cpp:118-120`. -/
def removeOpen (s : St) (el : El) : St := { s with stack := s.stack.filter (· ≠ el) }

/-- `insertBelow`: `el` becomes the next after `below`; a panic when that is not there.
`parser.cpp:113-116`. -/
def insertBelow (below el : El) : List El → M (List El)
  | [] => .error .null
  | x :: r =>
    if x = below then .ok (el :: x :: r)
    else match insertBelow below el r with
      | .ok l => .ok (x :: l)
      | .error f => .error f

/-! ### The list of active formatting elements -/

def Entry.is (el : El) : Entry → Bool
  | .marker => false
  | .elem e _ _ => e = el

/-- `contains`.  `parser.cpp:165-175`. -/
def hasEntry (s : St) (el : El) : Bool := s.entries.any (·.is el)

/-- `indexOf`.  `parser.cpp:305-315`. -/
def entryIndex (s : St) (el : El) : Option Nat := s.entries.findIdx? (·.is el)

/-- The first entry in a part of the list that has this name.  A marker there is a null pointer.
`lastElementAfterLastMarkerWithTagName` compares the local name only.
`parser.cpp:177-195`. -/
def findNamed (p : QName → Bool) : List Entry → M (Option El)
  | [] => .ok none
  | .marker :: _ => .error .null
  | .elem e _ _ :: r => if p e.q then .ok (some e) else findNamed p r

/-- `remove`.  `parser.cpp:317-329`. -/
def removeEntry (s : St) (el : El) : St :=
  match entryIndex s el with
  | none => s
  | some i => { s with
      after := if i < s.after then s.after - 1 else s.after
      entries := s.entries.eraseIdx i }

/-- Same attributes, for `push`.  `parser.cpp:216-236`. -/
def sameAttrs (a b : Attrs) : Bool :=
  a.length = b.length && a.all fun p => (b.find? fun q => q.1 = p.1).map (·.2) = some p.2

/-- The entries of a part of the list that are like the element.  `parser.cpp:209-246`. -/
def similar (s : St) (el : El) : List Entry → M (List El)
  | [] => .ok []
  | .marker :: _ => .error .null
  | .elem e _ _ :: r => do
    let l ← similar s el r
    if e.q = el.q && sameAttrs (attrsOf (s.data e.id)) (attrsOf (s.data el.id)) then .ok (e :: l)
    else .ok l

/-- `push`: at most three of a kind.  `parser.cpp:208-256`. -/
def pushEntry (s : St) (el : El) (name : Str) (attrs : List Attr) : M St := do
  let l ← similar s el (s.entries.drop s.after)
  let s := match l with
    | e :: _ => if 3 ≤ l.length then removeEntry s e else s
    | [] => s
  .ok { s with entries := s.entries ++ [.elem el name attrs] }

/-- `pushMarker`.  `parser.cpp:258-261`. -/
def pushMarker (s : St) : St :=
  { s with entries := s.entries ++ [.marker], after := s.entries.length + 1 }

/-- The list without its last marker and what follows it, newest first; `none` when there is no
marker, and the loop reads before the start of the vector.  `parser.cpp:268-282`. -/
def dropMarker : List Entry → Option (List Entry)
  | [] => none
  | .marker :: r => some r
  | .elem _ _ _ :: r => dropMarker r

/-- The index after the last marker; 0 when there is none.  `parser.cpp:284-291`. -/
def afterMarker (es : List Entry) : Nat :=
  (es.reverse.dropWhile fun e => e != .marker).length

/-- `clearUpToLastMarker`.  `parser.cpp:264-292`. -/
def clearMarker (s : St) : M St :=
  if s.entries = [] then .ok s
  else match dropMarker s.entries.reverse with
    | none => .error .index
    | some r => .ok { s with entries := r.reverse, after := afterMarker r.reverse }

/-- `insert`.  An index past the end is outside of what `Vec::insert` allows.
`parser.cpp:294-299`. -/
def insertEntry (s : St) (i : Nat) (e : Entry) : M St :=
  if s.entries.length < i then .error .pastEnd
  else .ok { s with
    after := if i < s.after then s.after + 1 else s.after
    entries := s.entries.take i ++ e :: s.entries.drop i }

/-! ### Creating and inserting nodes -/

/-- `InsertionLocation`; the parent is never null.  `parser.cpp:591-618`. -/
structure Place where
  parent : Nat
  before : Option Nat

/-- `InsertionLocation::insert`.  `parser.cpp:597-606`. -/
def Place.insert (p : Place) (s : St) (n : Nat) : St :=
  match p.before with
  | some c => insertBefore s p.parent n c
  | none => append s p.parent n

/-- `InsertionLocation::previousSibling`.  `parser.cpp:608-617`. -/
def Place.prev (p : Place) (s : St) : Option Nat :=
  match p.before with
  | some c => (s.parent c).bind fun q => prevIn c (s.kids q)
  | none => (s.kids p.parent).getLast?

def tableish : List Str := [nm! "table", nm! "tbody", nm! "tfoot", nm! "thead", nm! "tr"]

/-- The stack from the last element of this name on. -/
def fromLast (s : St) (name : Str) : List El := s.stack.dropWhile (·.q != h name)

/-- `_apropriatePlaceForInsertingANode`.  `parser.cpp:621-687`. -/
def place (s : St) (target : Option El := none) : M Place := do
  let cur ← current s
  let target := target.getD cur
  if s.foster && cur.q.isIn tableish then
    match fromLast s (nm! "template_"), fromLast s (nm! "table") with
    | tp :: tps, tables =>
      if tables.length < (tp :: tps).length then .ok ⟨tp.id, none⟩
      else placeTable s tables
    | [], tables => placeTable s tables
  else .ok ⟨target.id, none⟩
where
  placeTable (s : St) : List El → M Place
    | [] => match s.stack.getLast? with
      | none => .error .null
      | some b => .ok ⟨b.id, none⟩
    | tb :: below =>
      match s.parent tb.id with
      | some p => .ok ⟨p, some tb.id⟩
      | none => match below with
        | [] => .error .index
        | e :: _ => .ok ⟨e.id, none⟩

def tokenAttrs (as : List Attr) : Attrs := as.foldl (fun l a => putAttr ⟨false, a.name⟩ a.value l) []

/-- `_createElementFor`.  `parser.cpp:690-774`. -/
def createFor (s : St) (ns : Ns) (name : Str) (attrs : List Attr) : St × El :=
  let (s, n) := alloc s (.element ⟨ns, name⟩ (tokenAttrs attrs))
  (s, ⟨n, ⟨ns, name⟩⟩)

/-- `_insertAForeignElement` with `onlyAddToElementStack` false.  `parser.cpp:777-797`. -/
def insertForeign (s : St) (ns : Ns) (name : Str) (attrs : List Attr) : M (St × El) := do
  let loc ← place s
  let (s, el) := createFor s ns name attrs
  let s := loc.insert s el.id
  .ok ({ s with stack := el :: s.stack }, el)

/-- `_insertHtmlElement`.  `parser.cpp:800-804`. -/
def insertHtml (s : St) (name : Str) (attrs : List Attr) : M St := do
  let (s, _) ← insertForeign s .html name attrs
  .ok s

/-- `_insertACharacter`.  `parser.cpp:807-831`. -/
def insertChar (s : St) (c : Char) : M St := do
  let loc ← place s
  if s.data loc.parent = .document then .ok s
  else
    match (loc.prev s).map fun p => (p, s.data p) with
    | some (p, .text d) => .ok { s with data := update s.data p (.text (d ++ [c])) }
    | _ =>
      let (s, n) := alloc s (.text [c])
      .ok (loc.insert s n)

/-- `_insertAComment`.  `parser.cpp:834-849`. -/
def insertComment (s : St) (d : Str) (pos : Option Place := none) : M St := do
  let loc ← match pos with
    | some p => .ok p
    | none => place s
  let (s, n) := alloc s (.comment d)
  .ok (loc.insert s n)

/-- A new child of the document.  `parser.cpp:1064,1072,1101`. -/
def addToDocument (s : St) (d : Data) : St :=
  let (s, n) := alloc s d
  append s 0 n

/-! ### Reconstructing the active formatting elements -/

/-- Neither a marker nor open.  `parser.cpp:507-508,543-546`. -/
def Entry.stale (s : St) : Entry → Bool
  | .marker => false
  | .elem e _ _ => !(s.stack.contains e)

/-- The steps 8 to 10 for the entries from a position on: every one is made anew.
`parser.cpp:562-580`. -/
def remake : St → List Entry → M (St × List Entry)
  | s, [] => .ok (s, [])
  | _, .marker :: _ => .error .null
  | s, .elem _ name attrs :: r => do
    let (s, el) ← insertForeign s .html name attrs
    let (s, r) ← remake s r
    .ok (s, .elem el name attrs :: r)

/-- `_reconstructActiveFormattingElements`.  The rewinding (steps 3 to 7) finds the longest end of
the list without markers and open elements; it is empty when the last entry is one of these (step
2).  `parser.cpp:498-585`. -/
def reconstruct (s : St) : M St := do
  let n := (s.entries.reverse.takeWhile (·.stale s)).length
  let keep := s.entries.take (s.entries.length - n)
  let (s, made) ← remake s (s.entries.drop (s.entries.length - n))
  .ok (if n = 0 then s else { s with entries := keep ++ made })

/-! ### Other helpers -/

/-- `_resetTheInsertionModeAppropriately`, from an element of the stack on.  The bottom is the one
with nothing after it; when nothing fits there, the loop goes on before the start of the vector.
`parser.cpp:852-946`. -/
def resetMode (hasHead : Bool) : List El → M Mode
  | [] => .error .index
  | e :: r =>
    if e.q.isIn [nm! "td", nm! "th"] && !r.isEmpty then .ok .inCell
    else if e.q = h (nm! "tr") then .ok .inRow
    else if e.q.isIn [nm! "tbody", nm! "thead", nm! "tfoot"] then .ok .inTableBody
    else if e.q = h (nm! "caption") then .ok .inCaption
    else if e.q = h (nm! "colgroup") then .ok .inColumnGroup
    else if e.q = h (nm! "table") then .ok .inTable
    else if e.q = h (nm! "head") && !r.isEmpty then .ok .inHead
    else if e.q = h (nm! "body") then .ok .inBody
    else if e.q = h (nm! "frameset") then .ok .inFrameset
    else if e.q = h (nm! "html") then .ok (if hasHead then .afterHead else .beforeHead)
    else resetMode hasHead r

def reset (s : St) : M St := do
  let m ← resetMode s.head.isSome s.stack
  .ok { s with mode := m }

/-- `_parseRawTextElement` and `_parseRcDataElement`.  `parser.cpp:950-962`. -/
def parseRaw (s : St) (k : Content) (name : Str) (attrs : List Attr) : M St := do
  let s ← insertHtml s name attrs
  .ok { s with lexer := some k, orig := s.mode, mode := .text }

/-- The loop of `_generateImpliedEndTags`: the stack that is left.  `parser.cpp:967-972`. -/
def implied (except : List Str) : List El → M (List El)
  | [] => .error .panic
  | e :: r => if e.q.isIn impliedEnd && !e.q.isIn except then implied except r else .ok (e :: r)

/-- `_generateImpliedEndTags`.  `parser.cpp:967-972`. -/
def impliedEnds (s : St) (except : List Str := []) : M St := do
  let st ← implied except s.stack
  .ok { s with stack := st }

/-- `_hasElementInLambdaScope`.  `parser.cpp:977-1001`. -/
def scopeLoop (name : Str) (ends : QName → Bool) : List El → M Bool
  | [] => .error .unreachable
  | e :: r => if e.q = h name then .ok true else if ends e.q then .ok false else scopeLoop name ends r

def inScopeOf (s : St) (ends : QName → Bool) (name : Str) : M Bool :=
  if s.stack = [] then .error .panic else scopeLoop name ends s.stack

/-- `_hasElementInScope`.  `parser.cpp:1004-1008`. -/
def inScope (s : St) (name : Str) : M Bool := inScopeOf s (·.isIn scopeEnd) name
/-- `_hasElementInButtonScope`.  `parser.cpp:1011-1015`. -/
def inButtonScope (s : St) (name : Str) : M Bool :=
  inScopeOf s (fun q => q = h (nm! "button") || q.isIn scopeEnd) name
/-- `_hasElementInListItemScope`.  `parser.cpp:1018-1022`. -/
def inListScope (s : St) (name : Str) : M Bool :=
  inScopeOf s (fun q => q = h (nm! "ol") || q = h (nm! "ul") || q.isIn scopeEnd) name
/-- `_hasElementInTableScope`.  `parser.cpp:1025-1029`. -/
def inTableScope (s : St) (name : Str) : M Bool :=
  inScopeOf s (·.isIn [nm! "html", nm! "table", nm! "template_"]) name

/-- `_isSpecial`.  `parser.cpp:443-452`. -/
def special (q : QName) : Bool :=
  match q.ns with
  | .html => specialHtml.contains q.name
  | .math => specialMath.contains q.name
  | .svg => specialSvg.contains q.name

/-- The four or five characters that the modes treat as white space; `'\r'` is among them in some
of the modes only. -/
def blank (c : Char) : Bool := c == '\t' || c == '\n' || c == '\x0c' || c == ' '
def blankCr (c : Char) : Bool := blank c || c == '\r'

/-- `oneOf`, the comparisons of `t.name`. -/
def isOne (n : Str) (names : List Str) : Bool := names.contains n

end Verif.Tree
