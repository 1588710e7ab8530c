import Verif.Html.Model
/-
What the tokens of an HTML document are, said without the tokenizer.

Only the types of `Model.lean` (`Token`, `Attr`, `Kind`, `Row`) are used, none of its functions.
-/
namespace Verif.Html.Spec

/-! ### Names -/

def Space (c : Char) : Prop := c = '\t' ∨ c = '\n' ∨ c = '\x0c' ∨ c = ' '
def Upper (c : Char) : Prop := 'A'.toNat ≤ c.toNat ∧ c.toNat ≤ 'Z'.toNat
def Lower (c : Char) : Prop := 'a'.toNat ≤ c.toNat ∧ c.toNat ≤ 'z'.toNat
def Digit (c : Char) : Prop := '0'.toNat ≤ c.toNat ∧ c.toNat ≤ '9'.toNat

instance (c : Char) : Decidable (Space c) := by unfold Space; infer_instance
instance (c : Char) : Decidable (Upper c) := by unfold Upper; infer_instance
instance (c : Char) : Decidable (Lower c) := by unfold Lower; infer_instance
instance (c : Char) : Decidable (Digit c) := by unfold Digit; infer_instance

/-- A character that may be part of a name as the tree builder sees it. -/
def NameChar (c : Char) : Prop :=
  ¬ Upper c ∧ ¬ Space c ∧ c ≠ '/' ∧ c ≠ '>' ∧ c ≠ '\x00'

/-- The name of an element: a lower-case letter, then name characters. -/
def TagName (n : Str) : Prop := (∃ c r, n = c :: r ∧ Lower c) ∧ ∀ c ∈ n, NameChar c

/-- The name of an attribute: name characters, at least one, and no `=` but at the front. -/
def AttrName (n : Str) : Prop :=
  n ≠ [] ∧ (∀ c ∈ n, NameChar c) ∧ ∀ c ∈ n.tail, c ≠ '='

/-- A tag that makes sense: it has a name, and attributes of pairwise different names. -/
structure GoodTag (t : Token) : Prop where
  name : ∃ n, t.name = some n ∧ TagName n
  names : ∀ a ∈ t.attrs, AttrName a.name
  distinct : (t.attrs.map Attr.name).Nodup

/-- Every tag among the tokens makes sense. -/
def GoodTags (ts : List Token) : Prop :=
  ∀ t ∈ ts, t.kind = .startTag ∨ t.kind = .endTag → GoodTag t

/-- The end of the file is announced once, and after everything else. -/
def EndsOnce (ts : List Token) : Prop :=
  ∃ before last, ts = before ++ [last] ∧ last.kind = .endOfFile ∧
    ∀ t ∈ before, t.kind ≠ .endOfFile

/-! ### Text -/

def char (c : Char) : Token := { kind := .character, rune := c }
def eof : Token := { kind := .endOfFile }

/-- A text with the newlines of any system, and the same text with those of Unix. -/
inductive Unix : Str → Str → Prop
  | nil : Unix [] []
  | crlf {r r' : Str} : Unix r r' → Unix ('\r' :: '\n' :: r) ('\n' :: r')
  | cr {r r' : Str} : (∀ q, r ≠ '\n' :: q) → Unix r r' → Unix ('\r' :: r) ('\n' :: r')
  | other {r r' : Str} (c : Char) : c ≠ '\r' → Unix r r' → Unix (c :: r) (c :: r')

/-! ### Character references

The meaning of a number, <https://html.spec.whatwg.org/#numeric-character-reference-end-state>. -/

/-- What the numbers 128 to 159 stand for: the characters of Windows-1252 at these places. -/
def windows : List Nat :=
  [0x20AC, 0x81, 0x201A, 0x0192, 0x201E, 0x2026, 0x2020, 0x2021,
   0x02C6, 0x2030, 0x0160, 0x2039, 0x0152, 0x8D, 0x017D, 0x8F,
   0x90, 0x2018, 0x2019, 0x201C, 0x201D, 0x2022, 0x2013, 0x2014,
   0x02DC, 0x2122, 0x0161, 0x203A, 0x0153, 0x9D, 0x017E, 0x0178]

def numbered (n : Nat) : Char :=
  if n = 0 ∨ 0x10FFFF < n ∨ (0xD800 ≤ n ∧ n ≤ 0xDFFF) then Char.ofNat 0xFFFD
  else if 128 ≤ n ∧ n < 160 then Char.ofNat (windows.getD (n - 128) n)
  else Char.ofNat n

/-- The value of a digit, of either case. -/
def digit (c : Char) : Nat :=
  if c.toNat ≤ '9'.toNat then c.toNat - '0'.toNat
  else if c.toNat ≤ 'F'.toNat then c.toNat - 'A'.toNat + 10
  else c.toNat - 'a'.toNat + 10

def HexDigit (c : Char) : Prop :=
  Digit c ∨ ('A'.toNat ≤ c.toNat ∧ c.toNat ≤ 'F'.toNat) ∨
    ('a'.toNat ≤ c.toNat ∧ c.toNat ≤ 'f'.toNat)

instance (c : Char) : Decidable (HexDigit c) := by unfold HexDigit; infer_instance

/-- The number written by digits. -/
def number (base : Nat) (ds : Str) : Nat := ds.foldl (fun n c => n * base + digit c) 0

def AlphaNum (c : Char) : Prop := Upper c ∨ Lower c ∨ Digit c

instance (c : Char) : Decidable (AlphaNum c) := by unfold AlphaNum; infer_instance

/-! ### How a document is written

A grammar for documents: what is written, and what it means. -/

/-- A piece of text: a character; an ampersand that is not the start of a reference, with the
character after it; a decimal or hexadecimal reference; a named one; one of the old names that
work without a semicolon, with the character after it; the `&name=` of a query string. -/
inductive Piece
  | char (c : Char)
  | amp (c : Char)
  | dec (ds : Str)
  | hex (x : Char) (ds : Str)
  | named (r : Row)
  | legacy (r : Row) (c : Char)
  | query (w : Str)

def Piece.src : Piece → Str
  | char c => [c]
  | amp c => ['&', c]
  | dec ds => '&' :: '#' :: ds ++ [';']
  | hex x ds => '&' :: '#' :: x :: ds ++ [';']
  | named r => '&' :: r.key
  | legacy r c => '&' :: r.key ++ [c]
  | query w => '&' :: w ++ ['=']

def Piece.means : Piece → Str
  | char c => [c]
  | amp c => ['&', c]
  | dec ds => [numbered (number 10 ds)]
  | hex _ ds => [numbered (number 16 ds)]
  | named r => r.points.map Char.ofNat
  | legacy r c => r.points.map Char.ofNat ++ [c]
  | query w => '&' :: w ++ ['=']

/-- Where text is written: between the tags, in an element like `title` that holds text only, or
in an attribute, quoted or not. -/
inductive Place | text | title | quoted (q : Char) | bare

def Place.inTag : Place → Bool
  | text | title => false
  | _ => true

/-- The characters that cannot be written as themselves. -/
def Place.stops : Place → Char → Prop
  | text, c => c = '&' ∨ c = '<'
  | title, c => c = '&' ∨ c = '<' ∨ c = '\x00'
  | quoted q, c => c = '&' ∨ c = q ∨ c = '\x00'
  | bare, c => c = '&' ∨ Space c ∨ c = '>' ∨ c = '\x00'

def Piece.Ok (p : Place) : Piece → Prop
  | char c => ¬ p.stops c
  | amp c => ¬ p.stops c ∧ ¬ AlphaNum c ∧ c ≠ '#'
  | dec ds => ds ≠ [] ∧ ∀ c ∈ ds, Digit c
  | hex x ds => (x = 'x' ∨ x = 'X') ∧ ds ≠ [] ∧ ∀ c ∈ ds, HexDigit c
  | named r => r ∈ rows ∧ r.key.getLast? = some ';'
  | legacy r c => p.inTag = false ∧ r ∈ rows ∧ r.key.getLast? ≠ some ';' ∧ ¬ p.stops c ∧
      ¬ AlphaNum c ∧ c ≠ ';'
  | query w => p.inTag = true ∧ w ≠ [] ∧ ∀ c ∈ w, AlphaNum c

def srcs (ps : List Piece) : Str := ps.flatMap Piece.src
def meanings (ps : List Piece) : Str := ps.flatMap Piece.means

/-- The value of an attribute: none at all, one in quotes, or one without; with the spaces before
and after the `=`. -/
inductive Val
  | none
  | quoted (pre post : Str) (q : Char) (ps : List Piece)
  | bare (pre post : Str) (ps : List Piece)

def Val.src : Val → Str
  | none => []
  | quoted pre post q ps => pre ++ '=' :: (post ++ q :: (srcs ps ++ [q]))
  | bare pre post ps => pre ++ '=' :: (post ++ srcs ps)

def Val.means : Val → Str
  | none => []
  | quoted _ _ _ ps | bare _ _ ps => meanings ps

def Spaces (w : Str) : Prop := ∀ c ∈ w, Space c

def Val.Ok : Val → Prop
  | none => True
  | quoted pre post q ps => Spaces pre ∧ Spaces post ∧ (q = '"' ∨ q = '\'') ∧
      ∀ p ∈ ps, p.Ok (.quoted q)
  | bare pre post ps => Spaces pre ∧ Spaces post ∧ (∀ p ∈ ps, p.Ok .bare) ∧
      ∃ c r, srcs ps = c :: r ∧ c ≠ '"' ∧ c ≠ '\''

def Val.isBare : Val → Bool
  | bare _ _ _ => true
  | _ => false

/-- An attribute: the spaces before it, its name, its value. -/
structure AttrSrc where
  lead : Str
  name : Str
  value : Val

def AttrSrc.src (a : AttrSrc) : Str := a.lead ++ a.name ++ a.value.src

def lower (w : Str) : Str := w.map Char.toLower

def AttrSrc.means (a : AttrSrc) : Attr := ⟨lower a.name, a.value.means⟩

structure AttrSrc.Ok (a : AttrSrc) : Prop where
  lead : a.lead ≠ [] ∧ Spaces a.lead
  name : a.name ≠ [] ∧ ∀ c ∈ a.name, ¬ Space c ∧ c ≠ '/' ∧ c ≠ '>' ∧ c ≠ '=' ∧ c ≠ '\x00'
  value : a.value.Ok

/-- The first of several attributes of the same name counts. -/
def addAttr (as : List Attr) (a : Attr) : List Attr :=
  if a.name ∈ as.map Attr.name then as else as ++ [a]

/-- The name of an element as it is written: a letter, then anything that does not end it. -/
def Named (n : Str) : Prop :=
  (∃ c r, n = c :: r ∧ (Upper c ∨ Lower c)) ∧
    ∀ c ∈ n, ¬ Space c ∧ c ≠ '/' ∧ c ≠ '>' ∧ c ≠ '\x00'

/-- What a tag holds after its name. -/
def Attrs.Ok (as : List AttrSrc) (tail : Str) (self : Bool) : Prop :=
  (∀ a ∈ as, a.Ok) ∧ Spaces tail ∧
    (self = true → ∀ a, as.getLast? = some a → a.value.isBare = true → tail ≠ [])

def closing (self : Bool) : Str := if self then ['/', '>'] else ['>']

/-- A comment that the rules of HTML allow, and some more. -/
def CommentText (d : Str) : Prop :=
  (∀ r, d ≠ '>' :: r) ∧ (∀ r, d ≠ '-' :: '>' :: r) ∧
    (∀ a b, d ≠ a ++ ['-', '-', '>'] ++ b) ∧ (∀ a b, d ≠ a ++ ['-', '-', '!', '>'] ++ b) ∧
    '\x00' ∉ d

/-- An identifier in quotes. -/
structure Quoted where
  q : Char
  text : Str

def Quoted.src (x : Quoted) : Str := x.q :: (x.text ++ [x.q])
def Quoted.Ok (x : Quoted) : Prop :=
  (x.q = '"' ∨ x.q = '\'') ∧ ∀ c ∈ x.text, c ≠ x.q ∧ c ≠ '>' ∧ c ≠ '\x00'

/-- What follows the name of a document type: nothing; or, after exactly one space, the public
identifier with or without a system identifier; or the system identifier alone. -/
inductive External
  | nothing
  | pub (gap : Char) (kw sp : Str) (p : Quoted) (y : Option (Str × Quoted)) (tail : Str)
  | sys (gap : Char) (kw sp : Str) (y : Quoted) (tail : Str)

def External.src : External → Str
  | nothing => []
  | pub gap kw sp p .none tail => gap :: (kw ++ (sp ++ (p.src ++ tail)))
  | pub gap kw sp p (.some (sp', y)) tail =>
    gap :: (kw ++ (sp ++ (p.src ++ (sp' ++ (y.src ++ tail)))))
  | sys gap kw sp y tail => gap :: (kw ++ (sp ++ (y.src ++ tail)))

def External.Ok : External → Prop
  | nothing => True
  | pub gap kw sp p y tail => Space gap ∧ lower kw = ['p', 'u', 'b', 'l', 'i', 'c'] ∧ Spaces sp ∧
      p.Ok ∧ (∀ a b, y = some (a, b) → Spaces a ∧ b.Ok) ∧ Spaces tail
  | sys gap kw sp y tail => Space gap ∧ lower kw = ['s', 'y', 's', 't', 'e', 'm'] ∧ Spaces sp ∧
      y.Ok ∧ Spaces tail

/-- A document type: the keyword, white space, the name, the identifiers. -/
structure Doctype where
  kw : Str
  sp : Str
  name : Str
  ext : External

def Doctype.src (d : Doctype) : Str :=
  '<' :: '!' :: (d.kw ++ (d.sp ++ (d.name ++ (d.ext.src ++ ['>']))))

structure Doctype.Ok (d : Doctype) : Prop where
  kw : lower d.kw = ['d', 'o', 'c', 't', 'y', 'p', 'e']
  sp : d.sp ≠ [] ∧ Spaces d.sp
  name : d.name ≠ [] ∧ ∀ c ∈ d.name, ¬ Space c ∧ c ≠ '>' ∧ c ≠ '\x00'
  ext : d.ext.Ok

def Doctype.means (d : Doctype) : Token :=
  { kind := .doctype
    name := some (lower d.name)
    publicIdent := match d.ext with
      | .pub _ _ _ p _ _ => some p.text
      | _ => none
    systemIdent := match d.ext with
      | .pub _ _ _ _ (some y) _ => some y.2.text
      | .sys _ _ _ y _ => some y.text
      | _ => none }

/-! ### Elements that hold text only -/

/-- A part of the text of such an element: a character, or (in `title` and `textarea`) a
reference. -/
inductive Bit
  | ch (c : Char)
  | ref (p : Piece)

def Bit.src : Bit → Str
  | ch c => [c]
  | ref p => p.src

def Bit.means : Bit → Str
  | ch c => [c]
  | ref p => p.means

def Bit.Ok (k : Content) : Bit → Prop
  | ch c => c ≠ '\x00' ∧ (k = .rcdata → c ≠ '&')
  | ref p => k = .rcdata ∧ p.Ok .title

def bitSrcs (bs : List Bit) : Str := bs.flatMap Bit.src
def bitMeanings (bs : List Bit) : Str := bs.flatMap Bit.means

/-- The end tag of the element occurs in the text. -/
def Closes (name x : Str) : Prop :=
  ∃ a n c b, x = a ++ '<' :: '/' :: (n ++ c :: b) ∧ lower n = lower name ∧
    (Space c ∨ c = '/' ∨ c = '>')

/-- The text of an element that holds text only: its end tag does not occur in it, nor does the
beginning of a comment in a script. -/
structure RawText (k : Content) (name : Str) (bs : List Bit) : Prop where
  kind : k ≠ .plaintext
  bits : ∀ b ∈ bs, b.Ok k
  stays : ¬ Closes name (bitSrcs bs)
  escape : k = .scriptData → ∀ a b, bitSrcs bs ≠ a ++ ['<', '!', '-', '-'] ++ b

def Letters (n : Str) : Prop := n ≠ [] ∧ ∀ c ∈ n, Upper c ∨ Lower c

/-! ### Documents -/

/-- What a tag holds: the name, the attributes, white space, and whether it ends in `/>`. -/
structure TagSrc where
  name : Str
  attrs : List AttrSrc
  tail : Str
  self : Bool

def TagSrc.src (t : TagSrc) : Str :=
  t.name ++ (t.attrs.flatMap AttrSrc.src ++ (t.tail ++ closing t.self))

structure TagSrc.Ok (t : TagSrc) : Prop where
  name : Named t.name
  attrs : Attrs.Ok t.attrs t.tail t.self

def TagSrc.means (k : Kind) (t : TagSrc) : Token :=
  { kind := k
    name := some (lower t.name)
    attrs := (t.attrs.map AttrSrc.means).foldl addAttr []
    selfClosing := t.self }

/-- A part of a document: text, a start tag, an end tag, a comment, a document type, or a whole
element that holds text only. -/
inductive Item
  | text (p : Piece)
  | opens (t : TagSrc)
  | closes (t : TagSrc)
  | comment (d : Str)
  | doctype (d : Doctype)
  | raw (k : Content) (t : TagSrc) (bs : List Bit) (e : TagSrc)

def Item.src : Item → Str
  | text p => p.src
  | opens t => '<' :: t.src
  | closes t => '<' :: '/' :: t.src
  | comment d => '<' :: '!' :: '-' :: '-' :: (d ++ ['-', '-', '>'])
  | doctype d => d.src
  | raw _ t bs e => '<' :: t.src ++ (bitSrcs bs ++ '<' :: '/' :: e.src)

def Item.Ok : Item → Prop
  | text p => p.Ok .text
  | opens t | closes t => t.Ok
  | comment d => CommentText d
  | doctype d => d.Ok
  | raw k t bs e => t.Ok ∧ RawText k t.name bs ∧ e.Ok ∧ Letters t.name ∧
      lower e.name = lower t.name

def Item.means : Item → List Token
  | text p => p.means.map char
  | opens t => [t.means .startTag]
  | closes t => [t.means .endTag]
  | comment d => [{ kind := .comment, data := d }]
  | doctype d => [d.means]
  | raw _ t bs e => t.means .startTag :: ((bitMeanings bs).map char ++ [e.means .endTag])

def itemSrcs (is : List Item) : Str := is.flatMap Item.src
def itemMeanings (is : List Item) : List Token := is.flatMap Item.means

/-- The tree builder takes the elements for what they are in the grammar: it asks for text after
the start tags of the elements that hold text only, and for nothing after the others. -/
def Agrees (sink : List Token → Option Content) : List Token → List Item → Prop
  | _, [] => True
  | before, .opens t :: is =>
    sink (before ++ [t.means .startTag]) = none ∧ Agrees sink (before ++ [t.means .startTag]) is
  | before, .raw k t bs e :: is =>
    sink (before ++ [t.means .startTag]) = some k ∧
      Agrees sink (before ++ (Item.raw k t bs e).means) is
  | before, i :: is => Agrees sink (before ++ i.means) is

end Verif.Html.Spec
