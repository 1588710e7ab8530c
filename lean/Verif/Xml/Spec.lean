import Verif.Xml.Model

/-!
# What an XML text denotes

A grammar, written without any function of the parser: it uses only the types of names and
trees. Every production carries a mode.

* `strict` is the grammar of XML 1.0 with namespaces, except that no white space may stand
  around the `=` of an attribute and that texts on which XML asks for a normalisation
  (carriage returns, tabs and line feeds in attribute values) are left out.
* `clean` is looser: any rune may stand where a character may, attribute values may
  contain `<`, attributes may be repeated, the last one counting, a local name need not
  begin with a letter, and namespaces may be empty texts.
* `loose` is looser still: attributes need no white space between them, attribute values
  may contain a bare `&`, and the target of a processing instruction need not end at a
  space.

In all of them every start tag is closed by an end tag of the same resolved name.
-/
namespace Verif.Xml.Spec

inductive Mode where
  | strict
  | clean
  | loose
deriving DecidableEq

/-! ## Characters -/

/-- The production `Char`. -/
def Char (r : Rune) : Prop :=
  r = 0x9 ∨ r = 0xA ∨ r = 0xD ∨ (0x20 ≤ r ∧ r ≤ 0xD7FF) ∨ (0xE000 ≤ r ∧ r ≤ 0xFFFD) ∨
  (0x10000 ≤ r ∧ r ≤ 0x10FFFF)

/-- The production `S`, one character. -/
def Space (r : Rune) : Prop := r = 0x20 ∨ r = 0x9 ∨ r = 0xD ∨ r = 0xA

/-- `NameStartChar` without `:`. -/
def NameStart (r : Rune) : Prop :=
  (0x41 ≤ r ∧ r ≤ 0x5A) ∨ r = 0x5F ∨ (0x61 ≤ r ∧ r ≤ 0x7A) ∨ (0xC0 ≤ r ∧ r ≤ 0xD6) ∨
  (0xD8 ≤ r ∧ r ≤ 0xF6) ∨ (0xF8 ≤ r ∧ r ≤ 0x2FF) ∨ (0x370 ≤ r ∧ r ≤ 0x37D) ∨ (0x37F ≤ r ∧ r ≤ 0x1FFF) ∨
  (0x200C ≤ r ∧ r ≤ 0x200D) ∨ (0x2070 ≤ r ∧ r ≤ 0x218F) ∨ (0x2C00 ≤ r ∧ r ≤ 0x2FEF) ∨
  (0x3001 ≤ r ∧ r ≤ 0xD7FF) ∨ (0xF900 ≤ r ∧ r ≤ 0xFDCF) ∨ (0xFDF0 ≤ r ∧ r ≤ 0xFFFD) ∨
  (0x10000 ≤ r ∧ r ≤ 0xEFFFF)

/-- `NameChar` without `:`. -/
def NamePart (r : Rune) : Prop :=
  NameStart r ∨ r = 0x2D ∨ r = 0x2E ∨ (0x30 ≤ r ∧ r ≤ 0x39) ∨ r = 0xB7 ∨ (0x300 ≤ r ∧ r ≤ 0x36F) ∨
  (0x203F ≤ r ∧ r ≤ 0x2040)

/-- `NCName`. -/
def NCName (t : Text) : Prop := (∃ c cs, t = c :: cs ∧ NameStart c) ∧ ∀ r ∈ t, NamePart r

/-- `Name`: colons are allowed. -/
def AnyName (t : Text) : Prop :=
  (∃ c cs, t = c :: cs ∧ (NameStart c ∨ c = 0x3A)) ∧ ∀ r ∈ t, NamePart r ∨ r = 0x3A

/-- A qualified name and its parts. -/
inductive NameText (m : Mode) : Text → Name → Prop
  | plain {l} : NCName l → NameText m l ⟨none, l⟩
  | prefixed {p l} : NCName p → l ≠ [] → (∀ r ∈ l, NamePart r) → (m = .strict → NCName l) →
      NameText m (p ++ 0x3A :: l) ⟨some p, l⟩

def Spaces (t : Text) : Prop := ∀ r ∈ t, Space r

/-! ## References -/

/-- `c` is the digit `d` in this base. -/
def Digit (base : Nat) (c : Rune) (d : Nat) : Prop :=
  d < base ∧ ((d < 10 ∧ c = 0x30 + d) ∨ (10 ≤ d ∧ d < 16 ∧ (c = 0x41 + (d - 10) ∨ c = 0x61 + (d - 10))))

/-- The digits denote the number. -/
inductive Numeral (base : Nat) : Text → Nat → Prop
  | one {c d} : Digit base c d → Numeral base [c] d
  | more {ds n c d} : Numeral base ds n → Digit base c d → Numeral base (ds ++ [c]) (n * base + d)

/-- The entities known. -/
def entities : List (String × Rune) :=
  [("lt", 0x3C), ("gt", 0x3E), ("amp", 0x26), ("apos", 0x27), ("quot", 0x22), ("nbsp", 0xA0)]

inductive RefText (m : Mode) : Text → Rune → Prop
  | dec {ds n} : Numeral 10 ds n → (m = .strict → Char n) → RefText m (u "&#" ++ ds ++ u ";") n
  | hex {ds n} : Numeral 16 ds n → (m = .strict → Char n) → RefText m (u "&#x" ++ ds ++ u ";") n
  | entity {e r} : (e, r) ∈ entities → RefText m (u "&" ++ u e ++ u ";") r

/-! ## Text -/

/-- `mark` does not occur in `t`. -/
def Without (mark t : Text) : Prop := ∀ a b, t ≠ a ++ mark ++ b

/-- Character data, references and CDATA sections, and the text they denote. -/
inductive CharText (m : Mode) : Text → Text → Prop
  | nil : CharText m [] []
  | plain {r src t} : r ≠ 0x3C → r ≠ 0x26 → (∀ more, r :: src ≠ u "]]>" ++ more) →
      (m = .strict → Char r ∧ r ≠ 0xD) → CharText m src t → CharText m (r :: src) (r :: t)
  | ref {ref r src t} : RefText m ref r → CharText m src t →
      CharText m (ref ++ src) (r :: t)
  | cdata {d src t} : Without (u "]]>") d → (m = .strict → ∀ r ∈ d, Char r ∧ r ≠ 0xD) →
      CharText m src t → CharText m (u "<![CDATA[" ++ d ++ u "]]>" ++ src) (d ++ t)

/-- The inside of an attribute value between the quotes `q`. -/
inductive ValueText (m : Mode) (q : Rune) : Text → Text → Prop
  | nil : ValueText m q [] []
  | plain {r src v} : r ≠ q → (m ≠ .loose → r ≠ 0x26) →
      (m = .strict → r ≠ 0x3C ∧ Char r ∧ r ≠ 0x9 ∧ r ≠ 0xA ∧ r ≠ 0xD) →
      ValueText m q src v → ValueText m q (r :: src) (r :: v)
  | ref {ref r src v} : RefText m ref r → ValueText m q src v →
      ValueText m q (ref ++ src) (r :: v)

/-- Attributes as written: names and values, in order. -/
abbrev Written := List (Name × Text)

/-- The text between the name of a tag and its end. -/
inductive AttrsText (m : Mode) : Text → Written → Prop
  | nil {w} : Spaces w → AttrsText m w []
  | cons {w name n q src v rest as} :
      Spaces w → (m ≠ .loose → w ≠ []) → NameText m name n → (q = 0x22 ∨ q = 0x27) →
      ValueText m q src v → AttrsText m rest as →
      AttrsText m (w ++ name ++ u "=" ++ [q] ++ src ++ [q] ++ rest) ((n, v) :: as)

/-! ## Namespaces -/

/-- The tags around a place, innermost first, and the default namespace outside them. -/
structure Scope where
  outer : Option Text
  tags : List Written

/-- The last value written for a name in a tag. -/
def lastOf (as : Written) (n : Name) : Option Text := (as.reverse.find? fun a => a.1 = n).map Prod.snd

/-- The namespace of a prefix: that of the closest tag that declares it, `xml` and `xmlns`
    being fixed. -/
def prefixNs (sc : Scope) (p : Text) : Option Text :=
  if p = u "xml" then some (u "http://www.w3.org/XML/1998/namespace")
  else if p = u "xmlns" then some (u "http://www.w3.org/2000/xmlns/")
  else sc.tags.findSome? fun as => lastOf as ⟨some (u "xmlns"), p⟩

/-- The default namespace: that of the closest tag that declares one. -/
def defaultNs (sc : Scope) : Option Text :=
  (sc.tags.findSome? fun as => lastOf as ⟨none, u "xmlns"⟩).or sc.outer

/-- The name of an element. -/
inductive ElementName (sc : Scope) : Name → QName → Prop
  | plain {l} : ElementName sc ⟨none, l⟩ ⟨defaultNs sc, l⟩
  | prefixed {p l ns} : prefixNs sc p = some ns → ElementName sc ⟨some p, l⟩ ⟨some ns, l⟩

/-- The name of an attribute. -/
inductive AttrName (sc : Scope) : Name → QName → Prop
  | plain {l} : AttrName sc ⟨none, l⟩ ⟨none, l⟩
  | prefixed {p l ns} : prefixNs sc p = some ns → AttrName sc ⟨some p, l⟩ ⟨some ns, l⟩

/-- The attributes of a tag with their names resolved, in order. -/
inductive AttrNames (sc : Scope) : Written → Attrs → Prop
  | nil : AttrNames sc [] []
  | cons {n q v as bs} : AttrName sc n q → AttrNames sc as bs → AttrNames sc ((n, v) :: as) ((q, v) :: bs)

/-- The attributes an element gets: each name once, at its first place, with its last value. -/
def lastWins (as : Attrs) : Attrs :=
  ((as.map Prod.fst).foldl (fun seen q => if q ∈ seen then seen else seen ++ [q]) []).map fun q =>
    (q, ((as.reverse.find? fun a => a.1 = q).map Prod.snd).getD [])

/-- A tag declares a namespace as the empty text. -/
def EmptyNs (as : Written) : Prop :=
  ∃ n, (n, []) ∈ as ∧ (n = ⟨none, u "xmlns"⟩ ∨ n.pre = some (u "xmlns"))

/-! ## Elements -/

/-- A text node, unless the text is empty. -/
def some_ (t : Text) : List Node := match t with
  | [] => []
  | r :: t => [.text (r :: t)]

inductive CommentText : Text → Text → Prop
  | mk {d} : Without (u "-->") d → (∀ r ∈ d, Char r) → CommentText (u "<!--" ++ d ++ u "-->") d

/-- A processing instruction; it denotes nothing. -/
inductive PiText (m : Mode) : Text → Prop
  | mk {n d} : AnyName n → (∀ a b c, n = [a, b, c] →
        ¬ ((a = 0x78 ∨ a = 0x58) ∧ (b = 0x6D ∨ b = 0x4D) ∧ (c = 0x6C ∨ c = 0x4C))) →
      Without (u "?>") d → (∀ r ∈ d, Char r) → (m ≠ .loose → d = [] ∨ ∃ c cs, d = c :: cs ∧ Space c) →
      PiText m (u "<?" ++ n ++ d ++ u "?>")

/-- The name and the attributes of a tag, up to its end, in the scope `sc` that the tag
    itself is part of. -/
inductive TagText (m : Mode) (sc : Scope) (as : Written) : Text → QName → Attrs → Prop
  | mk {name n q src bs} : NameText m name n → AttrsText m src as →
      (m = .strict → ¬ EmptyNs as) → ElementName sc n q → AttrNames sc as bs →
      (m = .strict → (bs.map Prod.fst).Nodup) →
      TagText m sc as (u "<" ++ name ++ src) q (lastWins bs)

mutual
/-- An element. -/
inductive ElementText (m : Mode) : Scope → Text → Node → Prop
  | empty {sc as src q bs} : TagText m ⟨sc.outer, as :: sc.tags⟩ as src q bs →
      ElementText m sc (src ++ u "/>") (.element q bs [])
  | full {sc as src q bs body kids name n w} :
      TagText m ⟨sc.outer, as :: sc.tags⟩ as src q bs →
      ContentText m ⟨sc.outer, as :: sc.tags⟩ body kids →
      NameText m name n → ElementName ⟨sc.outer, as :: sc.tags⟩ n q → Spaces w →
      ElementText m sc (src ++ u ">" ++ body ++ u "</" ++ name ++ w ++ u ">") (.element q bs kids)

/-- What stands between a start tag and its end tag. -/
inductive ContentText (m : Mode) : Scope → Text → List Node → Prop
  | last {sc src t} : CharText m src t → ContentText m sc src (some_ t)
  | item {sc src t isrc ns more ks} : CharText m src t → ItemText m sc isrc ns →
      ContentText m sc more ks → ContentText m sc (src ++ isrc ++ more) (some_ t ++ ns ++ ks)

inductive ItemText (m : Mode) : Scope → Text → List Node → Prop
  | element {sc src n} : ElementText m sc src n → ItemText m sc src [n]
  | comment {sc src d} : CommentText src d → ItemText m sc src [.comment d]
  | pi {sc src} : PiText m src → ItemText m sc src []
end

/-- A text that begins like an element but has a fault: an end tag that does not match its
    start tag, or a start tag that nothing closes, at any depth. -/
inductive Broken (m : Mode) : Scope → Text → Prop
  /-- The end tag has another name; anything may follow. -/
  | mismatch {sc as src q bs body kids name n w rest} :
      TagText m ⟨sc.outer, as :: sc.tags⟩ as src q bs →
      ContentText m ⟨sc.outer, as :: sc.tags⟩ body kids →
      NameText m name n → ¬ ElementName ⟨sc.outer, as :: sc.tags⟩ n q → Spaces w →
      Broken m sc (src ++ u ">" ++ body ++ u "</" ++ name ++ w ++ u ">" ++ rest)
  /-- The text ends before the end tag. -/
  | unclosed {sc as src q bs body kids} :
      TagText m ⟨sc.outer, as :: sc.tags⟩ as src q bs →
      ContentText m ⟨sc.outer, as :: sc.tags⟩ body kids → Broken m sc (src ++ u ">" ++ body)
  /-- The fault is in a child. -/
  | inside {sc as src q bs body kids child} :
      TagText m ⟨sc.outer, as :: sc.tags⟩ as src q bs →
      ContentText m ⟨sc.outer, as :: sc.tags⟩ body kids →
      Broken m ⟨sc.outer, as :: sc.tags⟩ child → Broken m sc (src ++ u ">" ++ body ++ child)

/-! ## Documents -/

/-- `Misc*`. -/
inductive MiscText (m : Mode) : Text → List Node → Prop
  | nil : MiscText m [] []
  | space {c src ns} : Space c → MiscText m src ns → MiscText m (c :: src) ns
  | comment {c d src ns} : CommentText c d → MiscText m src ns →
      MiscText m (c ++ src) (.comment d :: ns)
  | pi {p src ns} : PiText m p → MiscText m src ns → MiscText m (p ++ src) ns

/-- `VersionNum`, `EncName`, `yes` or `no`. -/
def Version (t : Text) : Prop := ∃ ds, ds ≠ [] ∧ (∀ r ∈ ds, 0x30 ≤ r ∧ r ≤ 0x39) ∧ t = u "1." ++ ds

def Letter (r : Rune) : Prop := (0x41 ≤ r ∧ r ≤ 0x5A) ∨ (0x61 ≤ r ∧ r ≤ 0x7A)

def Encoding (t : Text) : Prop :=
  ∃ c cs, t = c :: cs ∧ Letter c ∧
    ∀ r ∈ cs, Letter r ∨ (0x30 ≤ r ∧ r ≤ 0x39) ∨ r = 0x2E ∨ r = 0x5F ∨ r = 0x2D

def Standalone (t : Text) : Prop := t = u "yes" ∨ t = u "no"

/-- ` name = "value"` in the XML declaration. -/
inductive DeclAttr (m : Mode) (name : String) (value : Text → Prop) : Text → Text → Prop
  | mk {w₁ w₂ w₃ q v} : Spaces w₁ → (m ≠ .loose → w₁ ≠ []) → Spaces w₂ → Spaces w₃ →
      (q = 0x22 ∨ q = 0x27) → value v →
      DeclAttr m name value (w₁ ++ u name ++ w₂ ++ u "=" ++ w₃ ++ [q] ++ v ++ [q]) v

/-- A part that may be missing. -/
inductive Opt (P : Text → Text → Prop) : Text → Option Text → Prop
  | no : Opt P [] none
  | yes {src v} : P src v → Opt P src (some v)

/-- `XMLDecl?`. -/
inductive DeclText (m : Mode) : Text → Decl → Prop
  | none : DeclText m [] {}
  | some {sv v se e ss s w} : DeclAttr m "version" Version sv v →
      Opt (DeclAttr m "encoding" Encoding) se e → Opt (DeclAttr m "standalone" Standalone) ss s →
      Spaces w → DeclText m (u "<?xml" ++ sv ++ se ++ ss ++ w ++ u "?>") ⟨some v, e, s⟩

/-- A quoted identifier of a document type. -/
inductive Quoted : Text → Text → Prop
  | mk {q v} : (q = 0x22 ∨ q = 0x27) → q ∉ v → 0x26 ∉ v → Quoted ([q] ++ v ++ [q]) v

/-- `ExternalID?`, with the white space before it. -/
inductive ExternalText : Text → Text → Text → Prop
  | none : ExternalText [] [] []
  | system {w₁ w₂ s v} : Spaces w₁ → w₁ ≠ [] → Spaces w₂ → w₂ ≠ [] → Quoted s v →
      ExternalText (w₁ ++ u "SYSTEM" ++ w₂ ++ s) [] v
  | pub {w₁ w₂ w₃ s v s' p} : Spaces w₁ → w₁ ≠ [] → Spaces w₂ → w₂ ≠ [] → Spaces w₃ → w₃ ≠ [] →
      Quoted s' p → Quoted s v → ExternalText (w₁ ++ u "PUBLIC" ++ w₂ ++ s' ++ w₃ ++ s) p v

/-- `doctypedecl` without an internal subset. -/
inductive DoctypeText : Text → Node → Prop
  | mk {w₁ n x p v w₂} : Spaces w₁ → w₁ ≠ [] → AnyName n → ExternalText x p v → Spaces w₂ →
      DoctypeText (u "<!DOCTYPE" ++ w₁ ++ n ++ x ++ w₂ ++ u ">") (.doctype n p v)

/-- `(doctypedecl Misc*)?`. -/
inductive DoctypePart (m : Mode) : Text → List Node → Prop
  | none : DoctypePart m [] []
  | some {src d more ns} : DoctypeText src d → MiscText m more ns →
      DoctypePart m (src ++ more) (d :: ns)

/-- `document`; `ns` is the default namespace the reader starts from. -/
inductive DocumentText (m : Mode) (ns : Option Text) : Text → Doc → Prop
  | mk {ds d bs b ts t es e as a} : DeclText m ds d → MiscText m bs b → DoctypePart m ts t →
      ElementText m ⟨ns, []⟩ es e → MiscText m as a →
      DocumentText m ns (ds ++ bs ++ ts ++ es ++ as) ⟨d, b ++ t ++ [e] ++ a⟩

/-! ## Trees that can be written and read again -/

/-- HTML elements that are written without an end tag. -/
def voidElements : List String :=
  ["area", "base", "basefont", "bgsound", "br", "col", "embed", "frame", "hr", "img", "input", "keygen", "link",
   "meta", "param", "source", "track", "wbr"]

/-- HTML elements whose text is written as it is. -/
def rawElements : List String :=
  ["style", "script", "xmp", "iframe", "noembed", "noframes", "plaintext", "noscript"]

/-- The namespaces whose elements are written without a prefix. -/
def bareNs : List (Option Text) :=
  [none, some (u "http://www.w3.org/1999/xhtml"), some (u "http://www.w3.org/2000/svg"),
   some (u "http://www.w3.org/1998/Math/MathML")]

/-- The default namespace inside an element with these attributes. -/
def innerNs (d : Option Text) (as : Attrs) : Option Text :=
  ((as.find? fun a => a.1 = ⟨none, u "xmlns"⟩).map Prod.snd).or d

/-- The attributes are in no namespace, have distinct names, and `is` comes first. -/
def PlainAttrs (as : Attrs) : Prop :=
  (∀ a ∈ as, a.1.ns = none ∧ NCName a.1.localName) ∧ (as.map Prod.fst).Nodup ∧
  ∀ a bs, as = a :: bs → ∀ b ∈ bs, b.1 ≠ ⟨none, u "is"⟩

mutual
/-- A tree whose names need no prefix where the default namespace is `d`, without void or
    raw text elements. -/
def Writable (d : Option Text) : Node → Prop
  | .element q as kids =>
    NCName q.localName ∧ q.ns = innerNs d as ∧ q.ns ∈ bareNs ∧ PlainAttrs as ∧
    (q.ns = some (u "http://www.w3.org/1999/xhtml") →
      ∀ e ∈ voidElements ++ rawElements, q.localName ≠ u e) ∧
    WritableKids (innerNs d as) false kids
  | .comment c => Without (u "-->") c ∧ ∀ r ∈ c, Char r
  | .text _ => False
  | .doctype .. => False

/-- Children, no text among them being empty or following another; `after` says whether
    they follow a text. -/
def WritableKids (d : Option Text) (after : Bool) : List Node → Prop
  | [] => True
  | .text t :: ns => after = false ∧ t ≠ [] ∧ WritableKids d true ns
  | n :: ns => Writable d n ∧ WritableKids d false ns
end

end Verif.Xml.Spec
