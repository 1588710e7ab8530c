/-!
# The XML parser and the escaping of text: model

Models `/repo/src/vaev-engine/xml/parser.cpp` and `escapeString` of
`/repo/src/vaev-engine/dom/serialisation.cpp`.

* A rune is a number, a text is a list of runes; the scanner `Io::SScan` is the text not
  read yet. `rollbackPoint` is then implicit: on an error the caller goes on with its own
  text.
* `s.match(re) != Match::NO` is taken as "the text starts with", also where the code
  accepts a partial match at the end of the text; either way an error follows.
* `Io::atoi` (Karm, not in the repository) reads the longest run of digits of its base and
  fails on none; overflow is not modelled.
* `Symbol`s are texts.
* Loops and recursion take fuel; `R.out` is running out of it.
-/
namespace Verif.Xml

/-- A code point. -/
scoped notation "Rune" => Nat
abbrev Text := List Rune

/-- The runes of a literal. -/
def u (s : String) : Text := s.toList.map Char.toNat

/-- The outcome of a parsing function: a value and the rest, an error, or out of fuel. -/
inductive R (α : Type) where
  | ok (a : α) (rest : Text)
  | err
  | out
deriving DecidableEq, Repr

/-- `SScan::skip` of a fixed text. -/
def skip (p s : Text) : Option Text := if p.isPrefixOf s then some (s.drop p.length) else none

/-! ## Characters and names -/

/-- `RE_CHAR`, parser.cpp lines 96–98. -/
def isChar (r : Rune) : Bool :=
  r == 0x09 || r == 0x0A || r == 0x0D || (0x20 ≤ r && r ≤ 0xD7FF) || (0xE000 ≤ r && r ≤ 0xFFFD) ||
  (0x10000 ≤ r && r ≤ 0x10FFFF)

/-- `RE_S`, parser.cpp lines 103–104. -/
def isS (r : Rune) : Bool := r == 32 || r == 9 || r == 13 || r == 10

/-- `_isNameStartChar`, parser.cpp lines 106–131. -/
def nameStartRanges : List (Rune × Rune) :=
  [(58, 58), (65, 90), (95, 95), (97, 122), (0xC0, 0xD6), (0xD8, 0xF6), (0xF8, 0x2FF), (0x370, 0x37D),
   (0x37F, 0x1FFF), (0x200C, 0x200D), (0x2070, 0x218F), (0x2C00, 0x2FEF), (0x3001, 0xD7FF), (0xF900, 0xFDCF),
   (0xFDF0, 0xFFFD), (0x10000, 0xEFFFF)]

/-- The range loops, parser.cpp lines 126–130 and 145–149. -/
def within (ranges : List (Rune × Rune)) (r : Rune) : Bool := ranges.any fun p => p.1 ≤ r && r ≤ p.2

def isNameStart (r : Rune) : Bool := within nameStartRanges r

/-- `RE_NAME_CHAR` with `_isNameChar`, parser.cpp lines 135–152. -/
def isNameChar (r : Rune) : Bool :=
  isNameStart r ||
  within [(45, 45), (46, 46), (48, 57), (0xB7, 0xB7), (0x300, 0x36F), (0x203F, 0x2040)] r

/-- `_parseS`, parser.cpp lines 186–192; it never fails. -/
def parseS (s : Text) : Text := s.dropWhile isS

/-- `_parseName`, parser.cpp lines 194–201 with `RE_NAME`, line 154. -/
def parseName (s : Text) : Option (Text × Text) :=
  match s with
  | [] => none
  | c :: cs => if isNameStart c then some (c :: cs.takeWhile isNameChar, cs.dropWhile isNameChar) else none

/-- `UnresolvedQualifiedName`, parser.cpp lines 19–22. -/
structure Name where
  pre : Option Text
  localName : Text
deriving DecidableEq, Repr

/-- `_parseQualifiedName(Str)`, parser.cpp lines 156–180: the positions of `:` are looked
    for in turn. -/
def splitName (name : Text) : Option Name :=
  match name.idxOf? 58 with
  | none => some ⟨none, name⟩
  | some i =>
    if (name.drop (i + 1)).contains 58 then none
    else if i = 0 ∨ i + 1 = name.length then none
    else some ⟨some (name.take i), name.drop (i + 1)⟩

/-- `_parseQualifiedName(SScan)`, parser.cpp lines 182–184. -/
def parseQName (s : Text) : Option (Name × Text) :=
  match parseName s with
  | none => none
  | some (n, rest) => (splitName n).map fun q => (q, rest)

/-! ## Character data -/

/-- The loop of `_parseCharData`, parser.cpp lines 213–219. -/
def charData : Text → Text × Text
  | [] => ([], [])
  | c :: cs =>
    if c ≠ 60 ∧ c ≠ 38 ∧ ¬ (u "]]>").isPrefixOf (c :: cs) then
      let r := charData cs
      (c :: r.1, r.2)
    else ([], c :: cs)

/-- `_parseCharData`, parser.cpp lines 208–225. -/
def parseCharData (s : Text) : Option (Text × Text) :=
  let r := charData s
  if r.1.isEmpty then none else some r

/-- Reading up to an end mark, as in parser.cpp lines 241–249 (comments), 270–277
    (processing instructions) and 305–309 (CDATA). `ok` is what a rune must satisfy. -/
def until_ (mark : Text) (ok : Rune → Bool) : Text → Option (Text × Text)
  | [] => (skip mark []).map fun rest => ([], rest)
  | c :: cs =>
    match skip mark (c :: cs) with
    | some rest => some ([], rest)
    | none => if ok c then (until_ mark ok cs).map fun r => (c :: r.1, r.2) else none

/-- `_parseComment`, parser.cpp lines 232–253. -/
def parseComment (s : Text) : Option (Text × Text) :=
  match skip (u "<!--") s with
  | none => none
  | some s => until_ (u "-->") isChar s

/-- Lower case of an ASCII letter, for `eqCi` (Karm). -/
def lower (r : Rune) : Rune := if 65 ≤ r ∧ r ≤ 90 then r + 32 else r

/-- `_parsePi` and `_parsePiTarget`, parser.cpp lines 261–290. -/
def parsePi (s : Text) : Option (Unit × Text) :=
  match skip (u "<?") s with
  | none => none
  | some s =>
    match parseName s with
    | none => none
    | some (name, s) =>
      if name.map lower = u "xml" then none
      else (until_ (u "?>") isChar s).map fun r => ((), r.2)

/-- `_parseCDSect`, parser.cpp lines 295–313. What it appends before failing is left out:
    a failure there makes the whole document fail. -/
def parseCDSect (s : Text) : Option (Text × Text) :=
  match skip (u "<![CDATA[") s with
  | none => none
  | some s => until_ (u "]]>") (fun _ => true) s

/-! ## References -/

/-- The value of a digit, for `Io::atoi`. -/
def digit (base : Nat) (r : Rune) : Option Nat :=
  let v := if 48 ≤ r ∧ r ≤ 57 then some (r - 48)
    else if 97 ≤ r ∧ r ≤ 102 then some (r - 87)
    else if 65 ≤ r ∧ r ≤ 70 then some (r - 55)
    else none
  v.filter (· < base)

/-- `Io::atoi`. -/
def atoi (base : Nat) (s : Text) : Option (Nat × Text) :=
  let ds := s.takeWhile fun r => (digit base r).isSome
  if ds.isEmpty then none
  else some (ds.foldl (fun a r => a * base + (digit base r).getD 0) 0, s.drop ds.length)

/-- `_parseCharRef`, parser.cpp lines 650–677. -/
def parseCharRef (s : Text) : Option (Rune × Text) :=
  match skip (u "&#") s with
  | none => none
  | some s =>
    let v := match skip (u "x") s with
      | some s => atoi 16 s
      | none => atoi 10 s
    match v with
    | none => none
    | some (n, s) => (skip (u ";") s).map fun s => (n, s)

/-- `_parseEntityRef`, parser.cpp lines 679–710. -/
def parseEntityRef (s : Text) : Option (Rune × Text) :=
  match skip (u "&") s with
  | none => none
  | some s =>
    match parseName s with
    | none => none
    | some (name, s) =>
      match skip (u ";") s with
      | none => none
      | some s =>
        if name = u "lt" then some (60, s)
        else if name = u "gt" then some (62, s)
        else if name = u "amp" then some (38, s)
        else if name = u "apos" then some (39, s)
        else if name = u "quot" then some (34, s)
        else if name = u "nbsp" then some (160, s)
        else none

/-- `_parseReference`, parser.cpp lines 712–721. -/
def parseReference (s : Text) : Option (Rune × Text) :=
  match parseCharRef s with
  | some r => some r
  | none => parseEntityRef s

/-- `_parseTextItem`, parser.cpp lines 601–612. -/
def parseTextItem (s : Text) : Option (Text × Text) :=
  match parseCharData s with
  | some r => some r
  | none =>
    match parseCDSect s with
    | some r => some r
    | none => (parseReference s).map fun r => ([r.1], r.2)

/-- The loop of `_parseText`, parser.cpp lines 614–624. -/
def textLoop : Nat → Text → Text → R Text
  | 0, _, _ => .out
  | fuel + 1, s, sb =>
    match parseTextItem s with
    | some (t, s) => textLoop fuel s (sb ++ t)
    | none => .ok sb s

/-! ## Namespaces -/

/-- `Dom::QualifiedName`. -/
structure QName where
  ns : Option Text
  localName : Text
deriving DecidableEq, Repr

def xmlNs : Text := u "http://www.w3.org/XML/1998/namespace"
def xmlnsNs : Text := u "http://www.w3.org/2000/xmlns/"

/-- `NamespaceContext`, parser.cpp lines 28–30; the map is a list of its entries. -/
structure Context where
  default_ : Option Text
  prefixes : List (Text × Text)
deriving DecidableEq, Repr

/-- `Map::lookup`. -/
def Context.lookup (c : Context) (p : Text) : Option Text :=
  (c.prefixes.find? fun kv => kv.1 = p).map Prod.snd

/-- `NamespaceContext::make`, parser.cpp lines 32–38. -/
def Context.make (default_ : Option Text) : Context :=
  ⟨default_, [(u "xml", xmlNs), (u "xmlns", xmlnsNs)]⟩

/-- `resolveElementName`, parser.cpp lines 40–49. -/
def Context.element (c : Context) (n : Name) : Option QName :=
  match n.pre with
  | none => some ⟨c.default_, n.localName⟩
  | some p => (c.lookup p).map fun ns => ⟨some ns, n.localName⟩

/-- `resolveAttributeName`, parser.cpp lines 51–60. -/
def Context.attribute (c : Context) (n : Name) : Option QName :=
  match n.pre with
  | none => some ⟨none, n.localName⟩
  | some p => (c.lookup p).map fun ns => ⟨some ns, n.localName⟩

/-- `declarePrefix`, parser.cpp lines 62–70, as called at line 771, with a namespace. -/
def Context.declare (c : Context) (p ns : Text) : Context :=
  if p = u "xml" ∨ p = u "xmlns" then c
  else { c with prefixes := (p, ns) :: c.prefixes.filter (fun kv => kv.1 ≠ p) }

/-! ## Attributes -/

/-- The loop of `_parseAttValue`, parser.cpp lines 537–547. -/
def attValueLoop (quote : Rune) : Nat → Text → Text → R Text
  | 0, _, _ => .out
  | fuel + 1, s, sb =>
    match s with
    | [] => .err
    | c :: cs =>
      if c = quote then .ok sb cs
      else
        match parseReference (c :: cs) with
        | some (r, s) => attValueLoop quote fuel s (sb ++ [r])
        | none => attValueLoop quote fuel cs (sb ++ [c])

/-- `_parseAttValue`, parser.cpp lines 525–552. -/
def parseAttValue (fuel : Nat) (s : Text) : R Text :=
  match s with
  | [] => .err
  | q :: cs => if q ≠ 34 ∧ q ≠ 39 then .err else attValueLoop q fuel cs []

/-- A name, `=` and a value: parser.cpp lines 510–515 and 761–766. -/
def parseNameValue (fuel : Nat) (s : Text) : R (Name × Text) :=
  match parseQName s with
  | none => .err
  | some (n, s) =>
    match skip (u "=") s with
    | none => .err
    | some s =>
      match parseAttValue fuel s with
      | .ok v s => .ok (n, v) s
      | .err => .err
      | .out => .out

/-- What the namespace context becomes at one attribute, parser.cpp lines 768–771. -/
def Context.see (c : Context) (n : Name) (value : Text) : Context :=
  if n.pre = none ∧ n.localName = u "xmlns" then { c with default_ := some value }
  else if n.pre = some (u "xmlns") then c.declare n.localName value
  else c

/-- `_parseNamespaceContext`, parser.cpp lines 755–777; the position is restored after it. -/
def parseNs : Nat → Context → Text → R Context
  | 0, _, _ => .out
  | fuel + 1, c, s =>
    if (u ">").isPrefixOf s ∨ (u "/>").isPrefixOf s ∨ s = [] then .ok c s
    else
      match parseNameValue fuel s with
      | .ok (n, v) s => parseNs fuel (c.see n v) (parseS s)
      | .err => .err
      | .out => .out

/-- The attributes of an element; `setAttribute` (dom/element.cpp lines 117–127) replaces
    the value of an attribute already there. -/
abbrev Attrs := List (QName × Text)

def setAttribute (as : Attrs) (n : QName) (v : Text) : Attrs :=
  if as.any (·.1 = n) then as.map fun a => if a.1 = n then (n, v) else a else as ++ [(n, v)]

/-- The loops over attributes, parser.cpp lines 496–499 and 638–641, with
    `_parseAttribute`, lines 505–523; `close` is `>` or `/>`. -/
def attrsLoop (close : Text) (c : Context) : Nat → Attrs → Text → R Attrs
  | 0, _, _ => .out
  | fuel + 1, as, s =>
    match skip close s with
    | some s => .ok as s
    | none =>
      if s = [] then .ok as []
      else
        match parseNameValue fuel s with
        | .err => .err
        | .out => .out
        | .ok (n, v) s =>
          match c.attribute n with
          | none => .err
          | some q => attrsLoop close c fuel (setAttribute as q v) (parseS s)

/-- `_parseStartTag` and `_parseEmptyElementTag`, parser.cpp lines 483–503 and 626–645,
    which differ in `close` and in what they return. -/
def parseTag (close : Text) (fuel : Nat) (c : Context) (s : Text) : R (QName × Attrs × Context) :=
  match skip (u "<") s with
  | none => .err
  | some s =>
    match parseQName s with
    | none => .err
    | some (n, s) =>
      let s := parseS s
      match parseNs fuel c s with
      | .err => .err
      | .out => .out
      | .ok child _ =>
        match child.element n with
        | none => .err
        | some q =>
          match attrsLoop close child fuel [] s with
          | .err => .err
          | .out => .out
          | .ok as s => .ok (q, as, child) s

/-- `_parseEndTag`, parser.cpp lines 554–572. -/
def parseEndTag (c : Context) (q : QName) (s : Text) : Option Text :=
  match skip (u "</") s with
  | none => none
  | some s =>
    match parseQName s with
    | none => none
    | some (n, s) => if c.element n = some q then skip (u ">") (parseS s) else none

/-! ## Elements -/

/-- Nodes of the tree made. -/
inductive Node where
  | element (name : QName) (attrs : Attrs) (kids : List Node)
  | text (data : Text)
  | comment (data : Text)
  | doctype (name publicId systemId : Text)
deriving Repr

/-- What `_parseText` appends, parser.cpp lines 619–621. -/
def textNode (t : Text) : List Node := if t.isEmpty then [] else [.text t]

mutual
/-- `_parseElement`, parser.cpp lines 458–478. -/
def parseElement (fuel : Nat) (c : Context) (s : Text) : R Node :=
  match fuel with
  | 0 => .out
  | fuel + 1 =>
    match parseTag (u "/>") fuel c s with
    | .out => .out
    | .ok (q, as, _) s => .ok (.element q as []) s
    | .err =>
      match parseTag (u ">") fuel c s with
      | .out => .out
      | .err => .err
      | .ok (q, as, child) s =>
        match textLoop fuel s [] with
        | .out => .out
        | .err => .err
        | .ok t s =>
          match contentLoop fuel child s (textNode t) with
          | .out => .out
          | .err => .err
          | .ok kids s =>
            match parseEndTag child q s with
            | none => .err
            | some s => .ok (.element q as kids) s

/-- The loop of `_parseContent`, parser.cpp lines 591–599, with `_parseContentItem`, lines
    574–589. -/
def contentLoop (fuel : Nat) (c : Context) (s : Text) (kids : List Node) : R (List Node) :=
  match fuel with
  | 0 => .out
  | fuel + 1 =>
    match parseElement fuel c s with
    | .out => .out
    | .ok n s =>
      match textLoop fuel s [] with
      | .ok t s => contentLoop fuel c s (kids ++ [n] ++ textNode t)
      | .err => .err
      | .out => .out
    | .err =>
      match parsePi s with
      | some (_, s) =>
        match textLoop fuel s [] with
        | .ok t s => contentLoop fuel c s (kids ++ textNode t)
        | .err => .err
        | .out => .out
      | none =>
        match parseComment s with
        | some (d, s) =>
          match textLoop fuel s [] with
          | .ok t s => contentLoop fuel c s (kids ++ [.comment d] ++ textNode t)
          | .err => .err
          | .out => .out
        | none => .ok kids s
end

/-! ## Documents -/

/-- `_parseMisc`, parser.cpp lines 383–400; the comment made, if any. -/
def parseMisc (s : Text) : Option (List Node × Text) :=
  if (u "<!--").isPrefixOf s then (parseComment s).map fun r => ([.comment r.1], r.2)
  else if (u "<?").isPrefixOf s then (parsePi s).map fun r => ([], r.2)
  else match s with
    | [] => none
    | c :: cs => if isS c then some ([], parseS (c :: cs)) else none

/-- The loops over `_parseMisc`, parser.cpp lines 87–88, 409–410 and 414–415. Those of the
    prolog also stop at the end of the text, where `_parseMisc` fails anyway. -/
def miscLoop : Nat → Text → List Node → R (List Node)
  | 0, _, _ => .out
  | fuel + 1, s, acc =>
    match parseMisc s with
    | some (ns, s) => miscLoop fuel s (acc ++ ns)
    | none => .ok acc s

/-- `_parseXmlDeclAttr`, parser.cpp lines 323–352; `value` is the longest prefix that fits
    the expression, empty when there is none. -/
def parseDeclAttr (name : Text) (value : Text → Text) (s : Text) : Option (Text × Text) :=
  match skip name (parseS s) with
  | none => none
  | some s =>
    match skip (u "=") (parseS s) with
    | none => none
    | some s =>
      match parseS s with
      | [] => none
      | q :: s =>
        if q ≠ 34 ∧ q ≠ 39 then none
        else
          let v := value s
          if v.isEmpty then none
          else
            match s.drop v.length with
            | [] => none
            | q' :: s => if q' = q then some (v, s) else none

/-- `RE_XML_DECL_VERSION`, parser.cpp line 319. -/
def versionText (s : Text) : Text :=
  if (u "1.").isPrefixOf s then
    let ds := (s.drop 2).takeWhile fun r => 48 ≤ r && r ≤ 57
    if ds.isEmpty then [] else u "1." ++ ds
  else []

def isAlpha (r : Rune) : Bool := (65 ≤ r && r ≤ 90) || (97 ≤ r && r ≤ 122)

/-- `RE_XML_DECL_ENCODING`, parser.cpp line 320; `Re::word` (Karm) is taken as letters,
    digits and `_`. -/
def encodingText (s : Text) : Text :=
  match s with
  | [] => []
  | c :: cs =>
    if isAlpha c then
      c :: cs.takeWhile fun r => isAlpha r || (48 ≤ r && r ≤ 57) || r == 95 || r == 46 || r == 45
    else []

/-- `RE_XML_DECL_STANDALONE`, parser.cpp line 321. -/
def standaloneText (s : Text) : Text :=
  if (u "yes").isPrefixOf s then u "yes" else if (u "no").isPrefixOf s then u "no" else []

/-- What the XML declaration says: `Document::xmlVersion`, `xmlEncoding`, `xmlStandalone`. -/
structure Decl where
  version : Option Text := none
  encoding : Option Text := none
  standalone : Option Text := none
deriving DecidableEq, Repr

/-- A part that may be missing: parser.cpp lines 366–368 and 371–373. -/
def optAttr (r : Option (Text × Text)) (s : Text) : Option Text × Text :=
  match r with
  | some (v, s) => (some v, s)
  | none => (none, s)

/-- `_parseXmlDecl`, parser.cpp lines 354–381. -/
def parseXmlDecl (s : Text) : Option (Decl × Text) :=
  match skip (u "<?xml") s with
  | none => none
  | some s =>
    match parseDeclAttr (u "version") versionText s with
    | none => none
    | some (v, s) =>
      let (e, s) := optAttr (parseDeclAttr (u "encoding") encodingText s) s
      let (a, s) := optAttr (parseDeclAttr (u "standalone") standaloneText s) s
      (skip (u "?>") (parseS s)).map fun s => (⟨some v, e, a⟩, s)

/-- `_parseExternalId`, parser.cpp lines 726–748: the public and the system identifier. A
    public identifier whose system identifier is missing is stored before the failure. -/
def parseExternalId (fuel : Nat) (s : Text) : R (Text × Text) × Text :=
  match skip (u "SYSTEM") s with
  | some s =>
    match parseAttValue fuel (parseS s) with
    | .ok v s => (.ok ([], v) s, [])
    | .err => (.err, [])
    | .out => (.out, [])
  | none =>
    match skip (u "PUBLIC") s with
    | none => (.err, [])
    | some s =>
      match parseAttValue fuel (parseS s) with
      | .err => (.err, [])
      | .out => (.out, [])
      | .ok p s =>
        match parseAttValue fuel (parseS s) with
        | .ok v s => (.ok (p, v) s, p)
        | .err => (.err, p)
        | .out => (.out, p)

/-- `_parseDoctype`, parser.cpp lines 424–446. -/
def parseDoctype (fuel : Nat) (s : Text) : R Node :=
  match skip (u "<!DOCTYPE") s with
  | none => .err
  | some s =>
    match parseName (parseS s) with
    | none => .err
    | some (name, s) =>
      let s := parseS s
      match parseExternalId fuel s with
      | (.out, _) => .out
      | (.ok (p, v) s, _) =>
        match skip (u ">") (parseS s) with
        | none => .err
        | some s => .ok (.doctype name p v) s
      | (.err, p) =>
        match skip (u ">") (parseS s) with
        | none => .err
        | some s => .ok (.doctype name p []) s

/-- `_parseProlog`, parser.cpp lines 402–420. -/
def parseProlog (fuel : Nat) (s : Text) : R (Decl × List Node) :=
  let start := if (u "<?xml").isPrefixOf s then parseXmlDecl s else some ({}, s)
  match start with
  | none => .err
  | some (decl, s) =>
    match miscLoop fuel s [] with
    | .out => .out
    | .err => .err
    | .ok before s =>
      match parseDoctype fuel s with
      | .out => .out
      | .err => .ok (decl, before) s
      | .ok dt s =>
        match miscLoop fuel s [] with
        | .out => .out
        | .err => .err
        | .ok more s => .ok (decl, before ++ [dt] ++ more) s

/-- A document: its declaration and its children. -/
structure Doc where
  decl : Decl
  kids : List Node
deriving Repr

/-- `parse`, parser.cpp lines 82–91. The text left is returned here; the code ignores it. -/
def parseDocument (fuel : Nat) (ns : Option Text) (s : Text) : R Doc :=
  match parseProlog fuel s with
  | .out => .out
  | .err => .err
  | .ok (decl, before) s =>
    match parseElement fuel (.make ns) s with
    | .out => .out
    | .err => .err
    | .ok root s =>
      match miscLoop fuel s [] with
      | .out => .out
      | .err => .err
      | .ok after s => .ok ⟨decl, before ++ [root] ++ after⟩ s

/-- `parse` with enough fuel, as `C57_terminates` shows. -/
def readXml (ns : Option Text) (s : Text) : R Doc := parseDocument (s.length + 2) ns s

/-! ## Writing -/

/-- `escapeString`, dom/serialisation.cpp lines 18–44. -/
def escapeString (attributeMode : Bool) : Text → Text
  | [] => []
  | r :: rs =>
    (if r = 38 then u "&amp;"
     else if r = 0xA0 then u "&nbsp;"
     else if r = 60 then u "&lt;"
     else if r = 62 then u "&gt;"
     else if attributeMode && r == 34 then u "&quot;"
     else [r]) ++ escapeString attributeMode rs

def htmlNs : Text := u "http://www.w3.org/1999/xhtml"
def svgNs : Text := u "http://www.w3.org/2000/svg"
def mathNs : Text := u "http://www.w3.org/1998/Math/MathML"

/-- `QualifiedName::repr`, dom/names.cpp lines 132–153. -/
def QName.repr (q : QName) : Text :=
  match q.ns with
  | none => q.localName
  | some ns =>
    (if ns = htmlNs then u "html" else if ns = svgNs then u "svg" else if ns = mathNs then u "mathml"
     else if ns = xmlNs then u "xml" else if ns = xmlnsNs then u "xmlns" else ns) ++ u ":" ++ q.localName

/-- `isVoidElement`, dom/element.cpp lines 172–186, and `_serializeAsVoid`,
    dom/serialisation.cpp lines 55–68. -/
def voidNames : List Text :=
  ["area", "base", "br", "col", "embed", "hr", "img", "input", "link", "meta", "source", "track", "wbr",
   "basefont", "bgsound", "frame", "keygen", "param"].map u

def asVoid (q : QName) : Bool := q.ns == some htmlNs && voidNames.contains q.localName

/-- The parents whose text is written as it is, dom/serialisation.cpp lines 148–155. -/
def rawNames : List Text :=
  ["style", "script", "xmp", "iframe", "noembed", "noframes", "plaintext", "noscript"].map u

def rawParent (q : QName) : Bool := q.ns == some htmlNs && rawNames.contains q.localName

/-- The tag name written, dom/serialisation.cpp lines 103–107 and 135–139. -/
def tagName (q : QName) : Text :=
  if q.ns = some htmlNs ∨ q.ns = some mathNs ∨ q.ns = some svgNs then q.localName else q.repr

/-- One attribute, dom/serialisation.cpp lines 120–122. -/
def writeAttr (name value : Text) : Text :=
  u " " ++ name ++ u "=\"" ++ escapeString true value ++ u "\""

def isAttr : QName := ⟨none, u "is"⟩

/-- The attributes, dom/serialisation.cpp lines 110–123. -/
def writeAttrs (as : Attrs) : Text :=
  (match as.find? (·.1 = isAttr) with
   | some a => writeAttr (u "is") a.2
   | none => []) ++
  (as.filter (·.1 ≠ isAttr)).flatMap fun a => writeAttr a.1.localName a.2

mutual
/-- One turn of the loop of `serializeHtmlFragment`, dom/serialisation.cpp lines 96–180;
    `raw` says whether the parent is one of `rawNames`. -/
def writeNode (raw : Bool) : Node → Text
  | .element q as kids =>
    u "<" ++ tagName q ++ writeAttrs as ++ u ">" ++
    (if asVoid q then [] else writeNodes (rawParent q) kids ++ u "</" ++ tagName q ++ u ">")
  | .text t => if raw then t else escapeString false t
  | .comment d => u "<!--" ++ d ++ u "-->"
  | .doctype name _ _ => u "<!DOCTYPE " ++ name ++ u ">"

/-- `serializeHtmlFragment`, dom/serialisation.cpp lines 71–181, given the children. -/
def writeNodes (raw : Bool) : List Node → Text
  | [] => []
  | n :: ns => writeNode raw n ++ writeNodes raw ns
end

end Verif.Xml
