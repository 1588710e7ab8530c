import Verif.Tree.Base
/-
The insertion modes of the tree builder.  `src/vaev-engine/html/parser.cpp:1040-4330`.

`accept` and `_acceptIn` call the modes and are called by them; the modes are given both as `Rec`,
and `run` closes the circle, with a bound on the depth of the calls.  Reaching the bound is the
fault `endless`.
-/
namespace Verif.Tree

open Verif.Html (Str Attr Content toLower)

structure Rec where
  accept : St → Tok → M St
  acceptIn : Mode → St → Tok → M St

/-! ### The first modes -/

/-- `_handleInitialMode`.  `parser.cpp:1048-1084`. -/
def initial (k : Rec) (s : St) (t : Tok) : M St :=
  match t with
  | .char c =>
    if blank c then .ok s
    else k.accept { s with quirks := true, mode := .beforeHtml } t
  | .comment d => .ok (addToDocument s (.comment d))
  | .doctype n p y =>
    let s := addToDocument s (.doctype (n.getD []) (p.getD []) (y.getD []))
    .ok { s with quirks := false, mode := .beforeHtml }
  | t => k.accept { s with quirks := true, mode := .beforeHtml } t

def endsHead : List Str := [nm! "head", nm! "body", nm! "html", nm! "br"]

/-- The implied `html` element.  `parser.cpp:1125-1132`. -/
def impliedHtml (k : Rec) (s : St) (t : Tok) : M St :=
  let (s, el) := createFor s .html (nm! "html") []
  let s := append s 0 el.id
  k.accept { s with stack := el :: s.stack, mode := .beforeHead } t

/-- `_handleBeforeHtml`.  There is no `else` before the third test (line 1103): comments and
document types go on to the last case.  `parser.cpp:1088-1134`. -/
def beforeHtml (k : Rec) (s : St) (t : Tok) : M St :=
  match t with
  | .doctype _ _ _ => impliedHtml k s t
  | .comment d => impliedHtml k (addToDocument s (.comment d)) t
  | .char c => if blank c then .ok s else impliedHtml k s t
  | .opens n as _ =>
    if n = nm! "html" then
      let (s, el) := createFor s .html n as
      let s := append s 0 el.id
      .ok { s with stack := el :: s.stack, mode := .beforeHead }
    else impliedHtml k s t
  | .closes n _ _ => if isOne n endsHead then impliedHtml k s t else .ok s
  | .eof => impliedHtml k s t

/-- The implied `head` element.  `parser.cpp:1180-1190`. -/
def impliedHead (k : Rec) (s : St) (t : Tok) : M St := do
  let (s, el) ← insertForeign s .html (nm! "head") []
  k.accept { s with head := some el, mode := .inHead } t

/-- `_handleBeforeHead`.  `parser.cpp:1138-1190`. -/
def beforeHead (k : Rec) (s : St) (t : Tok) : M St :=
  match t with
  | .char c => if blank c then .ok s else impliedHead k s t
  | .comment d => insertComment s d
  | .doctype _ _ _ => .ok s
  | .opens n as _ =>
    if n = nm! "html" then k.acceptIn .inBody s t
    else if n = nm! "head" then do
      let (s, el) ← insertForeign s .html n as
      .ok { s with head := some el, mode := .inHead }
    else impliedHead k s t
  | .closes n _ _ => if isOne n endsHead then impliedHead k s t else .ok s
  | .eof => impliedHead k s t

/-- The end of the head.  `parser.cpp:1195-1202`. -/
def leaveHead (k : Rec) (s : St) (t : Tok) : M St := do
  let s ← pop s
  k.accept { s with mode := .afterHead } t

/-- An element that has no content: inserted, and popped at once. -/
def insertVoid (s : St) (n : Str) (as : List Attr) : M St := do
  let s ← insertHtml s n as
  pop s

/-- `_handleInHead`.  A `template` tag is accepted and nothing is done (lines 1316-1319).
`parser.cpp:1194-1326`. -/
def inHead (k : Rec) (s : St) (t : Tok) : M St :=
  match t with
  | .char c => if blank c then insertChar s c else leaveHead k s t
  | .comment d => insertComment s d
  | .doctype _ _ _ => .ok s
  | .opens n as _ =>
    if n = nm! "html" then k.acceptIn .inBody s t
    else if isOne n [nm! "base", nm! "basefont", nm! "bgsound", nm! "link", nm! "meta"] then
      insertVoid s n as
    else if n = nm! "title" then parseRaw s .rcdata n as
    else if isOne n [nm! "noframes", nm! "style"] then parseRaw s .rawtext n as
    else if n = nm! "noscript" then do
      let s ← insertHtml s n as
      .ok { s with mode := .inHeadNoscript }
    else if n = nm! "script" then do
      let s ← insertHtml s n as
      .ok { s with lexer := some .scriptData, orig := s.mode, mode := .text }
    else if n = nm! "template" then .ok s
    else if n = nm! "head" then .ok s
    else leaveHead k s t
  | .closes n _ _ =>
    if n = nm! "head" then do
      let s ← pop s
      .ok { s with mode := .afterHead }
    else if isOne n [nm! "body", nm! "html", nm! "br"] then leaveHead k s t
    else .ok s
  | .eof => leaveHead k s t

/-- `parser.cpp:1331-1338`. -/
def leaveNoscript (k : Rec) (s : St) (t : Tok) : M St := do
  let s ← pop s
  k.accept { s with mode := .inHead } t

/-- `_handleInHeadNoScript`.  `parser.cpp:1330-1391`. -/
def inHeadNoscript (k : Rec) (s : St) (t : Tok) : M St :=
  match t with
  | .doctype _ _ _ => .ok s
  | .char c => if blank c then k.acceptIn .inHead s t else leaveNoscript k s t
  | .comment _ => k.acceptIn .inHead s t
  | .opens n _ _ =>
    if n = nm! "html" then k.acceptIn .inBody s t
    else if isOne n [nm! "basefont", nm! "bgsound", nm! "link", nm! "meta", nm! "noframes",
        nm! "style"] then k.acceptIn .inHead s t
    else if isOne n [nm! "head", nm! "noscript"] then .ok s
    else leaveNoscript k s t
  | .closes n _ _ =>
    if n = nm! "noscript" then do
      let s ← pop s
      .ok { s with mode := .inHead }
    else if n = nm! "br" then leaveNoscript k s t
    else .ok s
  | .eof => leaveNoscript k s t

/-- The implied `body` element.  `parser.cpp:1396-1408`. -/
def impliedBody (k : Rec) (s : St) (t : Tok) : M St := do
  let s ← insertHtml s (nm! "body") []
  k.accept { s with mode := .inBody } t

/-- The start tags that belong to the head.  `parser.cpp:1449-1453,1762,3659`. -/
def headNames : List Str :=
  [nm! "base", nm! "basefont", nm! "bgsound", nm! "link", nm! "meta", nm! "noframes",
   nm! "script", nm! "style", nm! "template", nm! "title"]

/-- `_handleAfterHead`.  `parser.cpp:1395-1489`. -/
def afterHead (k : Rec) (s : St) (t : Tok) : M St :=
  match t with
  | .char c => if blankCr c then insertChar s c else impliedBody k s t
  | .comment d => insertComment s d
  | .doctype _ _ _ => .ok s
  | .opens n as _ =>
    if n = nm! "html" then k.acceptIn .inBody s t
    else if n = nm! "body" then do
      let s ← insertHtml s n as
      .ok { s with framesetOk := false, mode := .inBody }
    else if n = nm! "frameset" then do
      let s ← insertHtml s n as
      .ok { s with mode := .inFrameset }
    else if isOne n headNames then
      match s.head with
      | none => .error .null
      | some hd => do
        let s ← k.acceptIn .inHead { s with stack := hd :: s.stack } t
        match s.head with
        | none => .error .null
        | some hd => .ok (removeOpen s hd)
    else if n = nm! "head" then .ok s
    else impliedBody k s t
  | .closes n _ _ =>
    if n = nm! "template" then k.acceptIn .inHead s t
    else if isOne n [nm! "body", nm! "html", nm! "br"] then impliedBody k s t
    else .ok s
  | .eof => impliedBody k s t

/-! ### The adoption agency -/

/-- The token of an entry.  `parser.cpp:197-206,1643,1675`. -/
def entryToken (s : St) (el : El) : M (Str × List Attr) :=
  match s.entries.find? (·.is el) with
  | some (.elem _ n as) => .ok (n, as)
  | _ => .error .null

/-- `_ActiveFormattingElementList::replace`.  `parser.cpp:335-342`. -/
def replaceEntry (s : St) (old new : El) (n : Str) (as : List Attr) : M St :=
  match entryIndex s old with
  | none => .error .panic
  | some i => .ok { s with entries := s.entries.set i (.elem new n as) }

/-- `_ElementStack::replace`.  An element is on the stack once only.  `parser.cpp:122-129`. -/
def replaceOpen (s : St) (old new : El) : M St :=
  if s.stack.contains old then
    .ok { s with stack := s.stack.map fun e => if e = old then new else e }
  else .error .panic

def orNull {α : Type} : Option α → M α
  | none => .error .null
  | some a => .ok a

/-- The inner loop: from the furthest block `fb` up to the formatting element `fe`.  The first
argument bounds the rounds.  `parser.cpp:1612-1668`. -/
def inner (fe fb : El) : Nat → Nat → El → St → El → Nat → M (St × El × Nat)
  | 0, _, _, _, _, _ => .error .endless
  | fuel + 1, counter, node, s, last, bookmark => do
    let next ← orNull (elementAbove node s.stack)
    if node = fe then .ok (s, last, bookmark)
    else
      let s := if 3 < counter && hasEntry s node then removeEntry s node else s
      if !hasEntry s node then inner fe fb fuel (counter + 1) next (removeOpen s node) last bookmark
      else do
        let (n, as) ← entryToken s node
        let (s, el) := createFor s .html n as
        let s ← replaceEntry s node el n as
        let s ← replaceOpen s node el
        let next ← orNull (elementAbove el s.stack)
        let i ← orNull (entryIndex s el)
        let bookmark := if last = fb then i + 1 else bookmark
        inner fe fb fuel (counter + 1) next (append s el.id last.id) el bookmark

/-- `while (auto child = from->firstChild()) to->appendChild(child)`.  `parser.cpp:1680-1682`. -/
def moveKids (s : St) (src dst : Nat) : St := (s.kids src).foldl (fun s c => append s dst c) s

/-- The steps for a formatting element with a furthest block.  `parser.cpp:1593-1700`. -/
def adoptBlock (s : St) (fe fb common : El) : M St := do
  let bookmark ← orNull (entryIndex s fe)
  let first ← orNull (elementAbove fb s.stack)
  let (s, last, bookmark) ← inner fe fb (s.stack.length + 1) 1 first s fb bookmark
  let loc ← place s (some common)
  let s := loc.insert s last.id
  let (n, as) ← entryToken s fe
  let (s, el) := createFor s .html n as
  let s := moveKids s fb.id el.id
  let s := append s fb.id el.id
  let s := removeEntry s fe
  let s ← insertEntry s (bookmark - 1) (.elem el n as)
  let s := removeOpen s fe
  let st ← insertBelow fb el s.stack
  .ok { s with stack := st }

/-- The outer loop, eight rounds at most.  `parser.cpp:1527-1702`. -/
def adoptLoop (subject : Str) : Nat → St → M St
  | 0, s => .ok s
  | rounds + 1, s => do
    match ← findNamed (·.name = subject) (s.entries.drop s.after) with
    | none => .ok s
    | some fe =>
      if !s.stack.contains fe then .ok (removeEntry s fe)
      else if !(← inScope s fe.q.name) then .ok s
      else
        match (s.stack.takeWhile (· ≠ fe)).reverse.find? (special ·.q) with
        | none => .ok (removeEntry (popUntil s fe) fe)
        | some fb =>
          match s.stack.dropWhile (· ≠ fe) with
          | _ :: common :: _ => do
            let s ← adoptBlock s fe fb common
            adoptLoop subject rounds s
          | _ => .error .index

/-- `adoptionAgencyAlgorithm`.  `parser.cpp:1508-1703`. -/
def adopt (s : St) (subject : Str) : M St := do
  let cur ← current s
  if cur.q = h subject && !hasEntry s cur then .ok (removeOpen s cur)
  else adoptLoop subject 8 s

/-! ### "In body" -/

/-- `closePElement`.  `parser.cpp:1495-1505`. -/
def closeP (s : St) : M St := do
  let s ← impliedEnds s [nm! "p"]
  .ok (popUntilOneOf s [nm! "p"])

/-- Close a `p` element when one is in button scope. -/
def endP (s : St) : M St := do
  if ← inButtonScope s (nm! "p") then closeP s else .ok s

/-- The attributes of a second `html` or `body` tag.  `parser.cpp:1751-1757,1785-1791`. -/
def mergeAttrs (s : St) (n : Nat) (as : List Attr) : St :=
  as.foldl (fun s a =>
    if hasAttr (s.data n) ⟨true, a.name⟩ then s
    else { s with data := update s.data n (setAttr (s.data n) ⟨true, a.name⟩ a.value) }) s

/-- `_openElements[1]`, `none` when there is one element only.  `parser.cpp:1774,1799`. -/
def secondOpen (s : St) : M (Option El) :=
  match s.stack.reverse with
  | [] => .error .index
  | [_] => .ok none
  | _ :: e :: _ => .ok (some e)

/-- A start tag for `li`, `dd` or `dt`: the open elements from the current one on.  Nothing is
inserted when they run out.  `parser.cpp:1981-2026,2033-2095`. -/
def startItem (s : St) (names : List Str) (ins : St → M St) : List El → M St
  | [] => .ok s
  | e :: r =>
    if e.q.isIn names then do
      let s ← impliedEnds s [e.q.name]
      ins (popUntilOneOf s [e.q.name])
    else if special e.q && !e.q.isIn [nm! "address", nm! "div", nm! "p"] then ins s
    else startItem s names ins r

/-- `type=hidden`, or anything that begins so.  `parser.cpp:2514-2520,3061-3067`. -/
def isHidden (as : List Attr) : Bool :=
  as.any fun a => a.name = nm! "type" && (nm! "hidden").isPrefixOf (a.value.map toLower)

def headings : List Str := [nm! "h1", nm! "h2", nm! "h3", nm! "h4", nm! "h5", nm! "h6"]

/-- Start tags whose element closes a `p` and is inserted.  `parser.cpp:1896-1903`. -/
def blockStarts : List Str :=
  [nm! "address", nm! "article", nm! "aside", nm! "blockquote", nm! "center", nm! "details",
   nm! "dialog", nm! "dir", nm! "div", nm! "dl", nm! "fieldset", nm! "figcaption", nm! "figure",
   nm! "footer", nm! "header", nm! "hgroup", nm! "main", nm! "menu", nm! "nav", nm! "ol", nm! "p",
   nm! "search", nm! "section", nm! "summary", nm! "ul"]

/-- End tags of blocks.  `parser.cpp:2142-2149`. -/
def blockEnds : List Str :=
  [nm! "address", nm! "article", nm! "aside", nm! "blockquote", nm! "button", nm! "center",
   nm! "details", nm! "dialog", nm! "dir", nm! "div", nm! "dl", nm! "fieldset", nm! "figcaption",
   nm! "figure", nm! "footer", nm! "header", nm! "hgroup", nm! "listing", nm! "main", nm! "menu",
   nm! "nav", nm! "ol", nm! "pre", nm! "search", nm! "section", nm! "summary", nm! "ul"]

/-- `parser.cpp:2356`. -/
def formattings : List Str :=
  [nm! "b", nm! "big", nm! "code", nm! "em", nm! "font", nm! "i", nm! "s", nm! "small",
   nm! "strike", nm! "strong", nm! "tt", nm! "u"]

/-- `parser.cpp:2386`. -/
def formattingEnds : List Str := nm! "a" :: nm! "nobr" :: formattings

/-- `parser.cpp:2392,2410`. -/
def embeds : List Str := [nm! "applet", nm! "marquee", nm! "object"]

/-- `parser.cpp:2457-2459`. -/
def voids : List Str :=
  [nm! "area", nm! "br", nm! "embed", nm! "img", nm! "keygen", nm! "wbr"]

/-- `parser.cpp:2798-2800`. -/
def ignoredStarts : List Str :=
  [nm! "caption", nm! "col", nm! "colgroup", nm! "frame", nm! "head", nm! "tbody", nm! "td",
   nm! "tfoot", nm! "th", nm! "thead", nm! "tr"]

/-- The cases of a start tag in `_handleInBody`.  No name is in two of them, so that their order
has no influence. -/
inductive BodyStart
  | html | inHead | body | frameset | block | heading | pre | form | li | dd | plaintext | button
  | a | formatting | nobr | embed | table | void | input | param | hr | image | textarea | xmp
  | iframe | noembed | select | option | optgroup | rb | rp | math | svg | ignored | other
deriving DecidableEq, Repr

def bodyStartNames : List (BodyStart × List Str) :=
  [(.html, [nm! "html"]), (.inHead, headNames), (.body, [nm! "body"]),
   (.frameset, [nm! "frameset"]), (.block, blockStarts), (.heading, headings),
   (.pre, [nm! "pre", nm! "listing"]), (.form, [nm! "form"]), (.li, [nm! "li"]),
   (.dd, [nm! "dd", nm! "dt"]), (.plaintext, [nm! "plaintext"]), (.button, [nm! "button"]),
   (.a, [nm! "a"]), (.formatting, formattings), (.nobr, [nm! "nobr"]), (.embed, embeds),
   (.table, [nm! "table"]), (.void, voids), (.input, [nm! "input"]),
   (.param, [nm! "param", nm! "source", nm! "track"]), (.hr, [nm! "hr"]),
   (.image, [nm! "image"]), (.textarea, [nm! "textarea"]), (.xmp, [nm! "xmp"]),
   (.iframe, [nm! "iframe"]), (.noembed, [nm! "noembed"]), (.select, [nm! "select"]),
   (.option, [nm! "option"]), (.optgroup, [nm! "optgroup"]), (.rb, [nm! "rb", nm! "rtc"]),
   (.rp, [nm! "rp", nm! "rt"]), (.math, [nm! "math"]), (.svg, [nm! "svg"]),
   (.ignored, ignoredStarts)]

def findKind {α : Type} (other : α) (n : Str) : List (α × List Str) → α
  | [] => other
  | (k, names) :: r => if names.contains n then k else findKind other n r

def bodyStart (n : Str) : BodyStart := findKind .other n bodyStartNames

/-- Karm's `eqCi`. -/
def eqCi (a b : Str) : Bool := a.map toLower == b.map toLower

/-- `Svg::qualifiedTagNameCased`, `qualifiedAttrNameCased`.  `dom/names.cpp:82-100`. -/
def cased (table : List Str) (n : Str) : Str := (table.find? (eqCi · n)).getD n

def casedAttrs (as : List Attr) : List Attr := as.map fun a => { a with name := cased svgAttrs a.name }

/-- The start tags of `_handleInBody`.  `parser.cpp:1740-2812`. -/
def bodyOpens (k : Rec) (s : St) (n : Str) (as : List Attr) (self : Bool) : M St :=
  match bodyStart n with
  | .html =>                                                          -- 1740-1758
    if hasOpen s (nm! "template_") then .ok s
    else match as with
      | [] => .ok s
      | as => do
        let cur ← current s
        .ok (mergeAttrs s cur.id as)
  | .inHead => k.acceptIn .inHead s (.opens n as self)                -- 1761-1767
  | .body => do                                                       -- 1770-1792
    match ← secondOpen s with
    | none => .ok s
    | some b =>
      if b.q ≠ h (nm! "body") || hasOpen s (nm! "template_") then .ok s
      else .ok (mergeAttrs { s with framesetOk := false } b.id as)
  | .frameset => do                                                   -- 1795-1820
    match ← secondOpen s with
    | none => .ok s
    | some b =>
      if b.q ≠ h (nm! "body") || !s.framesetOk then .ok s
      else do
        let s := detach s b.id
        let s ← insertHtml { s with stack := s.stack.drop (s.stack.length - 1) } n as
        .ok { s with mode := .inFrameset }
  | .block => do                                                      -- 1894-1912
    let s ← endP s
    insertHtml s n as
  | .heading => do                                                    -- 1915-1933
    let s ← endP s
    let cur ← current s
    let s ← if cur.q.isIn headings then pop s else .ok s
    insertHtml s n as
  | .pre => do                                                        -- 1936-1951
    let s ← endP s
    let s ← insertHtml s n as
    .ok { s with skipLf := true, framesetOk := false }
  | .form =>                                                          -- 1954-1975
    if s.form.isSome && !hasOpen s (nm! "template_") then .ok s
    else do
      let s ← endP s
      let (s, el) ← insertForeign s .html n as
      .ok (if hasOpen s (nm! "template_") then s else { s with form := some el })
  | .li =>                                                            -- 1978-2027
    startItem { s with framesetOk := false } [nm! "li"]
      (fun s => do let s ← endP s; insertHtml s n as) s.stack
  | .dd =>                                                            -- 2030-2096
    startItem { s with framesetOk := false } [nm! "dd", nm! "dt"]
      (fun s => do let s ← endP s; insertHtml s n as) s.stack
  | .plaintext => do                                                  -- 2099-2110
    let s ← endP s
    let s ← insertHtml s n as
    .ok { s with lexer := some .plaintext }
  | .button => do                                                     -- 2113-2136
    let s ← if ← inScope s (nm! "button") then do
        let s ← impliedEnds s
        .ok (popUntilOneOf s [nm! "button"])
      else .ok s
    let s ← reconstruct s
    let s ← insertHtml s n as
    .ok { s with framesetOk := false }
  | .a => do                                                          -- 2330-2353
    let s ← match ← findNamed (· = h (nm! "a")) (s.entries.drop s.after) with
      | none => .ok s
      | some el => do
        let s ← adopt s n
        .ok (removeOpen (removeEntry s el) el)
    let s ← reconstruct s
    let (s, el) ← insertForeign s .html n as
    pushEntry s el n as
  | .formatting => do                                                 -- 2356-2362
    let s ← reconstruct s
    let (s, el) ← insertForeign s .html n as
    pushEntry s el n as
  | .nobr => do                                                       -- 2365-2383
    let s ← reconstruct s
    let s ← if ← inScope s (nm! "nobr") then do
        let s ← adopt s n
        reconstruct s
      else .ok s
    let (s, el) ← insertForeign s .html n as
    pushEntry s el n as
  | .embed => do                                                      -- 2392-2407
    if ← inScope s n then .ok s
    else do
      let s ← reconstruct s
      let s ← insertHtml s n as
      .ok { pushMarker s with framesetOk := false }
  | .table => do                                                      -- 2440-2452
    let s ← insertHtml s n as
    .ok { s with framesetOk := false, mode := .inTable }
  | .void => do                                                       -- 2456-2482
    let s ← reconstruct s
    let s ← insertVoid s n as
    .ok { s with framesetOk := false }
  | .input => do                                                      -- 2485-2526
    let s ← if ← inScope s (nm! "select") then .ok (popUntilOneOf s [nm! "select"]) else .ok s
    let s ← reconstruct s
    let s ← insertVoid s n as
    .ok (if isHidden as then s else { s with framesetOk := false })
  | .param => insertVoid s n as                                       -- 2529-2540
  | .hr => do                                                         -- 2543-2557
    let s ← endP s
    let s ← insertVoid s n as
    .ok { s with framesetOk := false }
  | .image => k.accept s (.opens (nm! "img") as self)                 -- 2560-2567
  | .textarea => do                                                   -- 2570-2592
    let s ← insertHtml s n as
    .ok { s with skipLf := true, lexer := some .rcdata, orig := s.mode, framesetOk := false,
                 mode := .text }
  | .xmp => do                                                        -- 2595-2610
    let s ← endP s
    let s ← reconstruct s
    parseRaw { s with framesetOk := false } .rawtext n as
  | .iframe => parseRaw { s with framesetOk := false } .rawtext n as  -- 2613-2619
  | .noembed => parseRaw s .rawtext n as                              -- 2623-2626
  | .select => do                                                     -- 2629-2656
    if ← inScope s (nm! "select") then .ok (popUntilOneOf s [nm! "select"])
    else do
      let s ← reconstruct s
      let s ← insertHtml s n as
      .ok { s with framesetOk := false }
  | .option => do                                                     -- 2659-2685
    let s ← if ← inScope s (nm! "select") then do
        let s ← impliedEnds s [nm! "optgroup"]
        let _ ← inScope s (nm! "option")
        .ok s
      else do
        let cur ← current s
        if cur.q = h (nm! "option") then pop s else .ok s
    let s ← reconstruct s
    insertHtml s n as
  | .optgroup => do                                                   -- 2688-2714
    if ← inScope s (nm! "select") then do
      let s ← impliedEnds s [nm! "optgroup"]
      let s ← if ← inScope s (nm! "option") then .ok s
        else if ← inScope s (nm! "optgroup") then .ok s
        else do
          let cur ← current s
          if cur.q = h (nm! "option") then pop s else .ok s
      let s ← reconstruct s
      insertHtml s n as
    else .ok s
  | .rb => do                                                         -- 2717-2732
    let s ← if ← inScope s (nm! "ruby") then impliedEnds s else .ok s
    insertHtml s n as
  | .rp => do                                                         -- 2735-2750
    let s ← if ← inScope s (nm! "ruby") then impliedEnds s [nm! "rtc"] else .ok s
    insertHtml s n as
  | .math => do                                                       -- 2753-2769
    let s ← reconstruct s
    let (s, _) ← insertForeign s .math n as
    if self then pop s else .ok s
  | .svg => do                                                        -- 2772-2793
    let s ← reconstruct s
    let (s, _) ← insertForeign s .svg n (casedAttrs as)
    if self then pop s else .ok s
  | .ignored => .ok s                                                 -- 2796-2804
  | .other => do                                                      -- 2806-2809
    let s ← reconstruct s
    insertHtml s n as

/-- The cases of an end tag in `_handleInBody`. -/
inductive BodyEnd
  | template | body | html | block | form | p | li | dd | heading | formatting | embed | br | other
deriving DecidableEq, Repr

def bodyEndNames : List (BodyEnd × List Str) :=
  [(.template, [nm! "template"]), (.body, [nm! "body"]), (.html, [nm! "html"]),
   (.block, blockEnds), (.form, [nm! "form"]), (.p, [nm! "p"]), (.li, [nm! "li"]),
   (.dd, [nm! "dd", nm! "dt"]), (.heading, headings), (.formatting, formattingEnds),
   (.embed, embeds), (.br, [nm! "br"])]

def bodyEnd (n : Str) : BodyEnd := findKind .other n bodyEndNames

/-- Any of these is in scope; the calls stop at the first that is. -/
def anyInScope (s : St) : List Str → M Bool
  | [] => .ok false
  | n :: r => do if ← inScope s n then .ok true else anyInScope s r

/-- Any other end tag: the open elements from the current one on.  `parser.cpp:2812-2846`. -/
def otherEnd (s : St) (n : Str) : List El → M St
  | [] => .ok s
  | e :: r =>
    if e.q.name = n then do
      let s ← impliedEnds s (if e.q.ns = .html then [n] else [])
      match s.stack.dropWhile (· ≠ e) with
      | [] => .error .panic
      | _ :: st => .ok { s with stack := st }
    else otherEnd s n r

/-- The end tags of `_handleInBody`.  `parser.cpp:1761-2846`. -/
def bodyCloses (k : Rec) (s : St) (n : Str) (as : List Attr) (self : Bool) : M St :=
  match bodyEnd n with
  | .template => k.acceptIn .inHead s (.closes n as self)             -- 1761-1767
  | .body => do                                                       -- 1851-1890
    if ← inScope s (nm! "body") then .ok { s with mode := .afterBody } else .ok s
  | .html => do
    if ← inScope s (nm! "body") then k.accept { s with mode := .afterBody } (.closes n as self)
    else .ok s
  | .block => do                                                      -- 2140-2171
    if ← inScope s n then do
      let s ← impliedEnds s
      .ok (popUntilOneOf s [n])
    else .ok s
  | .form =>                                                          -- 2174-2222
    if !hasOpen s (nm! "template_") then
      let node := s.form
      let s := { s with form := none }
      match node with
      | none => .ok s
      | some f => do
        if ← inScope s f.q.name then do
          let s ← impliedEnds s
          .ok (removeOpen s f)
        else .ok s
    else do
      if ← inScope s (nm! "form") then do
        let s ← impliedEnds s
        .ok (popUntilOneOf s [nm! "form"])
      else .ok s
  | .p => do                                                          -- 2225-2241
    let s ← if ← inButtonScope s (nm! "p") then .ok s else insertHtml s (nm! "p") []
    closeP s
  | .li => do                                                         -- 2244-2264
    if ← inListScope s (nm! "li") then do
      let s ← impliedEnds s [nm! "li"]
      .ok (popUntilOneOf s [nm! "li"])
    else .ok s
  | .dd => do                                                         -- 2267-2290
    if ← inScope s n then do
      let s ← impliedEnds s [n]
      .ok (popUntilOneOf s [n])
    else .ok s
  | .heading => do                                                    -- 2293-2322
    if ← anyInScope s headings then do
      let s ← impliedEnds s
      .ok (popUntilOneOf s headings)
    else .ok s
  | .formatting => adopt s n                                          -- 2386-2389
  | .embed => do                                                      -- 2410-2437
    if ← inScope s n then do
      let s ← impliedEnds s
      clearMarker (popUntilOneOf s [n])
    else .ok s
  | .br => do                                                         -- 2456-2482
    let s ← reconstruct s
    let s ← insertVoid s n as
    .ok { s with framesetOk := false }
  | .other => otherEnd s n s.stack                                    -- 2812-2846

/-- `_handleInBody`.  `parser.cpp:1493-2847`. -/
def inBody (k : Rec) (s : St) (t : Tok) : M St :=
  match t with
  | .char c =>
    if c = '\x00' then .ok s
    else if blankCr c then do
      let s ← reconstruct s
      insertChar s c
    else do
      let s ← reconstruct s
      let s ← insertChar s c
      .ok { s with framesetOk := false }
  | .comment d => insertComment s d
  | .doctype _ _ _ => .ok s
  | .opens n as self => bodyOpens k s n as self
  | .closes n as self => bodyCloses k s n as self
  | .eof => .ok s

/-- `_handleText`.  `parser.cpp:2851-2882`. -/
def text (s : St) (t : Tok) : M St :=
  match t with
  | .char c => insertChar s (if c = '\x00' then '�' else c)
  | .eof | .closes _ _ _ => do
    let s ← pop s
    .ok { s with mode := s.orig }
  | _ => .ok s

/-! ### Tables -/

/-- `_inTableModeAnythingElse`.  `parser.cpp:2886-2897`. -/
def fosterIn (k : Rec) (s : St) (t : Tok) : M St := do
  let s ← k.acceptIn .inBody { s with foster := true } t
  .ok { s with foster := false }

/-- The `_clearTheStackBackTo…` loops: what is left.  `parser.cpp:2901-2908,3339-3348,3445-3452`. -/
def clearTo (names : List Str) : List El → M (List El)
  | [] => .error .panic
  | e :: r => if e.q.isIn names then .ok (e :: r) else clearTo names r

def tableContext : List Str := [nm! "table", nm! "template_", nm! "html"]
def tableBodyContext : List Str :=
  [nm! "tbody", nm! "tfoot", nm! "thead", nm! "template_", nm! "html"]
def tableRowContext : List Str := [nm! "tr", nm! "template_", nm! "html"]

def clearStack (s : St) (names : List Str) : M St := do
  let st ← clearTo names s.stack
  .ok { s with stack := st }

def tableBodies : List Str := [nm! "tbody", nm! "tfoot", nm! "thead"]

/-- `_handleInTable`.  `parser.cpp:2900-3121`. -/
def inTable (k : Rec) (s : St) (t : Tok) : M St :=
  match t with
  | .char _ => do
    let cur ← current s
    if cur.q.isIn [nm! "table", nm! "tbody", nm! "template_", nm! "tfoot", nm! "thead", nm! "tr"]
    then k.accept { s with pending := [], orig := s.mode, mode := .inTableText } t
    else fosterIn k s t
  | .comment d => insertComment s d
  | .doctype _ _ _ => .ok s
  | .opens n as _ =>
    if n = nm! "caption" then do
      let s ← clearStack s tableContext
      let s ← insertHtml (pushMarker s) n as
      .ok { s with mode := .inCaption }
    else if n = nm! "colgroup" then do
      let s ← clearStack s tableContext
      let s ← insertHtml s n as
      .ok { s with mode := .inColumnGroup }
    else if n = nm! "col" then do
      let s ← clearStack s tableContext
      let s ← insertHtml s (nm! "colgroup") []
      k.accept { s with mode := .inColumnGroup } t
    else if isOne n tableBodies then do
      let s ← clearStack s tableContext
      let s ← insertHtml s n as
      .ok { s with mode := .inTableBody }
    else if isOne n [nm! "td", nm! "th", nm! "tr"] then do
      let s ← clearStack s tableContext
      let s ← insertHtml s (nm! "tbody") []
      k.accept { s with mode := .inTableBody } t
    else if n = nm! "table" then do
      if ← inTableScope s (nm! "table") then do
        let s ← reset (popUntilOneOf s [nm! "table"])
        k.accept s t
      else .ok s
    else if isOne n [nm! "style", nm! "script", nm! "template"] then k.acceptIn .inHead s t
    else if n = nm! "input" then
      if isHidden as then insertVoid s n as else fosterIn k s t
    else if n = nm! "form" then
      if hasOpen s (nm! "template_") || s.form.isSome then .ok s
      else do
        let (s, el) ← insertForeign s .html n []
        pop { s with form := some el }
    else fosterIn k s t
  | .closes n _ _ =>
    if n = nm! "table" then do
      if ← inTableScope s (nm! "table") then reset (popUntilOneOf s [nm! "table"]) else .ok s
    else if isOne n [nm! "body", nm! "caption", nm! "col", nm! "colgroup", nm! "html",
        nm! "tbody", nm! "td", nm! "tfoot", nm! "th", nm! "thead", nm! "tr"] then .ok s
    else if n = nm! "template" then k.acceptIn .inHead s t
    else fosterIn k s t
  | .eof => k.acceptIn .inBody s t

/-- The pending characters when one of them is not white space.  `parser.cpp:3154-3157`. -/
def fosterChars (k : Rec) : St → List Char → M St
  | s, [] => .ok s
  | s, c :: r => do
    let s ← fosterIn k s (.char c)
    fosterChars k s r

/-- The pending characters otherwise.  `parser.cpp:3160-3162`. -/
def insertChars : St → List Char → M St
  | s, [] => .ok s
  | s, c :: r => do
    let s ← insertChar s c
    insertChars s r

/-- `_handleInTableText`.  `parser.cpp:3125-3171`. -/
def inTableText (k : Rec) (s : St) (t : Tok) : M St :=
  match t with
  | .char c => if c = '\x00' then .ok s else .ok { s with pending := s.pending ++ [c] }
  | t => do
    let s ← if s.pending.any (!blankCr ·) then fosterChars k s s.pending
      else insertChars s s.pending
    k.accept { s with mode := s.orig } t

/-- The start tags that end a caption or a cell.  `parser.cpp:3214-3215,3605`. -/
def tableParts : List Str :=
  [nm! "caption", nm! "col", nm! "colgroup", nm! "tbody", nm! "td", nm! "tfoot", nm! "th",
   nm! "thead", nm! "tr"]

/-- `_closeTheCaption`; the flag says whether there was one.  `parser.cpp:3176-3204`. -/
def closeCaption (s : St) : M (St × Bool) := do
  if ← inTableScope s (nm! "caption") then do
    let s ← impliedEnds s
    let s ← clearMarker (popUntilOneOf s [nm! "caption"])
    .ok ({ s with mode := .inTable }, true)
  else .ok (s, false)

/-- `_handleInCaption`.  `parser.cpp:3175-3235`. -/
def inCaption (k : Rec) (s : St) (t : Tok) : M St :=
  let closeThen : M St := do
    let (s, closed) ← closeCaption s
    if closed then k.accept s t else .ok s
  match t with
  | .opens n _ _ => if isOne n tableParts then closeThen else k.acceptIn .inBody s t
  | .closes n _ _ =>
    if n = nm! "caption" then do
      let (s, _) ← closeCaption s
      .ok s
    else if n = nm! "table" then closeThen
    else if isOne n [nm! "body", nm! "col", nm! "colgroup", nm! "html", nm! "tbody", nm! "td",
        nm! "tfoot", nm! "th", nm! "thead", nm! "tr"] then .ok s
    else k.acceptIn .inBody s t
  | _ => k.acceptIn .inBody s t

/-- The last case of `_handleInColumnGroup`.  `parser.cpp:3317-3333`. -/
def leaveColgroup (k : Rec) (s : St) (t : Tok) : M St := do
  let cur ← current s
  if cur.q ≠ h (nm! "colgroup") then .ok s
  else do
    let s ← pop s
    k.accept { s with mode := .inTable } t

/-- `_handleInColumnGroup`.  `parser.cpp:3239-3334`. -/
def inColumnGroup (k : Rec) (s : St) (t : Tok) : M St :=
  match t with
  | .char c => if blankCr c then insertChar s c else leaveColgroup k s t
  | .comment d => insertComment s d
  | .doctype _ _ _ => .ok s
  | .opens n as _ =>
    if n = nm! "html" then k.acceptIn .inBody s t
    else if n = nm! "col" then insertVoid s n as
    else if n = nm! "template" then k.acceptIn .inHead s t
    else leaveColgroup k s t
  | .closes n _ _ =>
    if n = nm! "colgroup" then do
      let cur ← current s
      if cur.q ≠ h (nm! "colgroup") then .ok s
      else do
        let s ← pop s
        .ok { s with mode := .inTable }
    else if n = nm! "col" then .ok s
    else if n = nm! "template" then k.acceptIn .inHead s t
    else leaveColgroup k s t
  | .eof => k.acceptIn .inBody s t

/-- Any of these is in table scope. -/
def anyInTableScope (s : St) : List Str → M Bool
  | [] => .ok false
  | n :: r => do if ← inTableScope s n then .ok true else anyInTableScope s r

/-- Leave the row group.  `parser.cpp:3385-3390,3411-3421`. -/
def leaveBody (s : St) : M St := do
  let s ← clearStack s tableBodyContext
  let s ← pop s
  .ok { s with mode := .inTable }

/-- `_handleInTableBody`.  `parser.cpp:3338-3440`. -/
def inTableBody (k : Rec) (s : St) (t : Tok) : M St :=
  let leaveThen : M St := do
    if ← anyInTableScope s [nm! "tbody", nm! "thead", nm! "tfoot"] then do
      let s ← leaveBody s
      k.accept s t
    else .ok s
  match t with
  | .opens n as _ =>
    if n = nm! "tr" then do
      let s ← clearStack s tableBodyContext
      let s ← insertHtml s n as
      .ok { s with mode := .inRow }
    else if isOne n [nm! "th", nm! "td"] then do
      let s ← clearStack s tableBodyContext
      let s ← insertHtml s (nm! "tr") []
      k.accept { s with mode := .inRow } t
    else if isOne n [nm! "caption", nm! "col", nm! "colgroup", nm! "tbody", nm! "tfoot",
        nm! "thead"] then leaveThen
    else k.acceptIn .inTable s t
  | .closes n _ _ =>
    if isOne n tableBodies then do
      if ← inTableScope s n then leaveBody s else .ok s
    else if n = nm! "table" then leaveThen
    else if isOne n [nm! "body", nm! "caption", nm! "col", nm! "colgroup", nm! "html", nm! "td",
        nm! "th", nm! "tr"] then .ok s
    else k.acceptIn .inTable s t
  | _ => k.acceptIn .inTable s t

/-- Leave the row.  `parser.cpp:3475-3484,3500-3509,3522-3532`. -/
def leaveRow (s : St) : M St := do
  let s ← clearStack s tableRowContext
  let s ← pop s
  .ok { s with mode := .inTableBody }

/-- `_handleInTableRow`.  `parser.cpp:3444-3546`. -/
def inRow (k : Rec) (s : St) (t : Tok) : M St :=
  let leaveThen : M St := do
    if ← inTableScope s (nm! "tr") then do
      let s ← leaveRow s
      k.accept s t
    else .ok s
  match t with
  | .opens n as _ =>
    if isOne n [nm! "th", nm! "td"] then do
      let s ← clearStack s tableRowContext
      let s ← insertHtml s n as
      .ok (pushMarker { s with mode := .inCell })
    else if isOne n [nm! "caption", nm! "col", nm! "colgroup", nm! "tbody", nm! "tfoot",
        nm! "thead", nm! "tr"] then leaveThen
    else k.acceptIn .inTable s t
  | .closes n _ _ =>
    if n = nm! "tr" then do
      if ← inTableScope s (nm! "tr") then leaveRow s else .ok s
    else if n = nm! "table" then leaveThen
    else if isOne n tableBodies then do
      if ← inTableScope s n then do
        let s ← leaveRow s
        k.accept s t
      else .ok s
    else if isOne n [nm! "body", nm! "caption", nm! "col", nm! "colgroup", nm! "html", nm! "td",
        nm! "th"] then .ok s
    else k.acceptIn .inTable s t
  | _ => k.acceptIn .inTable s t

/-- `_closeTheCell`.  `parser.cpp:3551-3569`. -/
def closeCell (s : St) : M St := do
  let s ← impliedEnds s
  let s ← clearMarker (popUntilOneOf s [nm! "td", nm! "th"])
  .ok { s with mode := .inRow }

/-- `_handleInCell`.  `parser.cpp:3550-3644`. -/
def inCell (k : Rec) (s : St) (t : Tok) : M St :=
  match t with
  | .opens n _ _ =>
    if isOne n tableParts then do
      let _ ← anyInTableScope s [nm! "td", nm! "tr"]
      let s ← closeCell s
      k.accept s t
    else k.acceptIn .inBody s t
  | .closes n _ _ =>
    if isOne n [nm! "td", nm! "th"] then do
      if ← inTableScope s n then do
        let s ← impliedEnds s
        let s ← clearMarker (popUntilOneOf s [n])
        .ok { s with mode := .inRow }
      else .ok s
    else if isOne n [nm! "body", nm! "caption", nm! "col", nm! "colgroup", nm! "html"] then .ok s
    else if isOne n [nm! "table", nm! "tbody", nm! "tfoot", nm! "thead", nm! "tr"] then do
      if ← inTableScope s n then do
        let s ← closeCell s
        k.accept s t
      else .ok s
    else k.acceptIn .inBody s t
  | _ => k.acceptIn .inBody s t

/-! ### The other modes -/

/-- `_handleInTemplate`.  `parser.cpp:3648-3746`. -/
def inTemplate (k : Rec) (s : St) (t : Tok) : M St :=
  match t with
  | .char _ | .comment _ | .doctype _ _ _ => k.acceptIn .inBody s t
  | .opens n _ _ =>
    if isOne n headNames then k.acceptIn .inHead s t
    else if isOne n [nm! "caption", nm! "colgroup", nm! "tbody", nm! "tfoot", nm! "thead"] then
      k.accept { s with mode := .inTable } t
    else if n = nm! "col" then k.accept { s with mode := .inColumnGroup } t
    else if isOne n [nm! "td", nm! "th"] then k.accept { s with mode := .inRow } t
    else k.accept { s with mode := .inBody } t
  | .closes n _ _ => if n = nm! "template" then k.acceptIn .inHead s t else .ok s
  | .eof =>
    if hasOpen s (nm! "template_") then do
      let s ← clearMarker (popUntilOneOf s [nm! "template_"])
      let s ← reset s
      k.accept s t
    else .ok s

/-- `_handleAfterBody`.  `parser.cpp:3750-3799`. -/
def afterBody (k : Rec) (s : St) (t : Tok) : M St :=
  match t with
  | .char c => if blankCr c then k.acceptIn .inBody s t else k.accept { s with mode := .inBody } t
  | .comment d =>
    match s.stack.getLast? with
    | none => .ok s
    | some b => insertComment s d (some ⟨b.id, none⟩)
  | .doctype _ _ _ => .ok s
  | .opens n _ _ =>
    if n = nm! "html" then k.acceptIn .inBody s t else k.accept { s with mode := .inBody } t
  | .closes n _ _ =>
    if n = nm! "html" then .ok { s with mode := .afterAfterBody }
    else k.accept { s with mode := .inBody } t
  | .eof => .ok s

/-- `_handleInFrameset`.  `parser.cpp:3803-3889`. -/
def inFrameset (k : Rec) (s : St) (t : Tok) : M St :=
  match t with
  | .char c => if blankCr c then insertChar s c else .ok s
  | .comment d => insertComment s d
  | .doctype _ _ _ => .ok s
  | .opens n as _ =>
    if n = nm! "html" then k.acceptIn .inBody s t
    else if n = nm! "frameset" then insertHtml s n as
    else if n = nm! "frame" then insertVoid s n as
    else if n = nm! "noframes" then k.acceptIn .inHead s t
    else .ok s
  | .closes n _ _ =>
    if n = nm! "frameset" then if s.stack.length = 1 then .ok s else pop s
    else .ok s
  | .eof => .ok s

/-- `_handleAfterFrameset`; the program never switches to it.  `parser.cpp:3893-3941`. -/
def afterFrameset (k : Rec) (s : St) (t : Tok) : M St :=
  match t with
  | .char c => if blankCr c then insertChar s c else .ok s
  | .comment d => insertComment s d
  | .doctype _ _ _ => .ok s
  | .opens n _ _ =>
    if n = nm! "html" then k.acceptIn .inBody s t
    else if n = nm! "noframes" then k.acceptIn .inHead s t
    else .ok s
  | .closes n _ _ => if n = nm! "html" then .ok { s with mode := .afterAfterFrameset } else .ok s
  | .eof => .ok s

/-- `_handleAfterAfterBody`.  `parser.cpp:3945-3970`. -/
def afterAfterBody (k : Rec) (s : St) (t : Tok) : M St :=
  match t with
  | .comment d => insertComment s d
  | .doctype _ _ _ => k.acceptIn .inBody s t
  | .char c => if blankCr c then k.acceptIn .inBody s t else k.accept { s with mode := .inBody } t
  | .opens n _ _ =>
    if n = nm! "html" then k.acceptIn .inBody s t else k.accept { s with mode := .inBody } t
  | .closes _ _ _ => k.accept { s with mode := .inBody } t
  | .eof => .ok s

/-- `_handleAfterAfterFrameset`; the program never switches to it.  `parser.cpp:3974-4004`. -/
def afterAfterFrameset (k : Rec) (s : St) (t : Tok) : M St :=
  match t with
  | .comment d => insertComment s d
  | .doctype _ _ _ => k.acceptIn .inBody s t
  | .char c => if blankCr c then k.acceptIn .inBody s t else .ok s
  | .opens n _ _ =>
    if n = nm! "html" then k.acceptIn .inBody s t
    else if n = nm! "noframes" then k.acceptIn .inHead s t
    else .ok s
  | .closes _ _ _ | .eof => .ok s

/-! ### Foreign content -/

/-- `_isMathMlTextIntegrationPoint`.  `parser.cpp:455-465`. -/
def mathText (el : El) : Bool :=
  el.q.ns = .math && isOne el.q.name [nm! "mi", nm! "mo", nm! "mn", nm! "ms", nm! "mtext"]

/-- `_isHtmlIntegrationPoint`.  `parser.cpp:468-494`. -/
def htmlPoint (s : St) (el : El) : Bool :=
  (el.q = ⟨.math, nm! "annotation-xml"⟩ &&
    (getAttr (s.data el.id) ⟨false, nm! "encoding"⟩ = some (nm! "text/html") ||
     getAttr (s.data el.id) ⟨false, nm! "encoding"⟩ = some (nm! "application/xhtml+xml"))) ||
  (el.q.ns = .svg && specialSvg.contains el.q.name)

/-- The start tags that end foreign content.  `parser.cpp:4072`. -/
def breakouts : List Str :=
  [nm! "b", nm! "big", nm! "blockquote", nm! "body", nm! "br", nm! "center", nm! "code",
   nm! "dd", nm! "div", nm! "dl", nm! "dt", nm! "em", nm! "embed", nm! "h1", nm! "h2", nm! "h3",
   nm! "h4", nm! "h5", nm! "h6", nm! "head", nm! "hr", nm! "i", nm! "img", nm! "li",
   nm! "listing", nm! "menu", nm! "meta", nm! "nobr", nm! "ol", nm! "p", nm! "pre", nm! "ruby",
   nm! "s", nm! "small", nm! "span", nm! "strong", nm! "strike", nm! "sub", nm! "sup",
   nm! "table", nm! "tt", nm! "u", nm! "ul", nm! "var"]

/-- Leave the foreign content, and begin again.  `parser.cpp:4076-4094`. -/
def breakOut (k : Rec) (s : St) (t : Tok) : M St :=
  k.accept { s with
    stack := s.stack.dropWhile fun e => !(mathText e || htmlPoint s e || e.q.ns = .html) } t

/-- An end tag: the open elements from the current one on.  After `curr--`, `_openElements[curr]`
is still the same element.  `parser.cpp:4146-4184`. -/
def foreignEnd (k : Rec) (s : St) (t : Tok) (n : Str) : List El → M St
  | [] => .ok s
  | e :: r =>
    if eqCi e.q.name n then
      match s.stack.dropWhile (· ≠ e) with
      | [] => .error .panic
      | _ :: st => .ok { s with stack := st }
    else if e.q.ns ≠ .html then foreignEnd k s t n r
    else k.acceptIn s.mode s t

/-- `_handleInForeignContent`.  `parser.cpp:4009-4185`. -/
def foreign (k : Rec) (s : St) (t : Tok) : M St :=
  match t with
  | .char c =>
    if c = '\x00' then insertChar s '�'
    else if blankCr c then insertChar s c
    else do
      let s ← insertChar s c
      .ok { s with framesetOk := false }
  | .comment d => insertComment s d
  | .doctype _ _ _ => .ok s
  | .opens n as self =>
    if isOne n breakouts || as.any (fun a => isOne a.name [nm! "color", nm! "face", nm! "size"])
    then breakOut k s t
    else do
      let cur ← current s
      let n := if cur.q.ns = .svg then cased svgTags n else n
      let as := if cur.q.ns = .svg then casedAttrs as else as
      let (s, _) ← insertForeign s cur.q.ns n as
      if self then pop s else .ok s
  | .closes n _ _ =>
    if isOne n [nm! "br", nm! "p"] then breakOut k s t
    else do
      let cur ← current s
      if cur.q = h (nm! "script") then pop s
      else foreignEnd k s t n s.stack
  | .eof => .ok s

/-! ### Everything together -/

/-- `_acceptIn`.  `parser.cpp:4191-4289`. -/
def handle (k : Rec) : Mode → St → Tok → M St
  | .initial => initial k
  | .beforeHtml => beforeHtml k
  | .beforeHead => beforeHead k
  | .inHead => inHead k
  | .inHeadNoscript => inHeadNoscript k
  | .afterHead => afterHead k
  | .inBody => inBody k
  | .text => text
  | .inTable => inTable k
  | .inTableText => inTableText k
  | .inCaption => inCaption k
  | .inColumnGroup => inColumnGroup k
  | .inTableBody => inTableBody k
  | .inRow => inRow k
  | .inCell => inCell k
  | .inTemplate => inTemplate k
  | .afterBody => afterBody k
  | .inFrameset => inFrameset k
  | .afterFrameset => afterFrameset k
  | .afterAfterBody => afterAfterBody k
  | .afterAfterFrameset => afterAfterFrameset k

/-- The token is for the current insertion mode, not for foreign content.
`parser.cpp:4309-4318`. -/
def forHtml (s : St) (t : Tok) : Bool :=
  match s.stack with
  | [] => true
  | e :: _ =>
    e.q.ns = .html ||
    (match t with
      | .opens n _ _ =>
        (mathText e && !isOne n [nm! "mglyph", nm! "malignmark"]) ||
        (e.q = ⟨.math, nm! "annotation-xml"⟩ && n = nm! "svg") || htmlPoint s e
      | .char _ => mathText e || htmlPoint s e
      | .eof => true
      | _ => false)

/-- `accept`.  `parser.cpp:4292-4328`. -/
def acceptStep (k : Rec) (s : St) (t : Tok) : M St :=
  if s.skipLf && t = .char '\n' then .ok { s with skipLf := false }
  else
    let s := { s with skipLf := false }
    if forHtml s t then k.acceptIn s.mode s t else foreign k s t

/-- `accept` (no mode) and `_acceptIn` (with a mode), to a bounded depth. -/
def run : Nat → Option Mode → St → Tok → M St
  | 0, _, _, _ => .error .endless
  | fuel + 1, m, s, t =>
    let k : Rec := ⟨run fuel none, fun m => run fuel (some m)⟩
    match m with
    | none => acceptStep k s t
    | some m => handle k m s t

/-- One token from the tokenizer. -/
def feed (depth : Nat) (s : St) (t : Tok) : M St := run depth none { s with lexer := none } t

/-- All of them. -/
def build (depth : Nat) : St → List Tok → M St
  | s, [] => .ok s
  | s, t :: ts => do
    let s ← feed depth s t
    build depth s ts

/-- What the tokenizer sees of the tree builder: the state it is put in after a start tag. -/
def sink (depth : Nat) (ts : List Html.Token) : Option Content :=
  match build depth {} (ts.map Tok.of) with
  | .ok s => s.lexer
  | .error _ => none

/-- `HtmlParser::write`: the tokenizer and the tree builder together.  `parser.cpp:4331-4350`. -/
def parse (depth : Nat) (doc : Str) : M St :=
  build depth {} ((Html.tokens ⟨Html.entities, sink depth⟩ doc).map Tok.of)

end Verif.Tree
