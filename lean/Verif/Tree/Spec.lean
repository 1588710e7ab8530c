import Verif.Tree.Base
import Verif.Html.Spec
/-
What the tree of an HTML page is, said without the tree builder.

Of `Base.lean` only the types are used, with `St.data` and `St.kids` to look at the result.
-/
namespace Verif.Tree.Spec

open Verif.Html (Str Attr Content)
open Verif.Html.Spec (Space Item)

/-! ### Trees -/

inductive Tree
  | document (kids : List Tree)
  | doctype (name pub sys : Str)
  | elem (ns : Ns) (name : Str) (attrs : Attrs) (kids : List Tree)
  | text (d : Str)
  | comment (d : Str)
deriving Repr

mutual
def Tree.same : (a b : Tree) → Decidable (a = b)
  | .document x, .document y => match sames x y with
    | isTrue e => isTrue (by rw [e])
    | isFalse e => isFalse (by intro q; cases q; exact e rfl)
  | .doctype a b c, .doctype a' b' c' =>
    if e : a = a' ∧ b = b' ∧ c = c' then isTrue (by rw [e.1, e.2.1, e.2.2])
    else isFalse (by intro q; cases q; exact e ⟨rfl, rfl, rfl⟩)
  | .elem n q as x, .elem n' q' as' y =>
    if e : n = n' ∧ q = q' ∧ as = as' then match sames x y with
      | isTrue e' => isTrue (by rw [e.1, e.2.1, e.2.2, e'])
      | isFalse e' => isFalse (by intro q; cases q; exact e' rfl)
    else isFalse (by intro q; cases q; exact e ⟨rfl, rfl, rfl⟩)
  | .text a, .text b =>
    if e : a = b then isTrue (by rw [e]) else isFalse (by intro q; cases q; exact e rfl)
  | .comment a, .comment b =>
    if e : a = b then isTrue (by rw [e]) else isFalse (by intro q; cases q; exact e rfl)
  | .document _, .doctype .. | .document _, .elem .. | .document _, .text _
  | .document _, .comment _ | .doctype .., .document _ | .doctype .., .elem ..
  | .doctype .., .text _ | .doctype .., .comment _ | .elem .., .document _ | .elem .., .doctype ..
  | .elem .., .text _ | .elem .., .comment _ | .text _, .document _ | .text _, .doctype ..
  | .text _, .elem .. | .text _, .comment _ | .comment _, .document _ | .comment _, .doctype ..
  | .comment _, .elem .. | .comment _, .text _ => isFalse (by intro q; cases q)
def sames : (a b : List Tree) → Decidable (a = b)
  | [], [] => isTrue rfl
  | x :: xs, y :: ys => match x.same y, sames xs ys with
    | isTrue e, isTrue e' => isTrue (by rw [e, e'])
    | isFalse e, _ => isFalse (by intro q; cases q; exact e rfl)
    | _, isFalse e => isFalse (by intro q; cases q; exact e rfl)
  | [], _ :: _ | _ :: _, [] => isFalse (by intro q; cases q)
end

instance : DecidableEq Tree := Tree.same

/-- The tree below a node, down to a depth. -/
def view (s : St) : Nat → Nat → Tree
  | 0, _ => .text []
  | k + 1, n =>
    match s.data n with
    | .document => .document ((s.kids n).map (view s k))
    | .doctype a b c => .doctype a b c
    | .element q as => .elem q.ns q.name as ((s.kids n).map (view s k))
    | .text d => .text d
    | .comment d => .comment d

/-- The document.  No path in it is longer than there are nodes. -/
def tree (s : St) : Tree := view s s.next 0

/-! ### How a page is written -/

/-- The names of SVG that have upper-case letters, as HTML writes them and as they are. -/
def svgNames : List (Str × Str) :=
  [(nm! "textpath", nm! "textPath"), (nm! "clippath", nm! "clipPath"),
   (nm! "foreignobject", nm! "foreignObject"), (nm! "lineargradient", nm! "linearGradient"),
   (nm! "radialgradient", nm! "radialGradient")]

/-- The attributes of SVG that have upper-case letters. -/
def svgKeys : List (Str × Str) :=
  [(nm! "attributename", nm! "attributeName"), (nm! "attributetype", nm! "attributeType"),
   (nm! "basefrequency", nm! "baseFrequency"), (nm! "baseprofile", nm! "baseProfile"),
   (nm! "calcmode", nm! "calcMode"), (nm! "clippathunits", nm! "clipPathUnits"),
   (nm! "contentscripttype", nm! "contentScriptType"),
   (nm! "contentstyletype", nm! "contentStyleType"),
   (nm! "diffuseconstant", nm! "diffuseConstant"), (nm! "edgemode", nm! "edgeMode"),
   (nm! "filterunits", nm! "filterUnits"), (nm! "glyphref", nm! "glyphRef"),
   (nm! "gradienttransform", nm! "gradientTransform"),
   (nm! "gradientunits", nm! "gradientUnits"), (nm! "kernelmatrix", nm! "kernelMatrix"),
   (nm! "kernelunitlength", nm! "kernelUnitLength"), (nm! "keypoints", nm! "keyPoints"),
   (nm! "keysplines", nm! "keySplines"), (nm! "keytimes", nm! "keyTimes"),
   (nm! "lengthadjust", nm! "lengthAdjust"), (nm! "limitingconeangle", nm! "limitingConeAngle"),
   (nm! "markerheight", nm! "markerHeight"), (nm! "markerunits", nm! "markerUnits"),
   (nm! "markerwidth", nm! "markerWidth"), (nm! "maskcontentunits", nm! "maskContentUnits"),
   (nm! "maskunits", nm! "maskUnits"), (nm! "numoctaves", nm! "numOctaves"),
   (nm! "pathlength", nm! "pathLength"), (nm! "patterncontentunits", nm! "patternContentUnits"),
   (nm! "patterntransform", nm! "patternTransform"), (nm! "patternunits", nm! "patternUnits"),
   (nm! "pointsatx", nm! "pointsAtX"), (nm! "pointsaty", nm! "pointsAtY"),
   (nm! "pointsatz", nm! "pointsAtZ"), (nm! "preservealpha", nm! "preserveAlpha"),
   (nm! "preserveaspectratio", nm! "preserveAspectRatio"),
   (nm! "primitiveunits", nm! "primitiveUnits"), (nm! "refx", nm! "refX"),
   (nm! "refy", nm! "refY"), (nm! "repeatcount", nm! "repeatCount"),
   (nm! "repeatdur", nm! "repeatDur"), (nm! "requiredextensions", nm! "requiredExtensions"),
   (nm! "requiredfeatures", nm! "requiredFeatures"),
   (nm! "specularconstant", nm! "specularConstant"),
   (nm! "specularexponent", nm! "specularExponent"), (nm! "spreadmethod", nm! "spreadMethod"),
   (nm! "startoffset", nm! "startOffset"), (nm! "stddeviation", nm! "stdDeviation"),
   (nm! "stitchtiles", nm! "stitchTiles"), (nm! "surfacescale", nm! "surfaceScale"),
   (nm! "systemlanguage", nm! "systemLanguage"), (nm! "tablevalues", nm! "tableValues"),
   (nm! "targetx", nm! "targetX"), (nm! "targety", nm! "targetY"),
   (nm! "textlength", nm! "textLength"), (nm! "viewbox", nm! "viewBox"),
   (nm! "viewtarget", nm! "viewTarget"), (nm! "xchannelselector", nm! "xChannelSelector"),
   (nm! "ychannelselector", nm! "yChannelSelector"), (nm! "zoomandpan", nm! "zoomAndPan")]

def svgName (n : Str) : Str := (svgNames.lookup n).getD n
def svgAttr (a : Attr) : Attr := ⟨(svgKeys.lookup a.name).getD a.name, a.value⟩

/-- A part of a drawing: text, a comment, an element like `<rect/>`, an element with its parts. -/
inductive Shape
  | text (d : Str)
  | comment (d : Str)
  | lone (name : Str) (attrs : List Attr)
  | elem (name : Str) (attrs : List Attr) (kids : List Shape)

/-- A part of a page: text, a comment, an element without content (`<br>` or `<br/>`), an element
that holds text only, an element with its parts, a drawing. -/
inductive Node
  | text (d : Str)
  | comment (d : Str)
  | void (name : Str) (attrs : List Attr) (self : Bool)
  | raw (name : Str) (attrs : List Attr) (d : Str)
  | elem (name : Str) (attrs : List Attr) (kids : List Node)
  | drawing (attrs : List Attr) (kids : List Shape)

/-- What the elements that hold text only ask of the tokenizer. -/
def content (n : Str) : Content :=
  if n ∈ [nm! "title", nm! "textarea"] then .rcdata
  else if n = nm! "script" then .scriptData else .rawtext

/-- A token, with what the tokenizer is asked for after it. -/
abbrev Mark := Tok × Option Content

def calm (t : Tok) : Mark := (t, none)
def chars (d : Str) : List Mark := d.map fun c => calm (.char c)

mutual
/-- The tokens of a part of a drawing. -/
def Shape.marks : Shape → List Mark
  | .text d => chars d
  | .comment d => [calm (.comment d)]
  | .lone n as => [calm (.opens n as true)]
  | .elem n as ks => calm (.opens n as false) :: (shapeMarks ks ++ [calm (.closes n [] false)])
def shapeMarks : List Shape → List Mark
  | [] => []
  | x :: xs => x.marks ++ shapeMarks xs
end

mutual
/-- The tokens of a part. -/
def Node.marks : Node → List Mark
  | .text d => chars d
  | .comment d => [calm (.comment d)]
  | .void n as self => [calm (.opens n as self)]
  | .raw n as d => (.opens n as false, some (content n)) :: (chars d ++ [calm (.closes n [] false)])
  | .elem n as ks => calm (.opens n as false) :: (allMarks ks ++ [calm (.closes n [] false)])
  | .drawing as ks =>
    calm (.opens (nm! "svg") as false) :: (shapeMarks ks ++ [calm (.closes (nm! "svg") [] false)])
def allMarks : List Node → List Mark
  | [] => []
  | n :: ns => n.marks ++ allMarks ns
end

def plain (as : List Attr) : Attrs := as.map fun a => (⟨false, a.name⟩, a.value)

/-- Text after what is there already: texts side by side are one text. -/
def addText (acc : List Tree) (d : Str) : List Tree :=
  if d = [] then acc
  else match acc.getLast? with
    | some (.text e) => acc.dropLast ++ [.text (e ++ d)]
    | _ => acc ++ [.text d]

mutual
/-- The trees of a part of a drawing, after those that are there already. -/
def Shape.trees (acc : List Tree) : Shape → List Tree
  | .text d => addText acc d
  | .comment d => acc ++ [.comment d]
  | .lone n as => acc ++ [.elem .svg (svgName n) (plain (as.map svgAttr)) []]
  | .elem n as ks => acc ++ [.elem .svg (svgName n) (plain (as.map svgAttr)) (shapeTrees [] ks)]
def shapeTrees (acc : List Tree) : List Shape → List Tree
  | [] => acc
  | x :: xs => shapeTrees (x.trees acc) xs
end

mutual
/-- The trees of a part, after those that are there already. -/
def Node.trees (acc : List Tree) : Node → List Tree
  | .text d => addText acc d
  | .comment d => acc ++ [.comment d]
  | .void n as _ => acc ++ [.elem .html n (plain as) []]
  | .raw n as d => acc ++ [.elem .html n (plain as) (addText [] d)]
  | .elem n as ks => acc ++ [.elem .html n (plain as) (allTrees [] ks)]
  | .drawing as ks => acc ++ [.elem .svg (nm! "svg") (plain (as.map svgAttr)) (shapeTrees [] ks)]
def allTrees (acc : List Tree) : List Node → List Tree
  | [] => acc
  | n :: ns => allTrees (n.trees acc) ns
end

/-! ### What may stand where

`around` are the names of the elements around a place, the innermost first. -/

/-- Elements that cannot be inside a `p`. -/
def blocks : List Str :=
  [nm! "address", nm! "article", nm! "aside", nm! "blockquote", nm! "center", nm! "details",
   nm! "dialog", nm! "dir", nm! "div", nm! "dl", nm! "fieldset", nm! "figcaption", nm! "figure",
   nm! "footer", nm! "header", nm! "hgroup", nm! "main", nm! "menu", nm! "nav", nm! "ol", nm! "p",
   nm! "search", nm! "section", nm! "summary", nm! "ul", nm! "h1", nm! "h2", nm! "h3", nm! "h4",
   nm! "h5", nm! "h6", nm! "pre", nm! "listing", nm! "form", nm! "li", nm! "dd", nm! "dt",
   nm! "hr", nm! "xmp"]

def titles : List Str := [nm! "h1", nm! "h2", nm! "h3", nm! "h4", nm! "h5", nm! "h6"]

/-- Elements that cannot be inside one of the same name. -/
def lone : List Str :=
  [nm! "form", nm! "button", nm! "select", nm! "applet", nm! "marquee", nm! "object"]

/-- Elements that cannot be inside one of the same name, unless there is a table cell between. -/
def formats : List Str :=
  [nm! "a", nm! "b", nm! "big", nm! "code", nm! "em", nm! "font", nm! "i", nm! "nobr", nm! "s",
   nm! "small", nm! "strike", nm! "strong", nm! "tt", nm! "u"]

/-- Elements and the parents that they have to have. -/
def parents : List (Str × List Str) :=
  [(nm! "li", [nm! "ul", nm! "ol", nm! "menu"]), (nm! "dd", [nm! "dl"]), (nm! "dt", [nm! "dl"]),
   (nm! "option", [nm! "select", nm! "optgroup", nm! "datalist"]), (nm! "optgroup", [nm! "select"]),
   (nm! "rb", [nm! "ruby"]), (nm! "rtc", [nm! "ruby"]), (nm! "rp", [nm! "ruby"]),
   (nm! "rt", [nm! "ruby"]),
   (nm! "caption", [nm! "table"]), (nm! "colgroup", [nm! "table"]), (nm! "thead", [nm! "table"]),
   (nm! "tbody", [nm! "table"]), (nm! "tfoot", [nm! "table"]),
   (nm! "tr", [nm! "thead", nm! "tbody", nm! "tfoot"]), (nm! "td", [nm! "tr"]),
   (nm! "th", [nm! "tr"])]

/-- Elements and the only children that they can have. -/
def children : List (Str × List Str) :=
  [(nm! "table", [nm! "caption", nm! "colgroup", nm! "thead", nm! "tbody", nm! "tfoot"]),
   (nm! "colgroup", [nm! "col"]), (nm! "thead", [nm! "tr"]), (nm! "tbody", [nm! "tr"]),
   (nm! "tfoot", [nm! "tr"]), (nm! "tr", [nm! "td", nm! "th"])]

def emptyOnes : List Str :=
  [nm! "area", nm! "br", nm! "embed", nm! "img", nm! "keygen", nm! "wbr", nm! "input",
   nm! "param", nm! "source", nm! "track", nm! "hr", nm! "base", nm! "basefont", nm! "bgsound",
   nm! "link", nm! "meta"]

def textOnes : List Str :=
  [nm! "title", nm! "style", nm! "script", nm! "noframes", nm! "textarea", nm! "iframe",
   nm! "noembed", nm! "xmp"]

/-- Names that are not covered here. -/
def barred : List Str :=
  [nm! "html", nm! "head", nm! "body", nm! "frameset", nm! "frame", nm! "plaintext", nm! "image",
   nm! "template", nm! "template_", nm! "svg", nm! "math", nm! "col"]

def isCell (n : Str) : Bool := [nm! "td", nm! "th", nm! "caption"].contains n

/-- An element may begin here. -/
def allowed (around : List Str) (n : Str) : Bool :=
  let parent := around.headD []
  (!blocks.contains n || !around.contains (nm! "p")) &&
  (!titles.contains n || !titles.contains parent) &&
  (!lone.contains n || !around.contains n) &&
  (!formats.contains n || !(around.takeWhile (!isCell ·)).contains n) &&
  (!(n == nm! "input") || !around.contains (nm! "select")) &&
  (match parents.lookup n with
    | some ps => ps.contains parent
    | none => true) &&
  (match children.lookup parent with
    | some ks => ks.contains n
    | none => true)

def distinct (as : List Attr) : Bool := decide (as.map Attr.name).Nodup

/-- Text is allowed here: only white space inside a table and outside its cells. -/
def textAllowed (around : List Str) (d : Str) : Bool :=
  d.all fun c => c != '\x00' &&
    ((children.lookup (around.headD [])).isNone || c == ' ' || c == '\n' || c == '\t' || c == '\x0c')

/-- A line feed at the very start of `pre`, `listing` and `textarea` is not part of the text. -/
def noFeed (n : Str) (ks : List Node) : Bool :=
  !([nm! "pre", nm! "listing"].contains n && (allMarks ks).head?.map (·.1) = some (.char '\n'))

/-- Elements that HTML begins again with, wherever they are, or inside of which it does. -/
def notShapes : List Str :=
  [nm! "b", nm! "big", nm! "blockquote", nm! "body", nm! "br", nm! "center", nm! "code", nm! "dd",
   nm! "div", nm! "dl", nm! "dt", nm! "em", nm! "embed", nm! "h1", nm! "h2", nm! "h3", nm! "h4",
   nm! "h5", nm! "h6", nm! "head", nm! "hr", nm! "i", nm! "img", nm! "li", nm! "listing",
   nm! "menu", nm! "meta", nm! "nobr", nm! "ol", nm! "p", nm! "pre", nm! "ruby", nm! "s",
   nm! "small", nm! "span", nm! "strong", nm! "strike", nm! "sub", nm! "sup", nm! "table",
   nm! "tt", nm! "u", nm! "ul", nm! "var", nm! "desc", nm! "title", nm! "foreignobject"]

def small (n : Str) : Bool := n.all fun c => !(65 ≤ c.toNat && c.toNat ≤ 90)

/-- Attributes that an element of a drawing may have. -/
def shapeAttrs (as : List Attr) : Bool :=
  distinct (as.map svgAttr) && as.all fun a => small a.name &&
    ![nm! "color", nm! "face", nm! "size"].contains a.name

mutual
def Shape.fits : Shape → Bool
  | .text d => d.all (· != '\x00')
  | .comment _ => true
  | .lone n as => small n && !notShapes.contains n && shapeAttrs as
  | .elem n as ks => small n && !notShapes.contains n && shapeAttrs as && shapesFit ks
def shapesFit : List Shape → Bool
  | [] => true
  | x :: xs => x.fits && shapesFit xs
end

mutual
/-- The part may stand here. -/
def Node.fits (around : List Str) : Node → Bool
  | .text d => textAllowed around d
  | .comment _ => true
  | .void n as _ => (emptyOnes.contains n || n == nm! "col" && around.headD [] == nm! "colgroup") &&
      allowed around n && distinct as
  | .raw n as d => textOnes.contains n && allowed around n && distinct as && d.all (· != '\x00') &&
      !(n == nm! "textarea" && d.head? == some '\n')
  | .elem n as ks => !emptyOnes.contains n && !textOnes.contains n && !barred.contains n &&
      allowed around n && distinct as && noFeed n ks && allFit (n :: around) ks
  | .drawing as ks => allowed around (nm! "svg") && distinct (as.map svgAttr) &&
      as.all (fun a => small a.name) && shapesFit ks
def allFit (around : List Str) : List Node → Bool
  | [] => true
  | n :: ns => n.fits around && allFit around ns
end

/-- What may stand in the head: white space, comments, and these elements. -/
def Node.inHead : Node → Bool
  | .text d => d.all fun c => c == ' ' || c == '\n' || c == '\t' || c == '\x0c'
  | .comment _ => true
  | .void n as _ =>
    [nm! "base", nm! "basefont", nm! "bgsound", nm! "link", nm! "meta"].contains n && distinct as
  | .raw n as d => [nm! "title", nm! "style", nm! "script", nm! "noframes"].contains n &&
      distinct as && d.all (· != '\x00')
  | .elem _ _ _ => false
  | .drawing _ _ => false

/-! ### Pages -/

/-- A page.  The tags of `html`, `head` and `body`, the end tags of these and the document type can
be left out. -/
structure Page where
  /-- white space and comments -/
  lead : List Node
  doctype : Option (Option Str × Option Str × Option Str)
  gap : Str
  /-- the tag of `html` -/
  html : Option (List Attr)
  /-- white space and comments -/
  gap' : List Node
  /-- the tag of `head` -/
  headTag : Option (List Attr)
  head : List Node
  /-- the end tag of `head`, with the white space and the comments after it -/
  headEnd : Option (List Node)
  /-- the tag of `body` -/
  bodyTag : Option (List Attr)
  body : List Node
  /-- the end tag of `body`, with the white space after it -/
  bodyEnd : Option Str
  /-- the end tag of `html`, with the white space after it -/
  htmlEnd : Option Str

def blankText (d : Str) : Bool := d.all fun c => c == ' ' || c == '\n' || c == '\t' || c == '\x0c'

/-- White space. -/
def Node.isBlank : Node → Bool
  | .text d => blankText d
  | _ => false

/-- White space or a comment. -/
def Node.isLead : Node → Bool
  | .text d => blankText d
  | .comment _ => true
  | _ => false

def Node.isTag : Node → Bool
  | .void _ _ _ => true
  | .raw _ _ _ => true
  | _ => false

def tag (n : Str) : Option (List Attr) → List Mark
  | none => []
  | some as => [calm (.opens n as false)]

def endTag (n : Str) : Option Str → List Mark
  | none => []
  | some d => calm (.closes n [] false) :: chars d

/-- The body with its end. -/
def Page.rest (p : Page) : List Mark :=
  allMarks p.body ++ (endTag (nm! "body") p.bodyEnd ++ (endTag (nm! "html") p.htmlEnd ++ [calm .eof]))

def Page.headEndMarks (p : Page) : List Mark :=
  match p.headEnd with
  | none => []
  | some ns => calm (.closes (nm! "head") [] false) :: allMarks ns

def Page.doctypeMarks (p : Page) : List Mark :=
  match p.doctype with
  | none => []
  | some (a, b, c) => [calm (.doctype a b c)]

/-- The tokens of the page. -/
def Page.marks (p : Page) : List Mark :=
  allMarks p.lead ++ (p.doctypeMarks ++ (chars p.gap ++ (tag (nm! "html") p.html ++
    (allMarks p.gap' ++ (tag (nm! "head") p.headTag ++ (allMarks p.head ++ (p.headEndMarks ++
    (tag (nm! "body") p.bodyTag ++ p.rest))))))))

/-- A token with which a body without a tag begins: neither white space, nor a comment, nor a tag
that belongs to the head. -/
def solid : Tok → Bool
  | .char c => !(c == ' ' || c == '\n' || c == '\t' || c == '\x0c' || c == '\r')
  | .opens n _ _ => ![nm! "html", nm! "head", nm! "body", nm! "frameset", nm! "base",
      nm! "basefont", nm! "bgsound", nm! "link", nm! "meta", nm! "title", nm! "noframes",
      nm! "style", nm! "script", nm! "template", nm! "noscript"].contains n
  | .closes n _ _ => n == nm! "body" || n == nm! "html"
  | .eof => true
  | _ => false

def fine : Option (List Attr) → Bool
  | none => true
  | some as => distinct as

def blankEnd : Option Str → Bool
  | none => true
  | some d => blankText d

def Page.ok (p : Page) : Bool :=
  p.lead.all Node.isLead && blankText p.gap && fine p.html &&
  p.gap'.all (if p.html.isSome then Node.isLead else Node.isBlank) &&
  fine p.headTag && p.head.all Node.inHead && (p.headTag.isSome || (p.head.take 1).all Node.isTag) &&
  (p.headEnd.getD []).all Node.isLead && fine p.bodyTag &&
  (p.bodyTag.isSome || (p.rest.take 1).all fun m => solid m.1) &&
  allFit [nm! "body", nm! "html"] p.body && blankEnd p.bodyEnd && blankEnd p.htmlEnd

/-- The comments. -/
def Node.leadTree : Node → List Tree
  | .comment d => [.comment d]
  | _ => []

def Page.doctypeTree (p : Page) : List Tree :=
  match p.doctype with
  | none => []
  | some (a, b, c) => [.doctype (a.getD []) (b.getD []) (c.getD [])]

/-- The tree of the page.  `html`, `head` and `body` are there whether or not their tags are; the
white space before `html` and before `head` is dropped, and that after `body` belongs to `body`. -/
def Page.tree (p : Page) : Tree :=
  .document (p.lead.flatMap Node.leadTree ++ (p.doctypeTree ++
    [.elem .html (nm! "html") (plain (p.html.getD []))
       (allTrees (p.gap'.flatMap Node.leadTree ++
          [.elem .html (nm! "head") (plain (p.headTag.getD [])) (allTrees [] p.head)])
        (p.headEnd.getD []) ++
        [.elem .html (nm! "body") (plain (p.bodyTag.getD []))
          (allTrees [] (p.body ++ [.text (p.bodyEnd.getD []), .text (p.htmlEnd.getD [])]))])]))

/-! ### From the source -/

/-- What the items of the grammar of C114 give to the tree builder. -/
def itemMarks : List Item → List Mark
  | [] => []
  | .raw k t bs e :: is =>
    (Tok.of (t.means .startTag), some k) ::
      ((Html.Spec.bitMeanings bs).map (fun c => calm (.char c)) ++
        [calm (Tok.of (e.means .endTag))]) ++ itemMarks is
  | i :: is => i.means.map (fun t => calm (Tok.of t)) ++ itemMarks is

end Verif.Tree.Spec
