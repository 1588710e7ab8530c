import Lean
/-
Names of elements and attributes, and the lists of them that the tree builder looks into.
-/
namespace Verif.Tree

/-- `nm! "div"` is the list of characters `['d', 'i', 'v']`, written out. -/
macro "nm! " s:str : term => do
  let cs := (s.getString.toList.map fun c => Lean.Syntax.mkCharLit c).toArray
  `([$cs,*])

/-- The names that `SVG` elements are given back their upper-case letters from.
`dom/defs/ns-svg-tag-names.inc`. -/
def svgTags : List (List Char) :=
  [nm! "__unknown__", nm! "circle", nm! "ellipse", nm! "g", nm! "line", nm! "path",
   nm! "polygon", nm! "polyline", nm! "rect", nm! "svg", nm! "text", nm! "textPath", nm! "tspan",
   nm! "clipPath", nm! "defs", nm! "desc", nm! "foreignObject", nm! "linearGradient", nm! "mask",
   nm! "radialGradient", nm! "script", nm! "stop", nm! "style", nm! "symbol", nm! "title",
   nm! "use"]

/-- The same for attributes.  `dom/defs/ns-svg-attr-names.inc`. -/
def svgAttrs : List (List Char) :=
  [nm! "__unknown__", nm! "attributeName", nm! "attributeType", nm! "baseFrequency",
   nm! "baseProfile", nm! "calcMode", nm! "class", nm! "clipPathUnits", nm! "contentScriptType",
   nm! "contentStyleType", nm! "cx", nm! "cy", nm! "d", nm! "dx", nm! "dy",
   nm! "diffuseConstant", nm! "edgeMode", nm! "fill", nm! "fill-opacity", nm! "filterUnits",
   nm! "fr", nm! "fx", nm! "fy", nm! "glyphRef", nm! "gradientTransform", nm! "gradientUnits",
   nm! "height", nm! "href", nm! "id", nm! "kernelMatrix", nm! "kernelUnitLength",
   nm! "keyPoints", nm! "keySplines", nm! "keyTimes", nm! "lengthAdjust",
   nm! "limitingConeAngle", nm! "markerHeight", nm! "markerUnits", nm! "markerWidth",
   nm! "maskContentUnits", nm! "maskUnits", nm! "numOctaves", nm! "offset", nm! "opacity",
   nm! "pathLength", nm! "patternContentUnits", nm! "patternTransform", nm! "patternUnits",
   nm! "points", nm! "pointsAtX", nm! "pointsAtY", nm! "pointsAtZ", nm! "preserveAlpha",
   nm! "preserveAspectRatio", nm! "primitiveUnits", nm! "r", nm! "refX", nm! "refY",
   nm! "repeatCount", nm! "repeatDur", nm! "requiredExtensions", nm! "requiredFeatures",
   nm! "rx", nm! "ry", nm! "specularConstant", nm! "specularExponent", nm! "spreadMethod",
   nm! "startOffset", nm! "stdDeviation", nm! "stitchTiles", nm! "style", nm! "stroke",
   nm! "stroke-width", nm! "surfaceScale", nm! "systemLanguage", nm! "tableValues",
   nm! "targetX", nm! "targetY", nm! "transform", nm! "transform-origin", nm! "transform-box",
   nm! "textLength", nm! "version", nm! "viewBox", nm! "viewTarget", nm! "width", nm! "x",
   nm! "x1", nm! "x2", nm! "xChannelSelector", nm! "xlink_href", nm! "y", nm! "y1", nm! "y2",
   nm! "yChannelSelector", nm! "zoomAndPan"]

/-- The special elements of HTML.  `html/defs/special.inc:3-85`. -/
def specialHtml : List (List Char) :=
  [nm! "address", nm! "applet", nm! "area", nm! "article", nm! "aside", nm! "base",
   nm! "basefont", nm! "bgsound", nm! "blockquote", nm! "body", nm! "br", nm! "button",
   nm! "caption", nm! "center", nm! "col", nm! "colgroup", nm! "dd", nm! "details", nm! "dir",
   nm! "div", nm! "dl", nm! "dt", nm! "embed", nm! "fieldset", nm! "figcaption", nm! "figure",
   nm! "footer", nm! "form", nm! "frame", nm! "frameset", nm! "h1", nm! "h2", nm! "h3", nm! "h4",
   nm! "h5", nm! "h6", nm! "head", nm! "header", nm! "hgroup", nm! "hr", nm! "html",
   nm! "iframe", nm! "img", nm! "input", nm! "keygen", nm! "li", nm! "link", nm! "listing",
   nm! "main", nm! "marquee", nm! "menu", nm! "meta", nm! "nav", nm! "noembed", nm! "noframes",
   nm! "noscript", nm! "object", nm! "ol", nm! "p", nm! "param", nm! "plaintext", nm! "pre",
   nm! "script", nm! "search", nm! "section", nm! "select", nm! "source", nm! "style",
   nm! "summary", nm! "table", nm! "tbody", nm! "td", nm! "template_", nm! "textarea",
   nm! "tfoot", nm! "th", nm! "thead", nm! "title", nm! "tr", nm! "track", nm! "ul", nm! "wbr",
   nm! "xmp"]

/-- The special elements of MathML.  `html/defs/special.inc:87-93`. -/
def specialMath : List (List Char) :=
  [nm! "mi", nm! "mo", nm! "mn", nm! "ms", nm! "mtext", nm! "annotation-xml"]

/-- The special elements of SVG, which are also those that HTML may be in.
`html/defs/special.inc:95-97`, `html/parser.cpp:483-491`. -/
def specialSvg : List (List Char) :=
  [nm! "foreignObject", nm! "desc", nm! "title"]

/-- `IMPLIED_END_TAGS`, `rt` twice.  `dom/names.cpp:51-62`. -/
def impliedEnd : List (List Char) :=
  [nm! "dd", nm! "dt", nm! "li", nm! "option", nm! "optgroup", nm! "p", nm! "rb", nm! "rp",
   nm! "rt", nm! "rt"]

/-- `BASIC_SCOPE_DELIMITERS`; `TEMPLATE_TAG` is the name `template_`
(`dom/defs/ns-html-tag-names.inc:129`).  `dom/names.cpp:39-49`. -/
def scopeEnd : List (List Char) :=
  [nm! "applet", nm! "caption", nm! "html", nm! "table", nm! "td", nm! "th", nm! "marquee",
   nm! "object", nm! "template_"]

end Verif.Tree
