/-!
# Loading: model

`loader/loader.cpp` 152–291, `loader/loader-impl.cpp` 23–158, `dom/node.cpp` 51–61 and `style/stylesheet.cpp` 72–79. All
paths are relative to `src/vaev-engine`.

* The network is a parameter. Every request of `_fetchResourcesAsync` is made for one element, so what comes back is a
  function of the element and of the address: a server may answer two elements with the same address differently.
* A style sheet is the text that is parsed; the parser is the subject of other areas.
* Fetching the picture of an SVG image loads a document in turn; that recursion is `fetchImage` below, for which a
  server answers all requests for an address alike.
-/
namespace Verif.Load

/-- `Style::Origin`, `style/origin.cpp`, without `USER`. -/
inductive Origin where
  | userAgent | author
  deriving DecidableEq, Repr

/-- The elements that `_fetchResourcesAsync` tells apart, in the namespace of HTML. -/
inductive Tag where
  | img | style | link | other
  deriving DecidableEq, Repr

/-- An element: its attributes as far as they are read. -/
structure Elem where
  id : Nat
  tag : Tag := .other
  src : Option String := none
  rel : Option String := none
  href : Option String := none
  /-- `media`, which no function below reads. -/
  media : Option String := none
  deriving DecidableEq, Repr

/-- The document. -/
inductive Node where
  | text (s : String)
  | el (e : Elem) (kids : List Node)

/-- A style sheet in the list of the document; `owner` is the element that it comes from. -/
structure Sheet where
  origin : Origin
  owner : Option Nat
  text : String
  deriving DecidableEq, Repr

/-- `Element::imageContent`. -/
inductive Picture where
  | fetched (p : Nat)
  | placeholder
  deriving DecidableEq, Repr

/-- `document.styleSheets` and the pictures of the elements, the last one set first. -/
structure Doc where
  sheets : List Sheet := []
  pics : List (Nat × Picture) := []
  deriving DecidableEq, Repr

/-- The network: `sheet e u` is the text that comes back for the sheet of the element `e` at the address `u`, `image`
the picture. -/
structure Net where
  sheet : Nat → String → Option String
  image : Nat → String → Option Nat

mutual
/-- `Node::textContent`, `dom/node.cpp` 51–61. -/
def textOf : Node → String
  | .text s => s
  | .el _ ks => textsOf ks
def textsOf : List Node → String
  | [] => ""
  | n :: ns => textOf n ++ textsOf ns
end

mutual
/-- `_fetchResourcesAsync`, `loader.cpp` 179–233; the `Bool` tells whether it succeeded. -/
def fetchRes (net : Net) (d : Doc) : Node → Doc × Bool
  | .text _ => (d, true)
  | .el e ks =>
    match e.tag with
    | .img =>
      match e.src with
      | none => ({ d with pics := (e.id, .placeholder) :: d.pics }, false)
      | some u =>
        match net.image e.id u with
        | none => ({ d with pics := (e.id, .placeholder) :: d.pics }, false)
        | some p => ({ d with pics := (e.id, .fetched p) :: d.pics }, true)
    | .style => ({ d with sheets := d.sheets ++ [⟨.author, some e.id, textsOf ks⟩] }, true)
    | .link =>
      if e.rel = some "stylesheet" then
        match e.href with
        | none => (d, false)
        | some u =>
          match net.sheet e.id u with
          | none => (d, false)
          | some t => ({ d with sheets := d.sheets ++ [⟨.author, some e.id, t⟩] }, true)
      else (d, true)
    | .other => (fetchKids net d ks, true)
/-- The loop of `loader.cpp` 228–229. -/
def fetchKids (net : Net) (d : Doc) : List Node → Doc
  | [] => d
  | n :: ns => fetchKids net (fetchRes net d n).1 ns
end

/-- The built-in sheets, `loader.cpp` 255–279. -/
def builtins (quirk markdown : Bool) : List String :=
  ["html.css", "counters.css"] ++ (if quirk then ["html-quirk.css"] else []) ++
    (if markdown then ["markdown.css"] else []) ++ ["print.css", "svg.css", "math.css"]

/-- Adding the built-in sheets; `none` is the panic of `take`. -/
def addBuiltins (bundle : String → Option String) (d : Doc) : List String → Option Doc
  | [] => some d
  | n :: ns => (bundle n).bind fun t => addBuiltins bundle { d with sheets := d.sheets ++ [⟨.userAgent, none, t⟩] } ns

/-- `fetchDocumentAsync`, `loader.cpp` 252–281, after the document was parsed. -/
def fetchDocument (bundle : String → Option String) (net : Net) (quirk markdown : Bool) (root : List Node) : Option Doc :=
  (addBuiltins bundle {} (builtins quirk markdown)).map fun d => fetchKids net d root

/-! ## Fonts -/

/-- `FontSource`, with the `format()` it names. -/
inductive Source where
  | «local» (name : String)
  | url (u : String) (format : Option String)
  deriving DecidableEq, Repr

/-- `FontFace`, `style/fonts.cpp` 18–42. -/
structure Face where
  family : String
  sources : List Source
  deriving DecidableEq, Repr

/-- An entry that is added to the font database. -/
structure Entry where
  family : String
  url : String
  face : Nat
  deriving DecidableEq, Repr

/-- `_isDecodableFontFormat`, `loader-impl.cpp` 91–99; comparing without regard to case. -/
def decodable (f : String) : Bool :=
  !(["woff", "woff2", "svg", "embedded-opentype"].contains (f.map Char.toLower))

/-- What the loading of fonts asks: the font database for a local font, the address of a source in a sheet, the network. -/
structure FontNet where
  known : String → Bool
  resolve : String → Option String
  font : String → Option Nat

/-- `FontFace::valid`, `style/fonts.cpp` 40–42. -/
def Face.valid (f : Face) : Bool := f.family ≠ "" && !f.sources.isEmpty

/-- The loop over the sources, `loader-impl.cpp` 112–151. -/
def loadSources (net : FontNet) (family : String) : List Source → Option Entry
  | [] => none
  | .local n :: rest => if net.known n then none else loadSources net family rest
  | .url u fmt :: rest =>
    if fmt.isSome && !(decodable (fmt.getD "")) then loadSources net family rest
    else
      match net.resolve u with
      | none => loadSources net family rest
      | some a =>
        match net.font a with
        | none => loadSources net family rest
        | some p => some ⟨family, a, p⟩

/-- `_loadFontfacesAsync`, `loader-impl.cpp` 101–156, on the faces of one sheet. -/
def loadFaces (net : FontNet) : List Face → List Entry
  | [] => []
  | f :: fs =>
    if f.valid then (loadSources net f.family f.sources).toList ++ loadFaces net fs else loadFaces net fs

/-! ## Images in images -/

/-- The pictures that an address refers to: `some us` for an SVG document with the `<img>` elements `us`, `none` for a
picture of another kind (or for one that cannot be loaded). -/
abbrev Links := String → Option (List String)

/-- `_fetchImageContentAsync`, `loader-impl.cpp` 23–58, with `fetchDocumentAsync` on the SVG document, whose images are
fetched one after the other whatever becomes of them. `none` when the fuel is used up. -/
def fetchImage (links : Links) : Nat → String → Option Unit
  | 0, _ => none
  | fuel + 1, u =>
    match links u with
    | none => some ()
    | some us => us.foldr (fun v rest => (fetchImage links fuel v).bind fun _ => rest) (some ())

end Verif.Load
