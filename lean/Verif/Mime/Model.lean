import Verif.Load.Model
/-!
# What a response is loaded as: model

`loader/loader.cpp` 26–151 and 242–279.  Paths are relative to `src/vaev-engine`.  The types of Karm (`Ref::Uti`) are
a parameter, with the relation `conformsTo`, the table of suffixes and the function that looks at the bytes; so are the decoder of
UTF-8, the parsers of HTML and XML, which other areas are about, and the one of Markdown.
-/
namespace Verif.Mime

/-- Bytes, and texts as lists of code points. -/
abbrev Bytes := List Nat
abbrev Text := List Nat

/-- The types that `loader.cpp` names: `Ref::Uti::PUBLIC_DATA`, `PUBLIC_HTML`, …; `av` is `PUBLIC_AV`. -/
inductive Known where
  | data | html | xml | markdown | text | image | av
deriving DecidableEq

/-- `Ref::Uti` of Karm. -/
structure Uti (T : Type) where
  known : Known → T
  conforms : T → T → Bool
  suffix : String → T
  sniff : Text → T

/-- `Http::Response`: the type and the character encoding of the header, and the body.  `loader.cpp` does not read the
encoding. -/
structure Response (T : Type) where
  type : Option T
  charset : Option String := none
  body : Option Bytes

/-- The nodes of a document as far as they are made here, with names of HTML. -/
inductive Tree where
  | el (tag : String) (attrs : List (String × Text)) (kids : List Tree)
  | text (t : Text)

/-- The parsers: of HTML with quirks mode, of XML, which may fail, and the one that makes HTML of Markdown. -/
structure Parsers where
  utf8 : Bytes → Option Text
  html : Text → Bool × List Tree
  xml : Text → Option (List Tree)
  markdown : Text → Text

/-- `Dom::Document`. -/
structure Document (T : Type) where
  url : Text
  type : T
  quirk : Bool := false
  kids : List Tree

/-- `_determineComputedType`, 26–38; `ext` is the suffix of the path of the address. -/
def computedType {T : Type} [DecidableEq T] (U : Uti T) (ext : String) (r : Response T) (body : Text) : T :=
  let t := r.type.getD (U.known .data)
  let t := if t = U.known .data then U.suffix ext else t
  if t = U.known .data then U.sniff body else t

/-- `_loadHtmlDocument`, 41–51; what is wrong with the text is only reported. -/
def loadHtml {T : Type} (P : Parsers) (url : Text) (t : T) (body : Text) : Document T :=
  ⟨url, t, (P.html body).1, (P.html body).2⟩

/-- `_loadXmlDocument`, 54–60. -/
def loadXml {T : Type} (P : Parsers) (url : Text) (t : T) (body : Text) : Option (Document T) :=
  (P.xml body).map fun k => ⟨url, t, false, k⟩

/-- `_loadTextDocument`, 63–71. -/
def loadText {T : Type} (url : Text) (t : T) (body : Text) : Document T := ⟨url, t, false, [.el "body" [] [.text body]]⟩

/-- `_loadMediaDocument`, 74–82. -/
def loadMedia {T : Type} (url : Text) (t : T) : Document T := ⟨url, t, false, [.el "body" [] [.el "img" [("src", url)] []]]⟩

/-- The choice of `_loadDocumentAsync`, 99–131. -/
def choose {T : Type} (U : Uti T) (P : Parsers) (url : Text) (t : T) (body : Text) : Option (Document T) :=
  if U.conforms t (U.known .html) then some (loadHtml P url t body)
  else if U.conforms t (U.known .xml) then loadXml P url t body
  else if U.conforms t (U.known .markdown) then some (loadHtml P url t (P.markdown body))
  else if U.conforms t (U.known .text) then some (loadText url t body)
  else if U.conforms t (U.known .image) || U.conforms t (U.known .av) then some (loadMedia url t)
  else none

/-- `_loadDocumentAsync`, 85–132; `none` is an error. -/
def load {T : Type} [DecidableEq T] (U : Uti T) (P : Parsers) (url : Text) (ext : String) (r : Response T) : Option (Document T) :=
  r.body.bind fun b => (P.utf8 b).bind fun s => choose U P url (computedType U ext r s) s

/-- `viewSourceAsync`, 134–150, for the response. -/
def viewSource {T : Type} (U : Uti T) (P : Parsers) (url : Text) (r : Response T) : Option (Document T) :=
  r.body.bind fun b => (P.utf8 b).map fun s => ⟨url, U.known .text, false, [.el "body" [] [.el "pre" [] [.text s]]]⟩

/-- The built-in sheets of a document, `fetchDocumentAsync`, 255–279. -/
def sheets {T : Type} [DecidableEq T] (U : Uti T) (d : Document T) : List String :=
  Verif.Load.builtins d.quirk (decide (d.type = U.known .markdown))

end Verif.Mime
