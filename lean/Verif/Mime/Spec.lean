import Verif.Mime.Model
/-!
# What a response is loaded as: what is meant
-/
namespace Verif.Mime

/-- The type of a response: the one that the server declares, unless it declares none or says that it does not know; then what
the suffix of the address says, and if this says nothing, what the content looks like. -/
inductive HasType {T : Type} (U : Uti T) (ext : String) (r : Response T) (s : Text) : T → Prop
  | declared {t} : r.type = some t → t ≠ U.known .data → HasType U ext r s t
  | suffix : (∀ t, r.type = some t → t = U.known .data) → U.suffix ext ≠ U.known .data → HasType U ext r s (U.suffix ext)
  | sniffed : (∀ t, r.type = some t → t = U.known .data) → U.suffix ext = U.known .data → HasType U ext r s (U.sniff s)

mutual
/-- The text of a tree, in document order. -/
def Tree.textIn : Tree → Text
  | .el _ _ l => textsIn l
  | .text t => t
def textsIn : List Tree → Text
  | [] => []
  | t :: l => t.textIn ++ textsIn l
end

mutual
/-- The addresses of the pictures of a tree. -/
def Tree.pictures : Tree → List Text
  | .el tag attrs l => (if tag = "img" then (attrs.filter (·.1 == "src")).map (·.2) else []) ++ picturesIn l
  | .text _ => []
def picturesIn : List Tree → List Text
  | [] => []
  | t :: l => t.pictures ++ picturesIn l
end

/-- The document is what becomes of a resource of the kind `k` with the text `s`. -/
inductive Shows {T : Type} (P : Parsers) (s : Text) (d : Document T) : Known → Prop
  | html : d.kids = (P.html s).2 → d.quirk = (P.html s).1 → Shows P s d .html
  | xml : P.xml s = some d.kids → d.quirk = false → Shows P s d .xml
  | markdown : d.kids = (P.html (P.markdown s)).2 → d.quirk = (P.html (P.markdown s)).1 → Shows P s d .markdown
  | text : textsIn d.kids = s → picturesIn d.kids = [] → d.quirk = false → Shows P s d .text
  | image : textsIn d.kids = [] → picturesIn d.kids = [d.url] → d.quirk = false → Shows P s d .image
  | av : textsIn d.kids = [] → picturesIn d.kids = [d.url] → d.quirk = false → Shows P s d .av

/-- The kinds of documents that go before another one: HTML, XML and Markdown are texts, and what is a text and a picture, as
SVG is, is a text in the first place. -/
def Below (a b : Known) : Prop :=
  ((a = .html ∨ a = .xml ∨ a = .markdown) ∧ (b = .text ∨ b = .image ∨ b = .av)) ∨ a = .text ∧ (b = .image ∨ b = .av)

end Verif.Mime
