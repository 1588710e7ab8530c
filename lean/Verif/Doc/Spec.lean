import Verif.Dom.Preorder
import Verif.Doc.Model
/-!
# What the title, the root, the text and the styles of a document are

On the child lists of `Verif.Dom` (`Kids`): no links and no loops.
-/
namespace Verif.Doc
open Verif.Dom

/-- A document as the readers make it: only elements and documents have children, and a document is nobody's child. -/
structure Proper (k : Kids) (info : Info) : Prop where
  leaf : ∀ n, k n ≠ [] → info n = .document ∨ ∃ ns name, info n = .element ns name
  top : ∀ d, info d = .document → ∀ p, d ∉ k p

/-- The characters of a text node. -/
def chars : Kind → Text
  | .text s => s
  | _ => []

/-- `x` is the first of a list with a property. -/
def First (p : Nat → Prop) (l : List Nat) (x : Nat) : Prop :=
  ∃ pre post, l = pre ++ x :: post ∧ p x ∧ ∀ y ∈ pre, ¬ p y

/-- The root element: the first child of the document that is an element. -/
def RootIs (k : Kids) (info : Info) (doc r : Nat) : Prop :=
  First (fun c => ∃ ns name, info c = .element ns name) (k doc) r

/-- An element of HTML with this name. -/
def HtmlElement (name : String) (x : Kind) : Prop := x = .element (some "http://www.w3.org/1999/xhtml") name

/-- The body: the first `body` or `frameset` among the children of a root that is `html`. -/
def BodyIs (k : Kids) (info : Info) (doc b : Nat) : Prop :=
  ∃ r, RootIs k info doc r ∧ HtmlElement "html" (info r) ∧
    First (fun c => HtmlElement "body" (info c) ∨ HtmlElement "frameset" (info c)) (k r) b

/-- ASCII white space. -/
def isSpace (c : Nat) : Bool := c = 32 || c = 9 || c = 10 || c = 12 || c = 13

/-- The words of a text; `w` is the word that is being read. -/
def wordsOf (w : Text) : Text → List Text
  | [] => if w.isEmpty then [] else [w]
  | c :: r => if isSpace c then (if w.isEmpty then wordsOf [] r else w :: wordsOf [] r) else wordsOf (w ++ [c]) r

/-- White space stripped and collapsed: the words with single spaces between them. -/
def tidy (s : Text) : Text := List.intercalate [32] (wordsOf [] s)

/-- The text directly in an element. -/
def childText (k : Kids) (info : Info) (n : Nat) : Text := (k n).flatMap fun c => chars (info c)

/-- The title of a document.  In a drawing it is that of the drawing; otherwise the text of the first `title` in
document order, and without one there is none. -/
inductive TitleIs (k : Kids) (info : Info) (doc : Nat) : Text → Prop
  | drawing {r t : Nat} : RootIs k info doc r → info r = .element (some "http://www.w3.org/2000/svg") "svg" →
      First (fun c => info c = .element (some "http://www.w3.org/2000/svg") "title") (k r) t →
      TitleIs k info doc (tidy (childText k info t))
  | page {l : List Nat} {t : Nat} : (∀ r, RootIs k info doc r → info r ≠ .element (some "http://www.w3.org/2000/svg") "svg") →
      PreOrder k doc l → First (fun n => HtmlElement "title" (info n)) l t →
      TitleIs k info doc (tidy (childText k info t))
  | none {l : List Nat} : (∀ r, RootIs k info doc r → info r ≠ .element (some "http://www.w3.org/2000/svg") "svg") →
      PreOrder k doc l → (∀ n ∈ l, ¬ HtmlElement "title" (info n)) → TitleIs k info doc []

/-- The text of a node: that of all text nodes in it, in document order. -/
def TextIs (k : Kids) (info : Info) (n : Nat) (s : Text) : Prop :=
  ∃ l, PreOrder k n l ∧ s = l.flatMap fun m => chars (info m)

/-- The elements that are styled, with their values: the root, and the child elements of those. -/
inductive Styled (e : Engine S) (k : Kids) (info : Info) (r : Nat) : Nat → S → Prop
  | root : Styled e k info r r (e.root r)
  | child {p c : Nat} {s : S} : Styled e k info r p s → c ∈ k p → isElement (info c) = true →
      Styled e k info r c (e.own (e.root r) s c)

/-- An element with values `s` has this pseudo-element: its content is not `none`, and not `normal` either if it is
before or after the element; and only list items have markers. -/
def Has (e : Engine S) (r n : Nat) (s : S) : PType → Prop
  | .marker => e.item s = true ∧ e.content (e.pseudo (e.root r) s n .marker) ≠ .none
  | t => e.content (e.pseudo (e.root r) s n t) = .other

end Verif.Doc
