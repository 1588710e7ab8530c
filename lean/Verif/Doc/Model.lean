import Verif.Dom.Model
/-!
# Model of a document: its title, its root, its address and its styles

Source: `dom/document.cpp`, `dom/node.cpp`, `dom/node-impl.cpp`, `dom/element.cpp`, `dom/character-data.cpp` and the
styling part of `style/computer.cpp`.  All paths are relative to `/repo/src/vaev-engine`.  The tree is the heap of links
of `Verif.Dom`; what else a node is, is given by `Info`.  Loops along links have fuel; the outer `none` is a loop that
did not end within it.
-/
namespace Verif.Doc
open Verif.Dom

/-- Characters. -/
abbrev Text := List Nat

/-- `NodeType`, `dom/node.cpp:10-28`, with the data of `CharacterData` (`dom/character-data.cpp:11-28`) and the
`QualifiedName` of an element (`dom/names.cpp:14-18`).  Attributes, CDATA sections, instructions and fragments are
never made. -/
inductive Kind where
  | document
  | doctype
  | text (s : Text)
  | comment (s : Text)
  | element (ns : Option String) (name : String)
deriving DecidableEq, Repr

/-- What each node is. -/
abbrev Info := Nat → Kind

/-- `Html::NAMESPACE`, `dom/names.cpp:32`. -/
def htmlNs : String := "http://www.w3.org/1999/xhtml"

/-- `Html::TITLE_TAG` and the like, `dom/names.cpp:34-36`. -/
def htmlTag (name : String) : Kind := .element (some htmlNs) name

/-- `node->is<Element>()`, `dom/node.cpp:36-40`. -/
def isElement : Kind → Bool
  | .element _ _ => true
  | _ => false

/-- `namespaceUri`, `dom/element.cpp:98-100`. -/
def nsOf : Kind → Option String
  | .element ns _ => ns
  | _ => none

/-- A loop `for (child = start; child; child = child->nextSibling()) if (p) return child; return nullptr`. -/
def firstWhere (h : Heap) (p : Nat → Bool) : Nat → Option Nat → Option (Option Nat)
  | _, none => some none
  | 0, some _ => none
  | f + 1, some c => if p c then some (some c) else firstWhere h p f (h c).nextSibling

/-- `Document::documentElement`, `dom/document.cpp:82-87`. -/
def documentElement (h : Heap) (info : Info) (f doc : Nat) : Option (Option Nat) :=
  firstWhere h (fun c => isElement (info c)) f (h doc).firstChild

/-- `Document::body`, `dom/document.cpp:90-106`. -/
def body (h : Heap) (info : Info) (f doc : Nat) : Option (Option Nat) :=
  match documentElement h info f doc with
  | none => none
  | some none => some none
  | some (some r) =>
    if info r ≠ htmlTag "html" then some none
    else firstWhere h (fun c => info c == htmlTag "body") f (h r).firstChild

mutual
/-- `getTextContent`: `dom/node.cpp:54`, `dom/character-data.cpp:32-34`, `dom/element.cpp:164-167`. -/
def getText (h : Heap) (info : Info) : Nat → Nat → Option Text
  | 0, _ => none
  | f + 1, n =>
    match info n with
    | .element _ _ => textSiblings h info f (h n).firstChild
    | .text s => some s
    | .comment s => some s
    | _ => some []
/-- The loop of `dom/element.cpp:165-166`. -/
def textSiblings (h : Heap) (info : Info) : Nat → Option Nat → Option Text
  | _, none => some []
  | 0, some _ => none
  | f + 1, some c =>
    match getText h info f c, textSiblings h info f (h c).nextSibling with
    | some a, some b => some (a ++ b)
    | _, _ => none
end

/-- `Document::title`, `dom/document.cpp:62-70`.  The code leaves the iteration at the first title; here the
iteration is a list. -/
def title (h : Heap) (info : Info) (f doc : Nat) : Option Text :=
  (iterDepthFirst h f doc).bind fun l =>
    match l.find? (fun n => info n == htmlTag "title") with
    | some t => getText h info f t
    | none => some []

/-- The loop of `Node::ownerDocument`, `dom/node-impl.cpp:20-25`. -/
def owner (h : Heap) (info : Info) : Nat → Option Nat → Option (Option Nat)
  | _, none => some none
  | 0, some _ => none
  | f + 1, some c => if info c = .document then some (some c) else owner h info f (h c).parent

/-- `Node::ownerDocument`, `dom/node-impl.cpp:20-33`. -/
def ownerDocument (h : Heap) (info : Info) (f n : Nat) : Option (Option Nat) := owner h info f (h n).parent

/-- What `baseURI` does. -/
inductive Base where
  | panic
  | url (u : Text)
deriving DecidableEq, Repr

/-- `Node::baseURI`, `dom/node-impl.cpp:12-17`; `url` is the address of each document. -/
def baseURI (h : Heap) (info : Info) (url : Nat → Text) (f n : Nat) : Option Base :=
  (ownerDocument h info f n).map fun
    | none => .panic
    | some d => .url (url d)

/-- `BackgroundProps`, `values/background.cpp:300-309`: a colour and the images of the layers. -/
structure Bg where
  color : Nat × Nat × Nat × Nat := (0, 0, 0, 0)
  images : List (Option Nat) := []
deriving DecidableEq, Repr

/-- `rootBackground->color == TRANSPARENT and rootBackground->imageIsNone()`, `style/computer.cpp:467`,
`values/color.cpp:225`. -/
def Bg.isNone (b : Bg) : Bool := b.color == (0, 0, 0, 0) && b.images.all (· == none)

/-- A write of one element's value. -/
def upd (g : Nat → α) (n : Nat) (v : α) : Nat → α := fun m => if m = n then v else g m

/-- A null pointer is followed, or the work is done. -/
inductive Done (α : Type) where
  | fault
  | ok (a : α)
deriving DecidableEq, Repr

/-- `_propagateBodyBackgroundToHtml`, `style/computer.cpp:453-478`; every element has a style of its own. -/
def propagate (h : Heap) (info : Info) (f doc : Nat) (bg : Nat → Bg) : Option (Done (Nat → Bg)) :=
  match documentElement h info f doc with
  | none => none
  | some none => some .fault
  | some (some r) =>
    if nsOf (info r) ≠ some htmlNs then some (.ok bg)
    else
      match body h info f doc with
      | none => none
      | some none => some (.ok bg)
      | some (some b) =>
        if (bg r).isNone then some (.ok (upd (upd bg r (bg b)) b {})) else some (.ok bg)

/-- The pseudo-elements, `dom/element.cpp:57-61`. -/
inductive PType where
  | before | after | marker
deriving DecidableEq, Repr

/-- `content`, as far as `generatePseudoElement` looks at it. -/
inductive Content where
  | none | normal | other
deriving DecidableEq, Repr

/-- `computeValues`, `style/computer.cpp:355-397`, is a parameter (its parts are modelled in `Verif.RuleIndex`,
`Verif.Cascade`, `Verif.Registry` and `Verif.Decl`): the values of the root element, those of another element from the
values of the root and of its parent, and those of a pseudo-element from the values of the root and of its element.
`item` is `display == Display::Item::YES`. -/
structure Engine (S : Type) where
  root : Nat → S
  own : S → S → Nat → S
  pseudo : S → S → Nat → PType → S
  item : S → Bool
  content : S → Content

/-- `_computedValues` and `_pseudoElements` of all elements, `dom/element.cpp:70-73`. -/
structure Styles (S : Type) where
  style : Nat → Option S
  pseudo : Nat → PType → Option S

/-- `generatePseudoElement`, `style/computer.cpp:416-431`, with `addPseudoElement` (`dom/element.cpp:198-201`). -/
def generate (e : Engine S) (rs s : S) (n : Nat) (t : PType) (st : Styles S) : Styles S :=
  let v := e.pseudo rs s n t
  if e.content v = .none then st
  else if e.content v = .normal ∧ (t = .before ∨ t = .after) then st
  else { st with pseudo := fun m u => if m = n ∧ u = t then some v else st.pseudo m u }

/-- What `styleElement` does with the element itself, `style/computer.cpp:434-441`. -/
def styleOne (e : Engine S) (rs s : S) (n : Nat) (st : Styles S) : Styles S :=
  let st := { st with style := upd st.style n (some s) }
  let st := if e.item s then generate e rs s n .marker st else st
  let st := generate e rs s n .after st
  generate e rs s n .before st

mutual
/-- `styleElement`, `style/computer.cpp:433-447`, once the values `s` of the element are computed; `rs` are those of
the root. -/
def styleElement (e : Engine S) (h : Heap) (info : Info) (rs : S) : Nat → S → Nat → Styles S → Option (Styles S)
  | 0, _, _, _ => none
  | f + 1, s, n, st => styleKids e h info rs f s (h n).firstChild (styleOne e rs s n st)
/-- The loop of `style/computer.cpp:443-446`. -/
def styleKids (e : Engine S) (h : Heap) (info : Info) (rs : S) : Nat → S → Option Nat → Styles S → Option (Styles S)
  | _, _, none, st => some st
  | 0, _, some _, _ => none
  | f + 1, s, some c, st =>
    if isElement (info c) then
      (styleElement e h info rs f (e.own rs s c) c st).bind (styleKids e h info rs f s (h c).nextSibling)
    else styleKids e h info rs f s (h c).nextSibling st
end

/-- The styling part of `styleDocument`, `style/computer.cpp:501-504`. -/
def styleDocument (e : Engine S) (h : Heap) (info : Info) (f doc : Nat) (st : Styles S) : Option (Styles S) :=
  match documentElement h info f doc with
  | none => none
  | some none => some st
  | some (some r) => styleElement e h info (e.root r) f (e.root r) r st

end Verif.Doc
