import Verif.Tree.Spec
/-
What the result of reading a document is like, whatever the document: a tree, with one root
element at its top, made of what the tokens are made of.

Of `Base.lean` only the types are used, with `St.data`, `St.kids`, `St.parent` and `St.quirks` to
look at the result.
-/
namespace Verif.Tree.Spec

open Verif.Html (Str Attr)

/-! ### Being a tree -/

/-- From the document down to a node, through the lists of children: the nodes before it. -/
inductive Way (s : St) : List Nat → Nat → Prop
  | root : Way s [] 0
  | step {l : List Nat} {p n : Nat} : Way s l p → n ∈ s.kids p → Way s (l ++ [p]) n

/-- The nodes make a tree. -/
structure IsTree (s : St) : Prop where
  /-- No node is in two places. -/
  unique : ∀ l l' n, Way s l n → Way s l' n → l = l'
  /-- No node is twice in one place. -/
  once : ∀ n, (s.kids n).Nodup
  /-- Going up is going back. -/
  parent : ∀ l p n, Way s l p → n ∈ s.kids p → s.parent n = some p
  /-- The document is at the top. -/
  root : s.parent 0 = none
  /-- Only elements and the document have anything inside. -/
  inner : ∀ l n, Way s l n → s.kids n ≠ [] → n = 0 ∨ ∃ q as, s.data n = .element q as
  /-- It is finite: deeper than this there is nothing. -/
  deep : ∀ l n, Way s l n → l.length < s.next

/-! ### What is in it -/

mutual
/-- A tree and all that is in it. -/
def Tree.parts : Tree → List Tree
  | .document ks => .document ks :: partsAll ks
  | .elem ns n as ks => .elem ns n as ks :: partsAll ks
  | .doctype a b c => [.doctype a b c]
  | .text d => [.text d]
  | .comment d => [.comment d]
def partsAll : List Tree → List Tree
  | [] => []
  | k :: ks => k.parts ++ partsAll ks
end

/-- What is in a tree, without itself. -/
def Tree.inside : Tree → List Tree
  | .document ks | .elem _ _ _ ks => partsAll ks
  | _ => []

/-- What may be anywhere below the document's own children: elements, comments, and text that is
not empty. -/
def Tree.inner : Tree → Prop
  | .elem _ _ _ _ => True
  | .comment _ => True
  | .text d => d ≠ []
  | .document _ | .doctype _ _ _ => False

/-- A document's own children: comments, at most one document type, comments, one `html` element. -/
def Top (quirks : Bool) (t : Tree) : Prop :=
  ∃ (before : List Str) (dt : List Tree) (after : List Str) (as : Attrs) (ks : List Tree),
    t = .document (before.map .comment ++ dt ++ after.map .comment ++ [.elem .html (nm! "html") as ks]) ∧
    ((dt = [] ∧ quirks = true) ∨ ∃ a b c, dt = [.doctype a b c] ∧ quirks = false)

/-! ### Where it is from -/

/-- The same name, but for the case of ASCII letters. -/
def Alike (a b : Str) : Prop := a.map Char.toLower = b.map Char.toLower

/-- An element made from a tag: `image` means `img`. -/
def Names (tag elem : Str) : Prop :=
  Alike tag elem ∨ (Alike tag (nm! "image") ∧ Alike elem (nm! "img"))

/-- A start tag, or `</br>`, which counts as one. -/
def Opens (ts : List Tok) (n : Str) (as : List Attr) : Prop :=
  ∃ self, Tok.opens n as self ∈ ts ∨ (n = nm! "br" ∧ Tok.closes n as self ∈ ts)

/-- The elements that may be there without a tag. -/
def unwritten : List Str :=
  [nm! "html", nm! "head", nm! "body", nm! "colgroup", nm! "tbody", nm! "tr", nm! "p"]

/-- All of this is in the tokens. -/
def From (ts : List Tok) : Tree → Prop
  | .document _ => True
  | .doctype a b c => ∃ a' b' c', Tok.doctype a' b' c' ∈ ts ∧
      a = a'.getD [] ∧ b = b'.getD [] ∧ c = c'.getD []
  | .comment d => Tok.comment d ∈ ts
  | .text d => ∀ c ∈ d, Tok.char c ∈ ts ∨ (c = '�' ∧ Tok.char '\x00' ∈ ts)
  | .elem _ n as _ =>
    ((∃ t bs, Opens ts t bs ∧ Names t n) ∨ ∃ t ∈ unwritten, Alike t n) ∧
    (as.map (·.1)).Nodup ∧
    ∀ a ∈ as, ∃ t bs b, Opens ts t bs ∧ b ∈ bs ∧ Alike b.name a.1.name ∧ b.value = a.2 ∧
      (Names t n ∨ Alike t (nm! "html") ∨ Alike t (nm! "body"))

end Verif.Tree.Spec
