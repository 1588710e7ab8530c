import Verif.Tree.Props
import Verif.Tree.Origin
import Verif.Html.Props
/-
The HTML tree builder on every document there is: what it gives, when it gives something (C123
says when it does not), is a tree with one root element, made of what the document is made of.
-/
namespace Verif.Tree
open Verif.Html (Str Attr Content Token)
open Spec

set_option maxRecDepth 100000

/-- The tokens of a document, without the end of the file. -/
def tokensOf (d : Nat) (doc : Str) : List Tok :=
  ((Html.tokens ⟨Html.entities, sink d⟩ doc).map Tok.of).dropLast

theorem tokensOf_eof (d : Nat) (doc : Str) :
    (Html.tokens ⟨Html.entities, sink d⟩ doc).map Tok.of = tokensOf d doc ++ [.eof] := by
  obtain ⟨before, last, e, hl, -⟩ := (Html.C111_tokens_end (sink d) doc).1
  have e' : Html.tokens ⟨Html.entities, sink d⟩ doc = before ++ [last] := e
  unfold tokensOf
  rw [e', List.map_append, List.map_singleton, List.dropLast_concat]
  congr 2
  unfold Tok.of
  rw [hl]

theorem parse_build {d : Nat} {doc : Str} {s : St} (h : parse d doc = .ok s) :
    build d {} (tokensOf d doc ++ [.eof]) = .ok s := by
  rw [← tokensOf_eof]
  exact h

theorem all_sound {d : Nat} {ts : List Tok} {s : St} (h : build d {} (ts ++ [.eof]) = .ok s) :
    Sound (srcOf ts) s := build_sound (srcOf_closed ts) id (fun _ => srcOf_tok) h

/-! ### C129: the result is a tree -/

/-- **C129.**  Whatever the tokens, the nodes make a tree. -/
theorem C129_tokens {d : Nat} {ts : List Tok} {s : St} (h : build d {} (ts ++ [.eof]) = .ok s) :
    IsTree s := heap_isTree (all_sound h).1.1.heap

/-- **C129.**  Whatever the document, the nodes make a tree. -/
theorem C129_document {d : Nat} {doc : Str} {s : St} (h : parse d doc = .ok s) : IsTree s :=
  C129_tokens (parse_build h)

/-- Nothing of it is left out when it is looked at: a deeper look shows the same. -/
theorem C129_whole {d : Nat} {doc : Str} {s : St} (h : parse d doc = .ok s) {k : Nat}
    (hk : s.next ≤ k) : view s k 0 = tree s :=
  view_stays (all_sound (parse_build h)).1.1.heap .root (by simpa using hk) (by simp)

/-! ### C130: the top of the tree -/

/-- **C130.**  Whatever the tokens: one root element, and quirks without a document type only. -/
theorem C130_tokens {d : Nat} {ts : List Tok} {s : St} (h : build d {} (ts ++ [.eof]) = .ok s) :
    Top s.quirks (tree s) := by
  have hs := all_sound h
  have h2 := two_nodes hs
  obtain ⟨k, hk⟩ : ∃ k, s.next = k + 2 := ⟨s.next - 2, by omega⟩
  unfold tree
  rw [hk]
  exact shape_top ((hs.1.1.heap.doc 0 hs.1.1.heap.pos).mpr rfl) hs.1.2 k

/-- **C130.**  Whatever the document. -/
theorem C130_document {d : Nat} {doc : Str} {s : St} (h : parse d doc = .ok s) :
    Top s.quirks (tree s) := C130_tokens (parse_build h)

/-! ### C131: what is inside -/

/-- **C131.**  Whatever the tokens: below the children of the document there are elements,
comments, and texts that are not empty. -/
theorem C131_tokens {d : Nat} {ts : List Tok} {s : St} (h : build d {} (ts ++ [.eof]) = .ok s)
    {ks : List Tree} (he : tree s = .document ks) : ∀ t ∈ ks, ∀ x ∈ t.inside, x.inner :=
  sound_inside (all_sound h) he

/-- **C131.**  Whatever the document. -/
theorem C131_document {d : Nat} {doc : Str} {s : St} (h : parse d doc = .ok s)
    {ks : List Tree} (he : tree s = .document ks) : ∀ t ∈ ks, ∀ x ∈ t.inside, x.inner :=
  C131_tokens (parse_build h) he

/-! ### C132: nothing is made up -/

/-- **C132.**  Whatever the tokens, what is in the tree is in them. -/
theorem C132_tokens {d : Nat} {ts : List Tok} {s : St} (h : build d {} (ts ++ [.eof]) = .ok s) :
    ∀ x ∈ (tree s).parts, From ts x := sound_from (all_sound h)

/-- **C132.**  Whatever the document, what is in the tree is in its tokens. -/
theorem C132_document {d : Nat} {doc : Str} {s : St} (h : parse d doc = .ok s) :
    ∀ x ∈ (tree s).parts, From (tokensOf d doc) x := C132_tokens (parse_build h)

/-! A document that is no page: misnested formatting, text in a table, a second body. -/

def wild : Str := nm! "<!--a--><b>1<p>2</b>3<table>4<tr><td>5</table><body id=k><image>"

def isOk {α : Type} : M α → Bool
  | .ok _ => true
  | .error _ => false

theorem isOk_ok {α : Type} {m : M α} (h : isOk m = true) : ∃ x, m = .ok x := by
  cases m with
  | ok x => exact ⟨x, rfl⟩
  | error e => cases h

theorem wild_ok : ∃ s, parse 60 wild = .ok s := isOk_ok (by decide +kernel)

example : outcome 60 wild = .ok (.document [.comment ['a'], el (nm! "html") [el (nm! "head") [],
    .elem .html (nm! "body") [(⟨true, nm! "id"⟩, ['k'])]
      [el (nm! "b") [.text ['1']], el (nm! "p") [el (nm! "b") [.text ['2']], .text (nm! "34"),
        el (nm! "table") [el (nm! "tbody") [el (nm! "tr") [el (nm! "td") [.text ['5']]]]],
        el (nm! "img") []]]]]) := by decide +kernel

example : ∃ s, parse 60 wild = .ok s ∧ IsTree s ∧ Top s.quirks (tree s) ∧
    ∀ x ∈ (tree s).parts, From (tokensOf 60 wild) x := by
  obtain ⟨s, h⟩ := wild_ok
  exact ⟨s, h, C129_document h, C130_document h, C132_document h⟩

/-! ### What is lost -/

/-- The cell of this document is in the tree, -/
example : outcome 60 (nm! "<b><div><b><div><div><div><table><tr><b></b><td>CELL</td>") =
    page [el (nm! "b") [], el (nm! "div") [el (nm! "b") [el (nm! "b") []], el (nm! "b") [],
      el (nm! "div") [el (nm! "b") [el (nm! "b") []], el (nm! "b") [],
      el (nm! "div") [el (nm! "b") [el (nm! "b") []], el (nm! "b") [],
      el (nm! "div") [el (nm! "b") [el (nm! "b") [el (nm! "b") []]],
        el (nm! "b") [el (nm! "table") [el (nm! "b") [el (nm! "tbody") [el (nm! "tr")
          [el (nm! "td") [.text (nm! "CELL")]]]]]]]]]]] := by
  decide +kernel

/-- and an end tag that follows makes the table its own sibling: the table, the cell and all the
text after it are nowhere. -/
theorem C125_lost_fails :
    outcome 60 (nm! "<b><div><b><div><div><div><table><tr><b></b><td>CELL</td></b>text") =
    page [el (nm! "b") [], el (nm! "div") [el (nm! "b") [el (nm! "b") []], el (nm! "b") [],
      el (nm! "div") [el (nm! "b") [el (nm! "b") []], el (nm! "b") [],
      el (nm! "div") [el (nm! "b") [el (nm! "b") []], el (nm! "b") [],
      el (nm! "div") [el (nm! "b") [el (nm! "b") [el (nm! "b") []]], el (nm! "b") []]]]]] := by
  decide +kernel

/-- An end tag moves an element from before the table into it, where no element like it goes. -/
theorem C126_table_fails : outcome 60 (nm! "<table><b><div>x</b>") =
    page [el (nm! "b") [], el (nm! "table") [el (nm! "div") [el (nm! "b") [.text ['x']]]]] := by
  decide +kernel

end Verif.Tree
