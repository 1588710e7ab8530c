import Verif.Tree.Source
/-
The HTML tree builder: what pages turn into, and where that is not what a reader expects.

`parse depth doc` is the program on a document; `depth` bounds how deep its handlers may call
each other, and the fault `endless` says that the bound was reached.  A larger bound changes
nothing else (`C123_depth_partial`).
-/
namespace Verif.Tree
open Verif.Html (Str Attr Content Token)
open Verif.Html.Spec (Item Agrees itemMeanings itemSrcs Unix)
open Spec

set_option maxRecDepth 100000

/-! ### C122: a page gives the tree that it spells -/

/-- The tokens of a page, from the tokenizer's first to the end of the file. -/
theorem C122_tokens_partial (p : Page) (hp : p.ok = true) {d : Nat} (hd : 18 ≤ d) :
    ∃ s, build d {} (p.marks.map (·.1)) = .ok s ∧ tree s = p.tree := by
  obtain ⟨s, h, ht⟩ := page_runs p hp (d - 18)
  rw [show d - 18 + 18 = d by omega] at h
  exact ⟨s, h.build, ht⟩

/-- The source of a page.  `is` is how it is written, by the grammar of C114; `p` is the page. -/
theorem C122_page_partial (p : Page) (hp : p.ok = true) {is : List Item} {doc : Str}
    (hok : ∀ i ∈ is, i.Ok) (hd : Unix doc (itemSrcs is))
    (hm : itemMarks is ++ [calm .eof] = p.marks) {d : Nat} (h18 : 18 ≤ d) :
    ∃ s, parse d doc = .ok s ∧ tree s = p.tree := by
  obtain ⟨s, h, ht⟩ := page_runs p hp (d - 18)
  rw [show d - 18 + 18 = d by omega, ← hm] at h
  exact ⟨s, source_runs hok hd h, ht⟩

/-! A page with a document type, a head, nested elements, a list, a table and text. -/

def plainEl (n : Str) (ks : List Node) : Node := .elem n [] ks

def samplePage : Page where
  lead := [.comment (nm! " c "), .text ['\n']]
  doctype := some (some (nm! "html"), none, none)
  gap := ['\n']
  html := some [⟨nm! "lang", nm! "en"⟩]
  gap' := []
  headTag := some []
  head := [.raw (nm! "title") [] (nm! "a<b"), .void (nm! "meta") [⟨nm! "charset", nm! "utf-8"⟩] true]
  headEnd := some [.text ['\n']]
  bodyTag := none
  body :=
    [.elem (nm! "p") [⟨nm! "class", nm! "x"⟩] [.text (nm! "hi "), plainEl (nm! "b") [.text (nm! "you")]],
     plainEl (nm! "ul") [plainEl (nm! "li") [.text (nm! "one")], plainEl (nm! "li") [.void (nm! "br") [] false]],
     plainEl (nm! "table") [plainEl (nm! "tbody") [plainEl (nm! "tr")
       [plainEl (nm! "td") [plainEl (nm! "b") [plainEl (nm! "div") []]]]]]]
  bodyEnd := some ['\n']
  htmlEnd := some []

example : samplePage.ok = true := by decide +kernel

def el (n : Str) (ks : List Tree) : Tree := .elem .html n [] ks

example : samplePage.tree =
    .document [.comment (nm! " c "), .doctype (nm! "html") [] [],
      .elem .html (nm! "html") [(⟨false, nm! "lang"⟩, nm! "en")]
        [el (nm! "head") [el (nm! "title") [.text (nm! "a<b")],
           .elem .html (nm! "meta") [(⟨false, nm! "charset"⟩, nm! "utf-8")] []],
         .text ['\n'],
         el (nm! "body")
          [.elem .html (nm! "p") [(⟨false, nm! "class"⟩, nm! "x")]
             [.text (nm! "hi "), el (nm! "b") [.text (nm! "you")]],
           el (nm! "ul") [el (nm! "li") [.text (nm! "one")], el (nm! "li") [el (nm! "br") []]],
           el (nm! "table") [el (nm! "tbody") [el (nm! "tr") [el (nm! "td")
             [el (nm! "b") [el (nm! "div") []]]]]],
           .text ['\n']]]] := by decide +kernel

/-- A page from its source: `<P>a<br></p>`. -/
def sampleSource : List Item :=
  [.opens ⟨['P'], [], [], false⟩, .text (.char 'a'), .opens ⟨['b', 'r'], [], [], false⟩,
   .closes ⟨['p'], [], [], false⟩]

theorem tag_ok {n : Str} {b : Bool}
    (h : (∃ c r, n = c :: r ∧ (Html.Spec.Upper c ∨ Html.Spec.Lower c)) ∧
      ∀ c ∈ n, ¬ Html.Spec.Space c ∧ c ≠ '/' ∧ c ≠ '>' ∧ c ≠ '\x00') :
    Html.Spec.TagSrc.Ok ⟨n, [], [], b⟩ := by
  refine ⟨h, ⟨?_, ?_, ?_⟩⟩
  · intro a ha; cases ha
  · intro a ha; cases ha
  · intro _ a ha; cases ha

macro "tag_fine" : tactic =>
  `(tactic| exact tag_ok ⟨⟨_, _, rfl, by decide⟩, by decide⟩)

example {d : Nat} (h : 18 ≤ d) : ∃ s, parse d (nm! "<P>a<br></p>") = .ok s ∧
    tree s = .document [el (nm! "html") [el (nm! "head") [],
      el (nm! "body") [el (nm! "p") [.text ['a'], el (nm! "br") []]]]] := by
  refine C122_page_partial
    ⟨[], none, [], none, [], none, [], none, none,
      [plainEl (nm! "p") [.text ['a'], .void (nm! "br") [] false]], none, none⟩
    (by decide +kernel) (is := sampleSource) ?_ (Html.unix_same (by decide +kernel))
    (by decide +kernel) h
  intro i hi
  simp only [sampleSource, List.mem_cons, List.not_mem_nil, or_false] at hi
  rcases hi with rfl | rfl | rfl | rfl
  · tag_fine
  · show ¬ ('a' = '&' ∨ 'a' = '<')
    decide
  · tag_fine
  · tag_fine

/-! ### C123: reading ends, and does not crash -/

instance {ε α : Type} [DecidableEq ε] [DecidableEq α] : DecidableEq (Except ε α)
  | .ok a, .ok b => if h : a = b then isTrue (by rw [h]) else isFalse (by intro e; cases e; exact h rfl)
  | .error a, .error b =>
    if h : a = b then isTrue (by rw [h]) else isFalse (by intro e; cases e; exact h rfl)
  | .ok _, .error _ | .error _, .ok _ => isFalse (by intro e; cases e)

/-- The tree of a document, or how reading it goes wrong. -/
def outcome (d : Nat) (doc : Str) : Except Fault Tree := (parse d doc).map tree

/-- The tree of a list of tokens, or how it goes wrong. -/
def result (d : Nat) (ts : List Tok) : Except Fault Tree := (build d {} ts).map tree

theorem result_stays {d d' : Nat} (hd : d ≤ d') {ts : List Tok} {e : Except Fault Tree}
    (h : result d ts = e) (he : e ≠ .error .endless) : result d' ts = e := by
  rw [← h] at he
  rw [← h]
  unfold result at he ⊢
  rw [build_stays hd]
  intro hb
  rw [hb] at he
  exact he rfl

/-- What the tokens of a document give does not depend on the bound, once it is large enough. -/
theorem C123_depth_partial {d d' : Nat} (hd : d ≤ d') {ts : List Tok} {e : Except Fault Tree}
    (h : result d ts = e) (he : e ≠ .error .endless) : result d' ts = e :=
  result_stays hd h he

/-- Pages of C122 are read to the end, and without a fault. -/
theorem C123_page_partial (p : Page) (hp : p.ok = true) {d : Nat} (hd : 18 ≤ d) :
    ∃ t, result d (p.marks.map (·.1)) = .ok t := by
  obtain ⟨s, h, -⟩ := C122_tokens_partial p hp hd
  exact ⟨tree s, by rw [result, h]; rfl⟩

/-- `</p>` comes back to itself for as long as the current element is one at which HTML begins
inside SVG or MathML. -/
theorem loops {s : St} {e : El} {st : List El} {as : List Attr} {self : Bool}
    (hs : s.stack = e :: st) (hn : e.q.ns ≠ .html) (hp : (mathText e || htmlPoint s e) = true)
    (hl : s.skipLf = false) : ∀ d, run d none s (.closes (nm! "p") as self) = .error .endless := by
  intro d
  induction d with
  | zero => rfl
  | succ d ih =>
    show acceptStep _ s _ = _
    unfold acceptStep
    rw [hl]
    simp only [Bool.false_and, Bool.false_eq_true, if_false]
    have e1 : ({ s with skipLf := false } : St) = s := by rw [← hl]
    rw [e1]
    have e2 : forHtml s (.closes (nm! "p") as self) = false := by
      unfold forHtml
      rw [hs]
      simp [hn]
    rw [e2]
    show breakOut _ s _ = _
    unfold breakOut
    have e3 : s.stack.dropWhile (fun e => !(mathText e || htmlPoint s e || e.q.ns = .html)) = s.stack := by
      rw [hs, List.dropWhile_cons, hp]
      simp
    rw [e3]
    exact ih

/-- The state is caught in the loop, and the tokenizer goes on as it does. -/
def caught (s : St) : Bool :=
  match s.stack with
  | [] => false
  | e :: _ => e.q.ns ≠ .html && (mathText e || htmlPoint { s with lexer := none } e) && !s.skipLf

theorem caught_loops {k : Nat} {ts us : List Tok} {as : List Attr} {self : Bool}
    (h : (match build k {} ts with | .ok s => caught s | .error _ => false) = true) {d : Nat}
    (hd : k ≤ d) : build d {} (ts ++ .closes (nm! "p") as self :: us) = .error .endless := by
  cases hb : build k {} ts with
  | error e => rw [hb] at h; cases h
  | ok s =>
    rw [hb] at h
    have h : caught s = true := h
    rw [build_append (s1 := s) (by rw [build_stays hd (by rw [hb]; simp), hb])]
    unfold caught at h
    split at h
    · cases h
    · rename_i e st hs
      simp only [Bool.and_eq_true, decide_eq_true_eq, Bool.not_eq_true'] at h
      show (do let s ← feed d s _; build d s us) = _
      rw [show feed d s (.closes (nm! "p") as self) = .error .endless from
        loops (s := { s with lexer := none }) hs h.1.1 h.1.2 h.2 d]
      rfl

theorem sink_up {k d : Nat} (hd : k ≤ d) {ts : List Token} {o : Option Content}
    (h : (match build k {} (ts.map Tok.of) with
      | .ok s => decide (s.lexer = o) | .error _ => false) = true) : sink d ts = o := by
  cases hb : build k {} (ts.map Tok.of) with
  | error e => rw [hb] at h; cases h
  | ok s =>
    rw [hb] at h
    rw [sink, build_stays hd (by rw [hb]; simp), hb]
    simpa using h

theorem parse_items {is : List Item} {doc : Str} {d : Nat} (hok : ∀ i ∈ is, i.Ok)
    (hd : Unix doc (itemSrcs is)) (hag : Agrees (sink d) [] is) :
    parse d doc = build d {} ((itemMeanings is ++ [Html.Spec.eof]).map Tok.of) := by
  rw [parse]
  show build d {} ((Html.tokens (Html.program (sink d)) doc).map Tok.of) = _
  rw [Html.C114_document_partial (sink d) hok hag hd]

def svgItems : List Item :=
  [.opens ⟨nm! "svg", [], [], false⟩, .opens ⟨nm! "desc", [], [], false⟩,
   .closes ⟨nm! "p", [], [], false⟩]

/-- Three tags from which the program does not come back, however long it is left running. -/
theorem C123_ends_fails {d : Nat} (hd : 20 ≤ d) :
    outcome d (nm! "<svg><desc></p>") = .error .endless := by
  have h : parse d (nm! "<svg><desc></p>") = .error .endless := by
    rw [parse_items (is := svgItems)]
    · exact caught_loops (k := 20) (ts := [.opens (nm! "svg") [] false, .opens (nm! "desc") [] false])
        (by decide +kernel) hd
    · intro i hi
      simp only [svgItems, List.mem_cons, List.not_mem_nil, or_false] at hi
      rcases hi with rfl | rfl | rfl
      · tag_fine
      · tag_fine
      · tag_fine
    · exact Html.unix_same (by decide +kernel)
    · exact ⟨sink_up hd (by decide +kernel), sink_up hd (by decide +kernel), trivial⟩
  rw [outcome, h]; rfl

def cellItems : List Item :=
  [.opens ⟨nm! "table", [], [], false⟩, .opens ⟨nm! "tr", [], [], false⟩,
   .opens ⟨nm! "td", [], [], false⟩, .opens ⟨nm! "svg", [], [], false⟩,
   .closes ⟨nm! "td", [], [], false⟩, .closes ⟨nm! "tr", [], [], false⟩]

/-- A table cell with a drawing in it that is not closed: the program stops with a panic. -/
theorem C123_panic_fails {d : Nat} (hd : 20 ≤ d) :
    outcome d (nm! "<table><tr><td><svg></td></tr>") = .error .panic := by
  have h : parse d (nm! "<table><tr><td><svg></td></tr>") = .error .panic := by
    rw [parse_items (is := cellItems)]
    · have : result 20 ((itemMeanings cellItems ++ [Html.Spec.eof]).map Tok.of) = .error .panic := by
        decide +kernel
      have := result_stays hd this (by decide)
      unfold result at this
      cases hb : build d {} ((itemMeanings cellItems ++ [Html.Spec.eof]).map Tok.of) with
      | ok s => rw [hb] at this; cases this
      | error e => rw [hb] at this; cases this; rfl
    · intro i hi
      simp only [cellItems, List.mem_cons, List.not_mem_nil, or_false] at hi
      rcases hi with rfl | rfl | rfl | rfl | rfl | rfl
      all_goals tag_fine
    · exact Html.unix_same (by decide +kernel)
    · exact ⟨sink_up hd (by decide +kernel), sink_up hd (by decide +kernel),
        sink_up hd (by decide +kernel), sink_up hd (by decide +kernel), trivial⟩
  rw [outcome, h]; rfl

/-- An end tag for an element outside of the table, in a cell: a panic, too. -/
theorem C123_stray_end_fails : outcome 60 (nm! "<span><table><tr><td></span><td>") = .error .panic := by
  decide +kernel

/-- Five formatting elements with a `div` in them, closed in the wrong order: an element is put
past the end of a vector. -/
theorem C123_insertion_fails : outcome 60 (nm! "<b><i><u><s><em><div></b>") = .error .pastEnd := by
  decide +kernel

/-! ### C124: there is one `html`, with a `head` and a `body` -/

/-- The document has one element, `html`, with one `head` and one `body`, in this order, and no
other elements; the `body` is the last child. -/
def framed : Tree → Bool
  | .document ks => match ks.filter isElem with
    | [.elem .html n _ ks] => n == nm! "html" && match ks.filter isElem with
      | [.elem .html h _ _, .elem .html b _ bs] =>
        h == nm! "head" && b == nm! "body" && match ks.getLast? with
          | some (.elem .html b' _ bs') => b' == nm! "body" && bs'.length == bs.length
          | _ => false
      | _ => false
    | _ => false
  | _ => false
where
  isElem : Tree → Bool
    | .elem _ _ _ _ => true
    | _ => false

theorem leads_plain {ns : List Node} (h : ns.all Node.isLead = true) :
    (ns.flatMap Node.leadTree).filter framed.isElem = [] := by
  induction ns with
  | nil => rfl
  | cons n ns ih =>
    rw [List.all_cons, Bool.and_eq_true] at h
    rw [List.flatMap_cons, List.filter_append, ih h.2, List.append_nil]
    cases n <;> rfl

theorem leads_kept {ns : List Node} (h : ns.all Node.isLead = true) (acc : List Tree) :
    (allTrees acc ns).filter framed.isElem = acc.filter framed.isElem := by
  induction ns generalizing acc with
  | nil => rfl
  | cons n ns ih =>
    rw [List.all_cons, Bool.and_eq_true] at h
    rw [allTrees, ih h.2]
    cases n with
    | text d =>
      rw [Node.trees, addText]
      split
      · rfl
      · split
        · rename_i e he
          obtain ⟨pre, rfl⟩ := List.getLast?_eq_some_iff.mp he
          simp [framed.isElem]
        · simp [framed.isElem]
    | comment d => simp [Node.trees, framed.isElem]
    | void _ _ _ => cases h.1
    | raw _ _ _ => cases h.1
    | elem _ _ _ => cases h.1
    | drawing _ _ => cases h.1

theorem C124_framed_partial (p : Page) (hp : p.ok = true) {d : Nat} (hd : 18 ≤ d) :
    ∃ t, result d (p.marks.map (·.1)) = .ok t ∧ framed t = true := by
  obtain ⟨s, h, ht⟩ := C122_tokens_partial p hp hd
  refine ⟨tree s, by rw [result, h]; rfl, ?_⟩
  rw [ht]
  simp only [Page.ok, Bool.and_eq_true] at hp
  have h1 := hp.1.1.1.1.1.1.1.1.1.1.1.1
  have h2 := hp.1.1.1.1.1.1.1.1.1.2
  have h3 := hp.1.1.1.1.1.2
  have h2 : p.gap'.all Node.isLead = true := by
    split at h2
    · exact h2
    · rw [List.all_eq_true] at h2 ⊢
      intro x hx
      have := h2 x hx
      cases x <;> first | exact this | cases this
  unfold Page.tree
  have e1 : p.doctypeTree.filter framed.isElem = [] := by
    unfold Page.doctypeTree; split <;> rfl
  simp only [framed, List.filter_append, leads_plain h1, e1, List.nil_append, List.filter_cons,
    framed.isElem, List.filter_nil, leads_kept h3, leads_plain h2, if_true, Bool.and_eq_true,
    beq_self_eq_true, true_and, List.cons_append, List.getLast?_concat]

/-- A document that stops inside its title has no `body`. -/
theorem C124_fails : outcome 60 (nm! "<title>x") =
    .ok (.document [el (nm! "html") [el (nm! "head") [el (nm! "title") [.text ['x']]]]]) := by
  decide +kernel

example : framed samplePage.tree = true := by decide +kernel

/-! ### C125: nothing is lost, moved or invented

The tree, written out again, gives the tokens that it was made from, with the tags that were left
out and without the white space around `head` and `body`. -/

def bareOnes : List Str :=
  [nm! "area", nm! "base", nm! "basefont", nm! "bgsound", nm! "br", nm! "col", nm! "embed",
   nm! "hr", nm! "img", nm! "input", nm! "keygen", nm! "link", nm! "meta", nm! "param",
   nm! "source", nm! "track", nm! "wbr"]

mutual
/-- A tree, written out. -/
def write : Tree → List Tok
  | .document ks => writes ks
  | .doctype a b c => [.doctype (some a) (some b) (some c)]
  | .elem ns n as ks => .opens n (as.map fun a => ⟨a.1.name, a.2⟩) false ::
      (if ns = .html ∧ n ∈ bareOnes then [] else writes ks ++ [.closes n [] false])
  | .text d => d.map .char
  | .comment d => [.comment d]
def writes : List Tree → List Tok
  | [] => []
  | t :: ts => write t ++ writes ts
end

mutual
/-- A part of a drawing, with its end tags and with the right letters in upper case. -/
def Shape.written : Shape → List Tok
  | .text d => d.map .char
  | .comment d => [.comment d]
  | .lone n as => [.opens (svgName n) (as.map svgAttr) false, .closes (svgName n) [] false]
  | .elem n as ks => .opens (svgName n) (as.map svgAttr) false ::
      (shapeToks ks ++ [.closes (svgName n) [] false])
def shapeToks : List Shape → List Tok
  | [] => []
  | x :: xs => Shape.written x ++ shapeToks xs
end

mutual
/-- A part of a page, without the `/` of `<br/>`. -/
def Node.written : Node → List Tok
  | .text d => d.map .char
  | .comment d => [.comment d]
  | .void n as _ => [.opens n as false]
  | .raw n as d => .opens n as false :: (d.map .char ++ [.closes n [] false])
  | .elem n as ks => .opens n as false :: (toks ks ++ [.closes n [] false])
  | .drawing as ks => .opens (nm! "svg") (as.map svgAttr) false ::
      (shapeToks ks ++ [.closes (nm! "svg") [] false])
def toks : List Node → List Tok
  | [] => []
  | n :: ns => Node.written n ++ toks ns
end

/-- The tokens of a page with all its tags. -/
def Page.written (p : Page) : List Tok :=
  toks (p.lead.filter fun n => !n.isBlank) ++
  (match p.doctype with
    | none => []
    | some (a, b, c) => [.doctype (some (a.getD [])) (some (b.getD [])) (some (c.getD []))]) ++
  .opens (nm! "html") (p.html.getD []) false :: (toks (p.gap'.filter fun n => !n.isBlank) ++
  .opens (nm! "head") (p.headTag.getD []) false :: (toks p.head ++
  .closes (nm! "head") [] false :: (toks (p.headEnd.getD []) ++
  .opens (nm! "body") (p.bodyTag.getD []) false :: (toks p.body ++
  ((p.bodyEnd.getD [] ++ p.htmlEnd.getD []).map .char ++
  [.closes (nm! "body") [] false, .closes (nm! "html") [] false])))))

theorem writes_append (a b : List Tree) : writes (a ++ b) = writes a ++ writes b := by
  induction a with
  | nil => rfl
  | cons t a ih => rw [List.cons_append, writes, ih, writes, List.append_assoc]

theorem writes_one (t : Tree) : writes [t] = write t := by
  rw [writes, writes, List.append_nil]

theorem writes_text (acc : List Tree) (d : Str) :
    writes (addText acc d) = writes acc ++ d.map .char := by
  unfold addText
  split
  · rename_i h; simp [h]
  · split
    · rename_i e he
      obtain ⟨pre, rfl⟩ := List.getLast?_eq_some_iff.mp he
      simp [writes_append, writes_one, write]
    · simp [writes_append, writes_one, write]

theorem attrs_back (as : List Attr) :
    ((plain as).map fun a => (⟨a.1.name, a.2⟩ : Attr)) = as := by
  unfold plain
  rw [List.map_map]
  exact List.map_id'' (fun a => rfl) as


theorem not_void {n : Str} (h : n ∉ emptyOnes) (hc : n ≠ nm! "col") : n ∉ bareOnes := by
  intro hv
  have : ∀ x ∈ bareOnes, x = nm! "col" ∨ x ∈ emptyOnes := by decide +kernel
  rcases this n hv with h' | h'
  · exact hc h'
  · exact h h'

theorem text_not_void {n : Str} (h : n ∈ textOnes) : n ∉ bareOnes := by
  have : ∀ x ∈ textOnes, x ∉ bareOnes := by decide +kernel
  exact this n h

theorem empty_void {n : Str} (h : n ∈ emptyOnes) : n ∈ bareOnes := by
  have : ∀ x ∈ emptyOnes, x ∈ bareOnes := by decide +kernel
  exact this n h

theorem writes_raw (acc : List Tree) (n : Str) (as : List Attr) (d : Str) (h : n ∈ textOnes) :
    writes ((Node.raw n as d).trees acc) = writes acc ++ Node.written (.raw n as d) := by
  rw [Node.trees, writes_append, writes_one, write, if_neg (fun e => text_not_void h e.2),
    writes_text, attrs_back, Node.written, writes, List.nil_append]

theorem writes_void (acc : List Tree) (n : Str) (as : List Attr) (b : Bool) (h : n ∈ bareOnes) :
    writes ((Node.void n as b).trees acc) = writes acc ++ Node.written (.void n as b) := by
  rw [Node.trees, writes_append, writes_one, write, if_pos ⟨rfl, h⟩, attrs_back, Node.written]

theorem not_html {n : Str} : ¬ (Ns.svg = Ns.html ∧ n ∈ bareOnes) := by
  rintro ⟨h, -⟩; cases h

mutual
theorem writes_shape (acc : List Tree) : ∀ (x : Shape),
    writes (x.trees acc) = writes acc ++ Shape.written x
  | .text d => by rw [Shape.trees, writes_text, Shape.written]
  | .comment d => by rw [Shape.trees, writes_append, writes_one, write, Shape.written]
  | .lone n as => by
    rw [Shape.trees, writes_append, writes_one, write, if_neg not_html, attrs_back, Shape.written,
      writes, List.nil_append]
  | .elem n as ks => by
    rw [Shape.trees, writes_append, writes_one, write, if_neg not_html, attrs_back, Shape.written,
      writes_shapes [] ks, writes, List.nil_append]
theorem writes_shapes (acc : List Tree) : ∀ (xs : List Shape),
    writes (shapeTrees acc xs) = writes acc ++ shapeToks xs
  | [] => by rw [shapeTrees, shapeToks, List.append_nil]
  | x :: xs => by
    rw [shapeTrees, writes_shapes _ xs, writes_shape acc x, shapeToks, List.append_assoc]
end

mutual
theorem writes_node (around : List Str) (acc : List Tree) : ∀ (n : Node), n.fits around = true →
    writes (n.trees acc) = writes acc ++ Node.written n
  | .text d, _ => by rw [Node.trees, writes_text, Node.written]
  | .comment d, _ => by rw [Node.trees, writes_append, writes_one, write, Node.written]
  | .void n as b, h => by
    simp only [Node.fits, Bool.and_eq_true, Bool.or_eq_true, List.contains_iff_mem, beq_iff_eq] at h
    refine writes_void acc n as b ?_
    rcases h.1.1 with h | h
    · exact empty_void h
    · rw [h.1]; decide
  | .raw n as d, h => by
    simp only [Node.fits, Bool.and_eq_true, List.contains_iff_mem] at h
    exact writes_raw acc n as d h.1.1.1.1
  | .elem n as ks, h => by
    simp only [Node.fits, Bool.and_eq_true, Bool.not_eq_true', List.contains_eq_mem,
      decide_eq_false_iff_not] at h
    have hc : n ≠ nm! "col" := fun e => h.1.1.1.1.2 (by rw [e]; decide)
    have ih := writes_all (n :: around) [] ks h.2
    rw [Node.trees, writes_append, writes_one, write,
      if_neg (fun e => not_void h.1.1.1.1.1.1 hc e.2), ih, attrs_back, Node.written, writes,
      List.nil_append]
  | .drawing as ks, _ => by
    rw [Node.trees, writes_append, writes_one, write, if_neg not_html, attrs_back, Node.written,
      writes_shapes [] ks, writes, List.nil_append]
theorem writes_all (around : List Str) (acc : List Tree) : ∀ (ns : List Node),
    allFit around ns = true → writes (allTrees acc ns) = writes acc ++ toks ns
  | [], _ => by rw [allTrees, toks, List.append_nil]
  | n :: ns, h => by
    rw [allFit, Bool.and_eq_true] at h
    rw [allTrees, writes_all around _ ns h.2, writes_node around acc n h.1, toks,
      List.append_assoc]
end

theorem writes_head (acc : List Tree) (ns : List Node) (h : ns.all Node.inHead = true) :
    writes (allTrees acc ns) = writes acc ++ toks ns := by
  induction ns generalizing acc with
  | nil => rw [allTrees, toks, List.append_nil]
  | cons n ns ih =>
    rw [List.all_cons, Bool.and_eq_true] at h
    rw [allTrees, ih _ h.2, toks, ← List.append_assoc]
    congr 1
    have hn := h.1
    cases n with
    | text d => rw [Node.trees, writes_text, Node.written]
    | comment d => rw [Node.trees, writes_append, writes_one, write, Node.written]
    | void n as b =>
      simp only [Node.inHead, Bool.and_eq_true, List.contains_iff_mem] at hn
      refine writes_void acc n as b ?_
      have : ∀ x ∈ [nm! "base", nm! "basefont", nm! "bgsound", nm! "link", nm! "meta"],
        x ∈ bareOnes := by decide +kernel
      exact this n hn.1
    | raw n as d =>
      simp only [Node.inHead, Bool.and_eq_true, List.contains_iff_mem] at hn
      refine writes_raw acc n as d ?_
      have : ∀ x ∈ [nm! "title", nm! "style", nm! "script", nm! "noframes"],
        x ∈ textOnes := by decide +kernel
      exact this n hn.1.1
    | elem n as ks => cases hn
    | drawing as ks => cases hn

theorem lead_head {n : Node} (h : n.isLead = true) : n.inHead = true := by
  cases n <;> first | exact h | rfl | cases h

theorem leads_head {ns : List Node} (h : ns.all Node.isLead = true) :
    ns.all Node.inHead = true := by
  rw [List.all_eq_true] at h ⊢
  exact fun x hx => lead_head (h x hx)

theorem writes_leads {ns : List Node} (h : ns.all Node.isLead = true) :
    writes (ns.flatMap Node.leadTree) = toks (ns.filter fun n => !n.isBlank) := by
  induction ns with
  | nil => rfl
  | cons n ns ih =>
    rw [List.all_cons, Bool.and_eq_true] at h
    rw [List.flatMap_cons, writes_append, ih h.2, List.filter_cons]
    cases n with
    | text d =>
      rw [show (Node.text d).isBlank = true from h.1]
      rfl
    | comment d =>
      rw [show (!(Node.comment d).isBlank) = true from rfl, if_pos rfl, toks]
      rfl
    | void _ _ _ => cases h.1
    | raw _ _ _ => cases h.1
    | elem _ _ _ => cases h.1
    | drawing _ _ => cases h.1

theorem C125_written_partial (p : Page) (hp : p.ok = true) {d : Nat} (hd : 18 ≤ d) :
    ∃ t, result d (p.marks.map (·.1)) = .ok t ∧ write t = Page.written p := by
  obtain ⟨s, h, ht⟩ := C122_tokens_partial p hp hd
  refine ⟨tree s, by rw [result, h]; rfl, ?_⟩
  rw [ht]
  simp only [Page.ok, Bool.and_eq_true] at hp
  have h1 := hp.1.1.1.1.1.1.1.1.1.1.1.1
  have h2 := hp.1.1.1.1.1.1.1.1.1.2
  have h3 := hp.1.1.1.1.1.2
  have h4 := hp.1.1.2
  have h5 := hp.1.1.1.1.1.1.1.2
  have h2 : p.gap'.all Node.isLead = true := by
    split at h2
    · exact h2
    · rw [List.all_eq_true] at h2 ⊢
      intro x hx
      have := h2 x hx
      cases x <;> first | exact this | cases this
  have hb : writes (allTrees [] (p.body ++ [.text (p.bodyEnd.getD []), .text (p.htmlEnd.getD [])])) =
      toks p.body ++ (p.bodyEnd.getD [] ++ p.htmlEnd.getD []).map .char := by
    have : ∀ (xs ys : List Node) (acc : List Tree),
        allTrees acc (xs ++ ys) = allTrees (allTrees acc xs) ys := by
      intro xs
      induction xs with
      | nil => intros; rfl
      | cons x xs ih => intro ys acc; rw [List.cons_append, allTrees, ih, allTrees]
    rw [this, allTrees, allTrees, allTrees, Node.trees, Node.trees, writes_text, writes_text,
      writes_all _ _ _ h4]
    simp [writes]
  have n1 : nm! "html" ∉ bareOnes := by decide
  have n2 : nm! "head" ∉ bareOnes := by decide
  have n3 : nm! "body" ∉ bareOnes := by decide
  unfold Page.tree Page.written
  rw [write, writes_append, writes_append, writes_one, writes_leads h1, write, if_neg (fun e => n1 e.2),
    writes_append, writes_one, write, if_neg (fun e => n3 e.2), hb, writes_head _ _ (leads_head h3),
    writes_append, writes_one, write, if_neg (fun e => n2 e.2), writes_head _ _ h5, writes_leads h2]
  simp only [attrs_back]
  have hdt : writes p.doctypeTree = (match p.doctype with
    | none => []
    | some (a, b, c) => [Tok.doctype (some (a.getD [])) (some (b.getD [])) (some (c.getD []))]) := by
    unfold Page.doctypeTree
    cases p.doctype with
    | none => rfl
    | some x => rfl
  rw [hdt]
  simp [writes, List.append_assoc]

example : Page.written samplePage = [.comment (nm! " c "), .doctype (some (nm! "html")) (some []) (some []),
    .opens (nm! "html") [⟨nm! "lang", nm! "en"⟩] false, .opens (nm! "head") [] false,
    .opens (nm! "title") [] false, .char 'a', .char '<', .char 'b', .closes (nm! "title") [] false,
    .opens (nm! "meta") [⟨nm! "charset", nm! "utf-8"⟩] false, .closes (nm! "head") [] false,
    .char '\n', .opens (nm! "body") [] false, .opens (nm! "p") [⟨nm! "class", nm! "x"⟩] false,
    .char 'h', .char 'i', .char ' ', .opens (nm! "b") [] false, .char 'y', .char 'o', .char 'u',
    .closes (nm! "b") [] false, .closes (nm! "p") [] false, .opens (nm! "ul") [] false,
    .opens (nm! "li") [] false, .char 'o', .char 'n', .char 'e', .closes (nm! "li") [] false,
    .opens (nm! "li") [] false, .opens (nm! "br") [] false, .closes (nm! "li") [] false,
    .closes (nm! "ul") [] false, .opens (nm! "table") [] false, .opens (nm! "tbody") [] false,
    .opens (nm! "tr") [] false, .opens (nm! "td") [] false, .opens (nm! "b") [] false,
    .opens (nm! "div") [] false, .closes (nm! "div") [] false, .closes (nm! "b") [] false,
    .closes (nm! "td") [] false, .closes (nm! "tr") [] false, .closes (nm! "tbody") [] false,
    .closes (nm! "table") [] false, .char '\n', .closes (nm! "body") [] false,
    .closes (nm! "html") [] false] := by decide +kernel

/-- A page with the given body. -/
def page (ks : List Tree) : Except Fault Tree :=
  .ok (.document [el (nm! "html") [el (nm! "head") [], el (nm! "body") ks]])

/-- A comment between the document type and `<html>` is there twice. -/
theorem C125_comment_fails : outcome 60 (nm! "<!doctype html><!--c--><html>x") =
    .ok (.document [.doctype (nm! "html") [] [], .comment ['c'], el (nm! "html")
      [.comment ['c'], el (nm! "head") [], el (nm! "body") [.text ['x']]]]) := by
  decide +kernel

/-- Of two objects, one in the other, the inner one is dropped. -/
theorem C125_object_fails : outcome 60 (nm! "<object>a<object>b</object>c</object>d") =
    page [el (nm! "object") [.text (nm! "ab")], .text (nm! "cd")] := by
  decide +kernel

/-- The content of a template becomes part of the page. -/
theorem C125_template_fails : outcome 60 (nm! "<template><p>a</p></template>b") =
    page [el (nm! "p") [.text ['a']], .text ['b']] := by
  decide +kernel

/-- The comment after `</html>` is in the body. -/
theorem C125_last_comment_fails : outcome 60 (nm! "a</body></html><!--c-->") =
    page [.text ['a'], .comment ['c']] := by
  decide +kernel

/-! ### C126: an end tag ends the innermost element of its name -/

/-- On pages of C122 it does: start tags and end tags are matched in the tree as they are in the
source (C125), also inside cells. -/
theorem C126_nested_partial (ks : List Node) (h : allFit [nm! "body", nm! "html"] ks = true)
    (hs : ((allMarks ks).take 1).all (fun m => solid m.1) = true) {d : Nat} (hd : 18 ≤ d) :
    result d (((allMarks ks).map (·.1)) ++ [.eof]) =
      .ok (.document [el (nm! "html") [el (nm! "head") [], el (nm! "body") (allTrees [] ks)]]) := by
  let p : Page := ⟨[], none, [], none, [], none, [], none, none, ks, none, none⟩
  have hp : p.ok = true := by
    simp only [Page.ok, p, Page.rest]
    simp only [List.all_nil, blankText, fine, Option.isSome_none, Option.getD_none, blankEnd,
      endTag, List.take_nil, Bool.and_true, Bool.true_and, Bool.false_or, h, Bool.and_eq_true]
    cases hk : allMarks ks with
    | nil => rfl
    | cons m ms => rw [hk] at hs; exact hs
  obtain ⟨s, h1, h2⟩ := C122_tokens_partial p hp hd
  have e : p.marks.map (·.1) = (allMarks ks).map (·.1) ++ [.eof] := by
    simp [Page.marks, p, allMarks, Page.doctypeMarks, chars, tag, Page.headEndMarks, Page.rest,
      endTag, calm]
  rw [e] at h1
  rw [result, h1]
  show Except.ok (tree s) = _
  rw [h2]
  have e2 : allTrees [] (ks ++ [.text [], .text []]) = allTrees [] ks := by
    have : ∀ (xs ys : List Node) (acc : List Tree),
        allTrees acc (xs ++ ys) = allTrees (allTrees acc xs) ys := by
      intro xs
      induction xs with
      | nil => intros; rfl
      | cons x xs ih => intro ys acc; rw [List.cons_append, allTrees, ih, allTrees]
    rw [this]
    rfl
  simp only [Page.tree, p, List.flatMap_nil, Page.doctypeTree, List.nil_append, Option.getD_none,
    e2]
  rfl

example : result 60 [.opens (nm! "b") [] false, .opens (nm! "i") [] false, .char 'x',
    .closes (nm! "i") [] false, .char 'y', .closes (nm! "b") [] false, .eof] =
    page [el (nm! "b") [el (nm! "i") [.text ['x']], .text ['y']]] :=
  C126_nested_partial [plainEl (nm! "b") [plainEl (nm! "i") [.text ['x']], .text ['y']]]
    (by decide +kernel) (by decide +kernel) (by decide)

/-- The end tag of the inner `font` ends the outer one: `c` is blue, not red. -/
theorem C126_font_fails :
    outcome 60 (nm! "<font color=red>a<font color=blue>b</font>c</font>") =
    page [.elem .html (nm! "font") [(⟨false, nm! "color"⟩, nm! "red")]
      [.text ['a'], .elem .html (nm! "font") [(⟨false, nm! "color"⟩, nm! "blue")] [.text ['b']]],
      .elem .html (nm! "font") [(⟨false, nm! "color"⟩, nm! "blue")] [.text ['c']]] := by
  decide +kernel

/-- Bold text that ends inside a cell: what follows in the cell, and after the table, is bold. -/
theorem C126_cell_fails :
    outcome 60 (nm! "<table><tr><td><b><p>x</b>y</p></td></tr></table>z") =
    page [el (nm! "table") [el (nm! "tbody") [el (nm! "tr") [el (nm! "td")
      [el (nm! "b") [], el (nm! "p") [el (nm! "b") [.text (nm! "xy")]]]]]],
      el (nm! "b") [.text ['z']]] := by
  decide +kernel

/-! ### C127: the attributes of `html` -/

/-- The attributes of a tag are those of its element, in no namespace. -/
theorem C127_attributes_partial (p : Page) (hp : p.ok = true) {d : Nat} (hd : 18 ≤ d) {as : List Attr}
    (ha : p.html = some as) : ∃ ks l, result d (p.marks.map (·.1)) = .ok (.document (l ++
      [.elem .html (nm! "html") (as.map fun a => (⟨false, a.name⟩, a.value)) ks])) := by
  obtain ⟨s, h, ht⟩ := C122_tokens_partial p hp hd
  have e : result d (p.marks.map (·.1)) = .ok p.tree := by rw [result, h, ← ht]; rfl
  rw [e, Page.tree, ha, ← List.append_assoc]
  exact ⟨_, _, rfl⟩

/-- After a comment the attributes of `<html>` are in the namespace `""`: no selector and no style
finds them. -/
theorem C127_html_fails : outcome 60 (nm! "<!doctype html><!--c--><html lang=en>") =
    .ok (.document [.doctype (nm! "html") [] [], .comment ['c'],
      .elem .html (nm! "html") [(⟨true, nm! "lang"⟩, nm! "en")]
        [.comment ['c'], el (nm! "head") [], el (nm! "body") []]]) := by
  decide +kernel

/-- A second `<html>` gives its attributes to the current element. -/
theorem C127_other_fails : outcome 60 (nm! "<div><html lang=x>") =
    page [.elem .html (nm! "div") [(⟨true, nm! "lang"⟩, nm! "x")] []] := by
  decide +kernel

/-! ### C128: drawings keep what they contain -/

/-- What a drawing contains is in it, in the namespace of SVG, with the letters in upper case that
SVG has and HTML does not tell apart. -/
theorem C128_drawing_partial (as : List Attr) (ks : List Shape)
    (h : (Node.drawing as ks).fits [nm! "body", nm! "html"] = true) {d : Nat} (hd : 18 ≤ d) :
    result d (.opens (nm! "svg") as false :: ((shapeMarks ks).map (·.1) ++
        [.closes (nm! "svg") [] false, .eof])) =
      page [.elem .svg (nm! "svg") (plain (as.map svgAttr)) (shapeTrees [] ks)] := by
  have := C126_nested_partial [.drawing as ks] (by rw [allFit, h, allFit]; rfl) (by rfl) hd
  simp only [allMarks, Node.marks, List.append_nil, calm, List.map_cons, List.map_append,
    List.map_nil, List.cons_append, List.append_assoc, List.nil_append] at this
  exact this

example : result 18 [.opens (nm! "svg") [⟨nm! "viewbox", nm! "0 0 1 1"⟩] false,
    .opens (nm! "lineargradient") [] true, .opens (nm! "g") [⟨nm! "fill", nm! "red"⟩] false,
    .opens (nm! "text") [] false, .char 'x', .closes (nm! "text") [] false,
    .closes (nm! "g") [] false, .closes (nm! "svg") [] false, .eof] =
    page [.elem .svg (nm! "svg") [(⟨false, nm! "viewBox"⟩, nm! "0 0 1 1")]
      [.elem .svg (nm! "linearGradient") [] [],
       .elem .svg (nm! "g") [(⟨false, nm! "fill"⟩, nm! "red")]
         [.elem .svg (nm! "text") [] [.text ['x']]]]] :=
  C128_drawing_partial [⟨nm! "viewbox", nm! "0 0 1 1"⟩]
    [.lone (nm! "lineargradient") [], .elem (nm! "g") [⟨nm! "fill", nm! "red"⟩]
      [.elem (nm! "text") [] [.text ['x']]]] (by decide +kernel) (by decide)

/-- An attribute named `size`, `color` or `face` ends the drawing: the shape is an HTML element
after it, and so is all that follows. -/
theorem C128_drawing_fails : outcome 60 (nm! "<svg><rect size=3 /><g></g></svg>z") =
    page [.elem .svg (nm! "svg") [] [],
      .elem .html (nm! "rect") [(⟨false, nm! "size"⟩, nm! "3")] [el (nm! "g") [], .text ['z']]] := by
  decide +kernel

end Verif.Tree
