import Verif.Xml.BrokenLemmas
import Verif.Xml.WriteLemmas
import Verif.Xml.Eval

/-!
# Reading and writing XML: properties

C18 (escaping round trip), C19 (well-formed documents), C20 (ill-formed documents),
C21 (namespaces), C57 (reading ends) and C58 (written trees are read back).
-/
namespace Verif.Xml
open Spec

theorem Reads.ok {α : Type} {r : R α} {a : α} {rest : Text} (h : Reads r a rest) (hf : r ≠ .out) : r = .ok a rest :=
  h.resolve_left hf

/-! ## C57 -/

/-- C57: reading ends on every text: no more steps than its length are needed. -/
theorem C57_terminates (ns : Option Text) (s : Text) (fuel : Nat) (h : s.length < fuel) :
    parseDocument fuel ns s ≠ .out := parseDocument_fuel h

theorem C57_read (ns : Option Text) (s : Text) : readXml ns s ≠ .out := parseDocument_fuel (by omega)

example : readXml none (u "<a><b></a>") = .err := by decide +kernel

/-! ## C19 -/

/-- C19: every document of the strict grammar is read, to the end, as the tree it denotes,
    provided a text that begins with `<?xml` begins with an XML declaration.
    Missing: white space around the `=` of attributes, normalisation of attribute values
    and line ends, `xmlns=""`, internal subsets of the document type, and documents that
    begin with a processing instruction whose target begins with `xml`. -/
theorem C19_wellformed_partial (ns : Option Text) (src : Text) (d : Doc) (h : DocumentText .strict ns src d)
    (hx : (∃ t, src = u "<?xml" ++ t) → d.decl.version ≠ none) : readXml ns src = .ok d [] :=
  (parseDocument_eq h hx _).ok (C57_read ns src)

/-- The same for the more liberal grammar `clean`. -/
theorem C19_clean_partial (ns : Option Text) (src : Text) (d : Doc) (h : DocumentText .clean ns src d)
    (hx : (∃ t, src = u "<?xml" ++ t) → d.decl.version ≠ none) : readXml ns src = .ok d [] :=
  (parseDocument_eq h hx _).ok (C57_read ns src)

/-- Any strict element, wherever it stands. -/
theorem C19_fragment_partial (sc : Scope) (src rest : Text) (n : Node) (h : ElementText .strict sc src n)
    (ns : Option Text) (hsc : sc = ⟨ns, []⟩) (fuel : Nat) (hf : (src ++ rest).length < fuel) :
    parseElement fuel (.make ns) (src ++ rest) = .ok n rest := by
  subst hsc
  exact (parseElement_eq h (Agree.make ns) rest fuel).ok ((element_fuel fuel).1 (Agree.make ns) hf)

theorem ncname_ascii {t : Text} (h : t ≠ []) (hl : ∀ r ∈ t, 0x61 ≤ r ∧ r ≤ 0x7A) : NCName t := by
  cases t with
  | nil => exact absurd rfl h
  | cons c cs =>
    have hs : ∀ r ∈ c :: cs, NameStart r := fun r hr => .inr (.inr (.inl (hl r hr)))
    exact ⟨⟨c, cs, rfl, hs c (List.mem_cons_self ..)⟩, fun r hr => .inl (hs r hr)⟩

/-- `<a x="1">h&amp;<b xmlns="u"/></a>` with an attribute, a reference and a namespace. -/
theorem sample_document : DocumentText .strict none (u "<a x=\"1\">h&amp;<b xmlns=\"u\"/></a>")
    ⟨{}, [.element ⟨none, u "a"⟩ [(⟨none, u "x"⟩, u "1")]
      [.text (u "h&"), .element ⟨some (u "u"), u "b"⟩ [(⟨none, u "xmlns"⟩, u "u")] []]]⟩ := by
  have ha : NCName (u "a") := ncname_ascii (by decide) (by decide)
  have hb : NCName (u "b") := ncname_ascii (by decide) (by decide)
  have hx : NCName (u "x") := ncname_ascii (by decide) (by decide)
  have hxm : NCName (u "xmlns") := ncname_ascii (by decide) (by decide)
  have sp : Spaces (u " ") := by intro r hr; left; simpa [u] using hr
  have v1 : ValueText .strict 34 (u "1") (u "1") :=
    .plain (by decide) (fun _ => by decide) (fun _ => ⟨by decide, .inr (.inr (.inr (.inl (by decide)))), by decide, by decide, by decide⟩) .nil
  have vu : ValueText .strict 34 (u "u") (u "u") :=
    .plain (by decide) (fun _ => by decide) (fun _ => ⟨by decide, .inr (.inr (.inr (.inl (by decide)))), by decide, by decide, by decide⟩) .nil
  have atA : AttrsText .strict (u " x=\"1\"") [(⟨none, u "x"⟩, u "1")] :=
    .cons (w := u " ") (q := 34) (rest := []) sp (by decide) (.plain hx) (.inl rfl) v1 (.nil (by simp [Spaces]))
  have atB : AttrsText .strict (u " xmlns=\"u\"") [(⟨none, u "xmlns"⟩, u "u")] :=
    .cons (w := u " ") (q := 34) (rest := []) sp (by decide) (.plain hxm) (.inl rfl) vu (.nil (by simp [Spaces]))
  have tagA : TagText .strict ⟨none, [[(⟨none, u "x"⟩, u "1")]]⟩ [(⟨none, u "x"⟩, u "1")] (u "<a x=\"1\"") ⟨none, u "a"⟩
      [(⟨none, u "x"⟩, u "1")] :=
    .mk (bs := [(⟨none, u "x"⟩, u "1")]) (.plain ha) atA (fun _ => by rintro ⟨n, h, -⟩; simp [u] at h) .plain
      (.cons .plain .nil) (fun _ => by decide)
  have tagB : TagText .strict ⟨none, [[(⟨none, u "xmlns"⟩, u "u")], [(⟨none, u "x"⟩, u "1")]]⟩ [(⟨none, u "xmlns"⟩, u "u")]
      (u "<b xmlns=\"u\"") ⟨some (u "u"), u "b"⟩ [(⟨none, u "xmlns"⟩, u "u")] :=
    .mk (bs := [(⟨none, u "xmlns"⟩, u "u")]) (.plain hb) atB (fun _ => by rintro ⟨n, h, -⟩; simp [u] at h) .plain
      (.cons .plain .nil) (fun _ => by decide)
  have text : CharText .strict (u "h&amp;") (u "h&") :=
    .plain (r := 104) (by decide) (by decide) (by intro more h; rw [u_cde] at h; cases h)
      (fun _ => ⟨.inr (.inr (.inr (.inl (by decide)))), by decide⟩) (.ref (src := []) (.entity (e := "amp") (by decide)) .nil)
  have content : ContentText .strict ⟨none, [[(⟨none, u "x"⟩, u "1")]]⟩ (u "h&amp;<b xmlns=\"u\"/>")
      [.text (u "h&"), .element ⟨some (u "u"), u "b"⟩ [(⟨none, u "xmlns"⟩, u "u")] []] :=
    .item (src := u "h&amp;") (isrc := u "<b xmlns=\"u\"/>") (more := []) text
      (.element (.empty (sc := ⟨none, [[(⟨none, u "x"⟩, u "1")]]⟩) tagB)) (.last .nil)
  have el := ElementText.full (sc := ⟨none, []⟩) (w := []) tagA content (.plain ha) .plain (by simp [Spaces])
  exact .mk (ds := []) (bs := []) (b := []) (ts := []) (t := []) (as := []) (a := []) .none .nil .none el .nil

example : readXml none (u "<a x=\"1\">h&amp;<b xmlns=\"u\"/></a>") = .ok
    ⟨{}, [.element ⟨none, u "a"⟩ [(⟨none, u "x"⟩, u "1")]
      [.text (u "h&"), .element ⟨some (u "u"), u "b"⟩ [(⟨none, u "xmlns"⟩, u "u")] []]]⟩ [] :=
  C19_wellformed_partial _ _ _ sample_document (by rintro ⟨t, h⟩; simp [u] at h)

/-- C19 fails: white space around `=` (XML's production `Eq`) is an error. -/
theorem C19_eq_space_fails : readXml none (u "<a b = \"c\"/>") = .err := by decide +kernel

/-- C19 fails: the line feed in the value should be read as a space. -/
theorem C19_value_fails : readXml none (u "<a b=\"x\ny\"/>") =
    .ok ⟨{}, [.element ⟨none, u "a"⟩ [(⟨none, u "b"⟩, u "x\ny")] []]⟩ [] := by decide +kernel

/-- C19 fails: a carriage return and line feed should be read as a line feed. -/
theorem C19_line_end_fails : readXml none (u "<a>x\r\ny</a>") =
    .ok ⟨{}, [.element ⟨none, u "a"⟩ [] [.text (u "x\r\ny")]]⟩ [] := by decide +kernel

/-- C19 fails: `xmlns=""` should leave the element in no namespace. -/
theorem C19_no_namespace_fails : readXml none (u "<a xmlns=\"\"/>") =
    .ok ⟨{}, [.element ⟨some [], u "a"⟩ [(⟨none, u "xmlns"⟩, [])] []]⟩ [] := by decide +kernel

/-- C19 fails: a document that begins with a processing instruction such as
    `xml-stylesheet`, though of the grammar, is an error. -/
theorem C19_stylesheet_fails :
    DocumentText .strict none (u "<?xml-stylesheet?><a/>") ⟨{}, [.element ⟨none, u "a"⟩ [] []]⟩ ∧
    readXml none (u "<?xml-stylesheet?><a/>") = .err := by
  refine ⟨?_, by decide +kernel⟩
  have ha : NCName (u "a") := ncname_ascii (by decide) (by decide)
  have hn : ∀ r ∈ u "xml-stylesheet", NamePart r ∨ r = 0x3A := by
    intro r hr
    left
    have : ∀ r ∈ u "xml-stylesheet", r = 0x2D ∨ (0x61 ≤ r ∧ r ≤ 0x7A) := by decide
    rcases this r hr with h | h
    · exact .inr (.inl h)
    · exact .inl (.inr (.inr (.inl h)))
  have hp : PiText .strict (u "<?xml-stylesheet?>") :=
    .mk (n := u "xml-stylesheet") (d := []) ⟨⟨_, _, rfl, .inl (.inr (.inr (.inl (by decide))))⟩, hn⟩
      (by intro a b c h; simp [u] at h) (by intro a b h; simp [u] at h) (by simp) (fun _ => .inl rfl)
  have tag : TagText .strict ⟨none, [[]]⟩ [] (u "<a") ⟨none, u "a"⟩ [] :=
    .mk (bs := []) (src := []) (.plain ha) (.nil (by simp [Spaces])) (fun _ => by rintro ⟨n, h, -⟩; cases h) .plain .nil
      (fun _ => by decide)
  exact .mk (ds := []) (bs := u "<?xml-stylesheet?>") (b := []) (ts := []) (t := []) (as := []) (a := []) .none
    (.pi (src := []) hp .nil) .none (.empty (sc := ⟨none, []⟩) tag) .nil

/-! ## C20 -/

/-- C20: a document with an end tag that does not match its start tag, or a start tag
    that is complete but never closed, at any depth, is rejected.
    Missing: a text that ends inside a start tag (`C20_cut_fails`), and what follows the
    root element (`C20_trailing_fails`). -/
theorem C20_faulty_partial (m : Mode) (hm : m = .strict ∨ m = .clean) (ns : Option Text) (ds ms ts es : Text)
    (decl : Decl) (b t : List Node) (hd : DeclText m ds decl) (hmisc : MiscText m ms b) (ht : DoctypePart m ts t)
    (he : Broken m ⟨ns, []⟩ es) (hx : (∃ x, ds ++ (ms ++ (ts ++ es)) = u "<?xml" ++ x) → decl.version ≠ none) :
    readXml ns (ds ++ (ms ++ (ts ++ es))) = .err := by
  haveI : Clean m := ⟨by rcases hm with rfl | rfl <;> decide⟩
  exact (document_fails hd hmisc ht he hx _).resolve_left (C57_read ns _)

/-- C20: whatever is accepted is a prolog, an element of the loose grammar, in which every
    start tag has a matching end tag, and comments, white space and processing
    instructions, before the text that is ignored; or the text ends inside the root's
    start tag. -/
theorem C20_accepted_partial (ns : Option Text) (s rest : Text) (d : Doc) (h : readXml ns s = .ok d rest) :
    ∃ pre es b root a, d.kids = b ++ [root] ++ a ∧
      ((∃ post, s = pre ++ es ++ post ++ rest ∧ MiscText .loose post a ∧ ElementText .loose ⟨ns, []⟩ es root) ∨
       (s = pre ++ es ∧ rest = [] ∧ a = [] ∧
        ∃ as q bs, TagText .loose ⟨ns, [as]⟩ as es q bs ∧ root = .element q bs [])) := document_sound h

theorem sample_tag : TagText .strict ⟨none, [[]]⟩ [] (u "<a") ⟨none, u "a"⟩ [] :=
  .mk (bs := []) (src := []) (.plain (ncname_ascii (t := u "a") (by decide) (by decide))) (.nil (by simp [Spaces]))
    (fun _ => by rintro ⟨n, h, -⟩; cases h) .plain .nil (fun _ => by decide)

theorem sample_inner : TagText .strict ⟨none, [[], []]⟩ [] (u "<b") ⟨none, u "b"⟩ [] :=
  .mk (bs := []) (src := []) (.plain (ncname_ascii (t := u "b") (by decide) (by decide))) (.nil (by simp [Spaces]))
    (fun _ => by rintro ⟨n, h, -⟩; cases h) .plain .nil (fun _ => by decide)

/-- The fault may be deep: in `<a><b></a>` the end tag does not match `b`. -/
example : readXml none (u "<a><b></a>") = .err :=
  have wrong : ¬ ElementName ⟨none, [[], []]⟩ ⟨none, u "a"⟩ ⟨none, u "b"⟩ := by
    intro h
    have : u "a" = u "b" := by
      generalize hq : (⟨none, u "b"⟩ : QName) = q at h
      cases h with
      | plain => exact (QName.mk.inj hq).2.symm
    exact absurd this (by decide)
  have inner : Broken .strict ⟨none, [[]]⟩ (u "<b></a>") :=
    .mismatch (sc := ⟨none, [[]]⟩) (src := u "<b") (body := []) (name := u "a") (w := []) (rest := []) sample_inner
      (.last .nil) (.plain (ncname_ascii (by decide) (by decide))) wrong (by simp [Spaces])
  C20_faulty_partial .strict (.inl rfl) none [] [] [] (u "<a><b></a>") {} [] [] .none .nil .none
    (.inside (sc := ⟨none, []⟩) (body := []) (child := u "<b></a>") sample_tag (.last .nil) inner)
    (by rintro ⟨x, h⟩; simp [u] at h)

example : readXml none (u "<a>") = .err :=
  C20_faulty_partial .strict (.inl rfl) none [] [] [] (u "<a>") {} [] [] .none .nil .none
    (.unclosed (sc := ⟨none, []⟩) (body := []) sample_tag (.last .nil)) (by rintro ⟨x, h⟩; simp [u] at h)

/-- C20 fails: the start tag is never closed. -/
theorem C20_cut_fails : readXml none (u "<a b=\"c\" ") =
    .ok ⟨{}, [.element ⟨none, u "a"⟩ [(⟨none, u "b"⟩, u "c")] []]⟩ [] := by decide +kernel

/-- C20 fails: the last end tag matches nothing. -/
theorem C20_trailing_fails : readXml none (u "<a/></b>") = .ok ⟨{}, [.element ⟨none, u "a"⟩ [] []]⟩ (u "</b>") := by decide +kernel

/-- C20 fails: two roots; the second is dropped. -/
theorem C20_roots_fails : readXml none (u "<a/><b/>") = .ok ⟨{}, [.element ⟨none, u "a"⟩ [] []]⟩ (u "<b/>") := by decide +kernel

/-! ## C21 -/

/-- The namespaces the reader knows inside these tags, innermost first. -/
def inside (ns : Option Text) : List Written → Context
  | [] => .make ns
  | as :: tags => as.foldl (fun c a => c.see a.1 a.2) (inside ns tags)

theorem inside_agree (ns : Option Text) (tags : List Written) : Agree (inside ns tags) ⟨ns, tags⟩ := by
  induction tags with
  | nil => exact Agree.make ns
  | cons as tags ih => exact ih.see as

/-- C21: inside any nesting of tags, an element's and an attribute's name resolve as the
    specification says: a prefix by the closest tag that declares it, `xml` and `xmlns`
    to their fixed namespaces whatever is declared, an attribute without prefix to no
    namespace and an element without prefix to the closest default namespace. Names with
    an unknown prefix do not resolve. -/
theorem C21_resolve (ns : Option Text) (tags : List Written) (n : Name) (q : QName) :
    ((inside ns tags).element n = some q ↔ ElementName ⟨ns, tags⟩ n q) ∧
    ((inside ns tags).attribute n = some q ↔ AttrName ⟨ns, tags⟩ n q) :=
  ⟨(inside_agree ns tags).element n q, (inside_agree ns tags).attribute n q⟩

/-- C21: this is what the reader does with a document: every name in an element it
    accepts, at any depth, is resolved in the scope of the tags around it and its own. -/
theorem C21_accepted (ns : Option Text) (s rest : Text) (d : Doc) (h : readXml ns s = .ok d rest) :
    ∃ es root, root ∈ d.kids ∧ (ElementText .loose ⟨ns, []⟩ es root ∨
      ∃ as q bs, TagText .loose ⟨ns, [as]⟩ as es q bs ∧ root = .element q bs []) := by
  obtain ⟨pre, es, b, root, a, hk, h⟩ := document_sound h
  refine ⟨es, root, by rw [hk]; simp, ?_⟩
  rcases h with ⟨_, _, _, h⟩ | ⟨_, _, _, h⟩
  · exact .inl h
  · exact .inr h

/-- C21: a name whose prefix nothing declares makes the document an error. -/
theorem C21_unknown_prefix (ns : Option Text) (tags : List Written) (p l : Text)
    (h : prefixNs ⟨ns, tags⟩ p = none) : (inside ns tags).element ⟨some p, l⟩ = none ∧
      (inside ns tags).attribute ⟨some p, l⟩ = none := by
  constructor
  · rw [Option.eq_none_iff_forall_ne_some]
    intro q hq
    cases ((C21_resolve ns tags _ q).1.1 hq) with
    | prefixed h' => rw [h] at h'; cases h'
  · rw [Option.eq_none_iff_forall_ne_some]
    intro q hq
    cases ((C21_resolve ns tags _ q).2.1 hq) with
    | prefixed h' => rw [h] at h'; cases h'

/-- `<p:a xmlns:p="1"><p:b xmlns:p="2" xmlns:xml="3" p:c="" d="" xml:e=""/><p:f/></p:a>`. -/
example : readXml (some (u "0")) (u "<p:a xmlns:p=\"1\"><p:b xmlns:p=\"2\" xmlns:xml=\"3\" p:c=\"\" d=\"\" xml:e=\"\"/><p:f/><g/></p:a>") =
    .ok ⟨{}, [.element ⟨some (u "1"), u "a"⟩ [(⟨some xmlnsNs, u "p"⟩, u "1")]
      [.element ⟨some (u "2"), u "b"⟩ [(⟨some xmlnsNs, u "p"⟩, u "2"), (⟨some xmlnsNs, u "xml"⟩, u "3"),
        (⟨some (u "2"), u "c"⟩, []), (⟨none, u "d"⟩, []), (⟨some xmlNs, u "e"⟩, [])] [],
       .element ⟨some (u "1"), u "f"⟩ [] [], .element ⟨some (u "0"), u "g"⟩ [] []]]⟩ [] := by decide +kernel

example : prefixNs ⟨none, [[(⟨some (u "xmlns"), u "p"⟩, u "2")], [(⟨some (u "xmlns"), u "p"⟩, u "1")]]⟩ (u "p") =
    some (u "2") := by decide
example : prefixNs ⟨none, [[(⟨some (u "xmlns"), u "p"⟩, u "2")]]⟩ (u "q") = none := by decide

/-! ## C58 -/

/-- C58: a tree whose names need no prefix is read back from what is written. `Writable`
    excludes void and raw text elements, neighbouring and empty texts, comments with
    `-->`, attributes in a namespace and document types. -/
theorem C58_roundtrip_partial (ns : Option Text) (q : QName) (as : Attrs) (kids : List Node)
    (h : Writable ns (.element q as kids)) :
    readXml ns (writeNodes false [.element q as kids]) = .ok ⟨{}, [.element q as kids]⟩ [] := by
  have hw := writeNode_text (raw := false) _ h (sc := ⟨ns, []⟩) rfl
  have he : ElementText .clean ⟨ns, []⟩ (writeNode false (.element q as kids)) (.element q as kids) := by
    cases hw with
    | element he => exact he
  have hd : DocumentText .clean ns (writeNodes false [.element q as kids]) ⟨{}, [.element q as kids]⟩ := by
    have := DocumentText.mk (m := .clean) (ns := ns) .none .nil .none he .nil
    simpa [writeNodes] using this
  refine C19_clean_partial _ _ _ hd ?_
  rintro ⟨t, ht⟩
  obtain ⟨c, cs, hc, hs⟩ := he.head
  rw [writeNodes, writeNodes, List.append_nil, hc] at ht
  have : c = 63 := (List.cons.inj (List.cons.inj ht).2).1
  subst this
  exact absurd hs (by decide)

/-- A tree with a namespace, escaped text, a comment and nested elements. -/
def sampleTree : Node :=
  .element ⟨some htmlNs, u "p"⟩ [(⟨none, u "xmlns"⟩, htmlNs), (⟨none, u "title"⟩, u "\"<&")]
    [.text (u "a<b"), .element ⟨some htmlNs, u "b"⟩ [] [.text (u "&")], .comment (u "c")]

theorem sampleTree_writable : Writable none sampleTree := by
  have nc : ∀ {t : Text}, t ≠ [] → (∀ r ∈ t, 0x61 ≤ r ∧ r ≤ 0x7A) → NCName t := ncname_ascii
  have ins : innerNs none [(⟨none, u "xmlns"⟩, htmlNs), (⟨none, u "title"⟩, u "\"<&")] = some htmlNs := by decide
  refine ⟨nc (by decide) (by decide), ins.symm, by decide, ⟨?_, by decide, ?_⟩, fun _ => by decide, ?_⟩
  · intro a ha
    rcases List.mem_cons.1 ha with rfl | ha
    · exact ⟨rfl, nc (by decide) (by decide)⟩
    · rw [List.mem_singleton] at ha
      subst ha
      exact ⟨rfl, nc (by decide) (by decide)⟩
  · intro a bs h
    cases h
    decide
  · rw [ins]
    refine ⟨rfl, by decide, ⟨nc (by decide) (by decide), rfl, by decide, ⟨by simp, by decide, by intro a bs h; cases h⟩,
      fun _ => by decide, rfl, by decide, trivial⟩, ⟨?_, ?_⟩, trivial⟩
    · intro a b h
      have h := congrArg List.length h
      simp [u] at h
      omega
    · intro r hr
      have : r = 99 := by simpa [u] using hr
      subst this
      exact .inr (.inr (.inr (.inl (by decide))))

example : readXml none (writeNodes false [sampleTree]) = .ok ⟨{}, [sampleTree]⟩ [] :=
  C58_roundtrip_partial _ _ _ _ sampleTree_writable

/-- C58 fails: a void element is written without an end tag. -/
theorem C58_void_fails : readXml none (writeNodes false [.element ⟨some htmlNs, u "p"⟩ [(⟨none, u "xmlns"⟩, htmlNs)]
    [.element ⟨some htmlNs, u "br"⟩ [] []]]) = .err := by decide +kernel

/-- C58 fails: an attribute's prefix is not written, so the attribute comes back in no
    namespace. -/
theorem C58_attribute_fails :
    readXml none (writeNodes false [.element ⟨none, u "a"⟩ [(⟨some xmlNs, u "lang"⟩, u "fr")] []]) =
      .ok ⟨{}, [.element ⟨none, u "a"⟩ [(⟨none, u "lang"⟩, u "fr")] []]⟩ [] := by decide +kernel

/-- C58 fails: a comment is not escaped. -/
theorem C58_comment_fails :
    readXml none (writeNodes false [.element ⟨none, u "a"⟩ [] [.comment (u "--><b/>")]]) =
      .ok ⟨{}, [.element ⟨none, u "a"⟩ [] [.comment [], .element ⟨none, u "b"⟩ [] [], .text (u "-->")]]⟩ [] := by decide +kernel

/-! ## C18 -/

/-- C18: any text in an element and any attribute value come back unchanged, the element
    being of any name in no namespace.
    Missing: texts whose parent is written raw (`C18_raw_fails`). -/
theorem C18_escape_partial (name attr t v : Text) (hn : NCName name) (ha : NCName attr) (hx : attr ≠ u "xmlns")
    (ht : t ≠ []) :
    readXml none (writeNodes false [.element ⟨none, name⟩ [(⟨none, attr⟩, v)] [.text t]]) =
      .ok ⟨{}, [.element ⟨none, name⟩ [(⟨none, attr⟩, v)] [.text t]]⟩ [] := by
  refine C58_roundtrip_partial _ _ _ _ ?_
  have ins : innerNs none [((⟨none, attr⟩ : QName), v)] = none := by
    simp [innerNs, hx]
  rw [Writable]
  refine ⟨hn, ins.symm, by simp [bareNs], ⟨?_, by simp, ?_⟩, (fun h => by cases h), ⟨rfl, ht, trivial⟩⟩
  · intro a h
    rw [List.mem_singleton.1 h]
    exact ⟨rfl, ha⟩
  · intro a bs h
    cases h
    simp

/-- C18 for what is written alone: escaped text denotes the text, escaped values the value. -/
theorem C18_denotes (t : Text) : CharText .clean (escapeString false t) t ∧ ValueText .clean 34 (escapeString true t) t :=
  ⟨escape_text t, escape_value t⟩

example : readXml none (u "<a b=\"&quot;&lt;&amp;\">]]&gt;&nbsp;\"</a>") =
    .ok ⟨{}, [.element ⟨none, u "a"⟩ [(⟨none, u "b"⟩, u "\"<&")] [.text (u "]]> \"")]]⟩ [] := by decide +kernel

/-- C18 fails: the text of a style element is not escaped. -/
theorem C18_raw_fails : readXml none (writeNodes false [.element ⟨some htmlNs, u "style"⟩ [(⟨none, u "xmlns"⟩, htmlNs)]
    [.text (u "a<b")]]) = .err := by decide +kernel

end Verif.Xml
