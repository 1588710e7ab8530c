import Verif.Html.Document
/-
The tokens of an HTML document.
-/
namespace Verif.Html
open Spec

/-- The tokenizer with the table of the program. -/
def program (sink : List Token → Option Content) : Env := ⟨entities, sink⟩

/-- A tree builder that leaves the tokenizer alone. -/
def quiet : List Token → Option Content := fun _ => none

/-! ### C111: every document ends -/

/-- **C111.**  Whatever the document and whatever the tree builder answers, the tokenizer reads
every character a bounded number of times, never panics and never writes to an attribute that is
not there, and says once, at the very end, that the file is over. -/
theorem C111_tokens_end (sink : List Token → Option Content) (doc : Str) :
    EndsOnce (tokens (program sink) doc) ∧
      (run (program sink) doc).fault ≠ some .panic ∧
      (run (program sink) doc).fault ≠ some .noAttribute ∧
      (run (program sink) doc).fault ≠ some .endless := by
  have h := run_done (program sink) entities_table doc
  refine ⟨h.ends, ?_, ?_, ?_⟩ <;>
    (rcases h.fault with e | e <;> rw [e] <;> decide)

/-- A document cut off in the middle of a tag ends as well. -/
example : tokens (program quiet) ['a', '<', 'b', ' ', 'c', '=', '"'] =
    [{ kind := .character, rune := 'a' }, { kind := .endOfFile }] := by decide +kernel

/-! ### C112: no read outside a buffer -/

/-- `<a b='&copy='>&T ` -/
def staleDoc : Str :=
  ['<', 'a', ' ', 'b', '=', '\'', '&', 'c', 'o', 'p', 'y', '=', '\'', '>', '&', 'T', ' ']

/-- **C112, as a claim about every document, is false.**  A reference like `&copy=` in an
attribute is left alone, as it should be, but its length is remembered; the next `&` that is not a
reference is then cut to that length, which reads past the end of the buffer. -/
theorem C112_in_bounds_fails :
    (run (program quiet) staleDoc).fault = some .outOfBounds := by decide +kernel

/-- **C112, partial.**  A document written by the rules of the grammar of `Spec.lean` is read
without reading outside a buffer, without panic and without end.  The grammar has no reference
without semicolon that is followed by `=` or a letter inside an attribute, nor an ampersand
followed by a word that is no reference. -/
theorem C112_in_bounds_partial (sink : List Token → Option Content) {is : List Item}
    (hok : ∀ i ∈ is, i.Ok) (hag : Agrees sink [] is) {doc : Str} (hd : Unix doc (itemSrcs is)) :
    (run (program sink) doc).fault = none :=
  (document (E := program sink) rfl hok hag hd).2

/-! ### C114: the grammar -/

/-- **C114.**  A document written by the rules of the grammar of `Spec.lean` (text with
references, tags with attributes in every spelling, comments, document types, elements that hold
text only) is given to the tree builder as what it means, part by part and in order, whatever
newlines it is written with.  The attributes of a tag are those written, with their names in lower
case and their references replaced, the first of several of the same name; the tree builder is
assumed to ask for text after the start tags where the grammar says so. -/
theorem C114_document_partial (sink : List Token → Option Content) {is : List Item}
    (hok : ∀ i ∈ is, i.Ok) (hag : Agrees sink [] is) {doc : Str} (hd : Unix doc (itemSrcs is)) :
    tokens (program sink) doc = itemMeanings is ++ [eof] :=
  (document (E := program sink) rfl hok hag hd).1

/-- A tree builder that knows `title` and `script`. -/
def knowing : List Token → Option Content := fun ts =>
  match ts.getLast? with
  | some t =>
    if t.name = some ['t', 'i', 't', 'l', 'e'] then some .rcdata
    else if t.name = some ['s', 'c', 'r', 'i', 'p', 't'] then some .scriptData else none
  | none => none

/-- `<!DOCTYPE html><Title>a&#60;</b</TITLE ><p A="x" b='&#x41;'>&#169;</p><!-- c -->` -/
def sampleItems : List Item :=
  [.doctype ⟨['D', 'O', 'C', 'T', 'Y', 'P', 'E'], [' '], ['h', 't', 'm', 'l'], .nothing⟩,
   .raw .rcdata ⟨['T', 'i', 't', 'l', 'e'], [], [], false⟩
     [.ch 'a', .ref (.dec ['6', '0']), .ch '<', .ch '/', .ch 'b']
     ⟨['T', 'I', 'T', 'L', 'E'], [], [' '], false⟩,
   .opens ⟨['p'], [⟨[' '], ['A'], .quoted [] [] '"' [.char 'x']⟩,
     ⟨[' '], ['b'], .quoted [] [] '\'' [.hex 'x' ['4', '1']]⟩], [], false⟩,
   .text (.dec ['1', '6', '9']),
   .closes ⟨['p'], [], [], false⟩,
   .comment [' ', 'c', ' ']]

theorem unix_same : ∀ {x : Str}, '\r' ∉ x → Unix x x
  | [], _ => .nil
  | c :: x, h => .other c (fun e => h (by simp [e])) (unix_same (fun hx => h (by simp [hx])))

/-- The sample is written by the rules. -/
theorem sample_ok : (∀ i ∈ sampleItems, i.Ok) ∧ Agrees knowing [] sampleItems ∧
    Unix (itemSrcs sampleItems) (itemSrcs sampleItems) := by
  refine ⟨?_, ?_, unix_same (by decide +kernel)⟩
  · intro i hi
    simp only [sampleItems, List.mem_cons, List.not_mem_nil, or_false] at hi
    rcases hi with rfl | rfl | rfl | rfl | rfl | rfl
    · refine ⟨by decide +kernel, ⟨by decide, ?_⟩, ⟨by decide, ?_⟩, trivial⟩
      · unfold Spaces; decide
      · decide
    · refine ⟨⟨⟨⟨'T', _, rfl, ?_⟩, ?_⟩, ⟨?_, ?_, ?_⟩⟩, ⟨by decide, ?_, ?_, fun h => by cases h⟩,
        ⟨⟨⟨'T', _, rfl, ?_⟩, ?_⟩, ⟨?_, ?_, ?_⟩⟩, ⟨by decide, ?_⟩, by decide +kernel⟩
      · decide
      · decide
      · intro a ha; cases ha
      · unfold Spaces; decide
      · decide
      · intro b hb
        simp only [List.mem_cons, List.not_mem_nil, or_false] at hb
        rcases hb with rfl | rfl | rfl | rfl | rfl <;> first
          | exact ⟨by decide, by decide⟩
          | (refine ⟨rfl, by decide, ?_⟩; decide)
      · rintro ⟨a, n, c, b, h, hn, -⟩
        have hlen : n.length = 5 := by
          have := congrArg List.length hn
          simpa [lower] using this
        have := congrArg List.length h
        simp [bitSrcs, Bit.src, Piece.src, hlen] at this
        match a, (show a.length ≤ 1 by omega) with
        | [], _ => simp [bitSrcs, Bit.src, Piece.src] at h
        | [_], _ => simp [bitSrcs, Bit.src, Piece.src] at h
      · decide
      · decide
      · intro a ha; cases ha
      · unfold Spaces; decide
      · decide
      · decide
    · refine ⟨⟨⟨'p', _, rfl, ?_⟩, ?_⟩, ⟨?_, ?_, by decide⟩⟩
      · decide
      · decide
      · intro a ha
        simp only [List.mem_cons, List.not_mem_nil, or_false] at ha
        rcases ha with rfl | rfl
        · refine ⟨⟨by decide, by unfold Spaces; decide⟩, ⟨by decide, by decide⟩,
            by unfold Spaces; decide, by unfold Spaces; decide, by decide, ?_⟩
          intro p hp
          rw [List.mem_singleton.mp hp]
          show ¬ ('x' = '&' ∨ 'x' = '"' ∨ 'x' = '\x00')
          decide
        · refine ⟨⟨by decide, by unfold Spaces; decide⟩, ⟨by decide, by decide⟩,
            by unfold Spaces; decide, by unfold Spaces; decide, by decide, ?_⟩
          intro p hp
          rw [List.mem_singleton.mp hp]
          exact ⟨Or.inl rfl, by decide, by decide⟩
      · unfold Spaces; decide
    · exact ⟨by decide, by decide⟩
    · refine ⟨⟨⟨'p', _, rfl, ?_⟩, ?_⟩, ⟨?_, ?_, by decide⟩⟩
      · decide
      · decide
      · intro a ha; cases ha
      · unfold Spaces; decide
    · refine ⟨?_, ?_, ?_, ?_, by decide⟩
      · intro r h; cases h
      · intro r h; cases h
      · intro a b h
        have := congrArg (List.countP (· == '-')) h
        simp at this
      · intro a b h
        have := congrArg (List.countP (· == '-')) h
        simp at this
  · exact ⟨by decide +kernel, by decide +kernel, trivial⟩

/-- What the sample means, written out. -/
example : tokens (program knowing) (itemSrcs sampleItems) =
    [{ kind := .doctype, name := some ['h', 't', 'm', 'l'] },
     { kind := .startTag, name := some ['t', 'i', 't', 'l', 'e'] },
     char 'a', char '<', char '<', char '/', char 'b',
     { kind := .endTag, name := some ['t', 'i', 't', 'l', 'e'] },
     { kind := .startTag, name := some ['p'], attrs := [⟨['a'], ['x']⟩, ⟨['b'], ['A']⟩] },
     char '©',
     { kind := .endTag, name := some ['p'] },
     { kind := .comment, data := [' ', 'c', ' '] },
     eof] := by
  rw [C114_document_partial knowing sample_ok.1 sample_ok.2.1 sample_ok.2.2]
  decide +kernel

/-! ### C113: plain text -/

theorem text_items (x : Str) : itemSrcs (x.map fun c => .text (.char c)) = x ∧
    itemMeanings (x.map fun c => .text (.char c)) = x.map char := by
  induction x with
  | nil => exact ⟨rfl, rfl⟩
  | cons c x ih =>
    obtain ⟨h1, h2⟩ := ih
    constructor
    · show c :: itemSrcs _ = _
      rw [h1]
    · show char c :: itemMeanings _ = _
      rw [h2]; rfl

theorem agrees_text (sink : List Token → Option Content) : ∀ (ps : List Piece) (o : List Token),
    Agrees sink o (ps.map .text)
  | [], _ => trivial
  | _ :: ps, o => agrees_text sink ps _

theorem texts_ok {is : List Item} {ps : List Piece} (h : is = ps.map .text)
    (hp : ∀ p ∈ ps, p.Ok .text) : ∀ i ∈ is, i.Ok := by
  intro i hi
  rw [h] at hi
  obtain ⟨p, hm, rfl⟩ := List.mem_map.mp hi
  exact hp p hm

/-- **C113.**  A document without `<` and `&` is its own text: every character is given to the
tree builder once and in order, with the newlines of any system made those of Unix. -/
theorem C113_plain_text (sink : List Token → Option Content) {doc text : Str}
    (hd : Unix doc text) (h : ∀ c ∈ text, c ≠ '<' ∧ c ≠ '&') :
    tokens (program sink) doc = text.map char ++ [eof] := by
  have e : (text.map fun c => Item.text (.char c)) = (text.map Piece.char).map .text := by simp
  rw [C114_document_partial sink (is := text.map fun c => .text (.char c)) ?_ ?_ (by rw [(text_items text).1]; exact hd),
    (text_items text).2]
  · apply texts_ok e
    intro p hp
    obtain ⟨c, hc, rfl⟩ := List.mem_map.mp hp
    show ¬ (c = '&' ∨ c = '<')
    exact fun hs => hs.elim (h c hc).2 (h c hc).1
  · rw [e]; exact agrees_text sink _ _

example : tokens (program quiet) ['a', '\r', '\n', '\r', 'b'] =
    [char 'a', char '\n', char '\n', char 'b', eof] :=
  C113_plain_text quiet (.other 'a' (by decide) (.crlf (.cr (by simp) (.other 'b' (by decide) .nil))))
    (by decide)

/-! ### C115: elements that hold text only -/

/-- **C115.**  After the start tag of an element that holds text only, everything up to the end tag
of that element is text: no tag, no comment, and in a script or style sheet no reference either.
The text may hold any character but `NUL`; the end tag may be written in any case and with
attributes or white space after the name.  What is missing: scripts that hold `<!--`, and text
after which the file just ends. -/
theorem C115_raw_text_partial (sink : List Token → Option Content) {k : Content} {t e : TagSrc}
    {bs : List Bit} (ht : t.Ok) (hbs : RawText k t.name bs) (he : e.Ok) (hl : Letters t.name)
    (hn : lower e.name = lower t.name) (hs : sink [t.means .startTag] = some k) {doc : Str}
    (hd : Unix doc ('<' :: t.src ++ (bitSrcs bs ++ '<' :: '/' :: e.src))) :
    tokens (program sink) doc =
      t.means .startTag :: ((bitMeanings bs).map char ++ [e.means .endTag, eof]) := by
  rw [C114_document_partial sink (is := [.raw k t bs e])
    (by intro i hi; rw [List.mem_singleton.mp hi]; exact ⟨ht, hbs, he, hl, hn⟩) ⟨hs, trivial⟩
    (by simpa [itemSrcs, Item.src] using hd)]
  simp [itemMeanings, Item.means]

/-- `<script>if(a</b/)</Script>`: what looks like an end tag is not one. -/
example : tokens (program knowing)
    ['<', 's', 'c', 'r', 'i', 'p', 't', '>', 'a', '<', '/', 'b', '>', '&', '<', '/', 'S', 'c', 'r', 'i', 'p', 't', '>'] =
    [{ kind := .startTag, name := some ['s', 'c', 'r', 'i', 'p', 't'] },
     char 'a', char '<', char '/', char 'b', char '>', char '&',
     { kind := .endTag, name := some ['s', 'c', 'r', 'i', 'p', 't'] }, eof] := by
  have h := C115_raw_text_partial knowing (k := .scriptData)
    (t := ⟨['s', 'c', 'r', 'i', 'p', 't'], [], [], false⟩) (e := ⟨['S', 'c', 'r', 'i', 'p', 't'], [], [], false⟩)
    (bs := [.ch 'a', .ch '<', .ch '/', .ch 'b', .ch '>', .ch '&'])
    ⟨⟨⟨'s', _, rfl, by decide⟩, by decide⟩,
      (fun a ha => by cases ha), by unfold Spaces; decide, by decide⟩
    ⟨by decide, by
        intro b hb
        simp only [List.mem_cons, List.not_mem_nil, or_false] at hb
        rcases hb with rfl | rfl | rfl | rfl | rfl | rfl <;> exact ⟨by decide, by decide⟩, by
        rintro ⟨a, n, c, b, h, hn, -⟩
        have hlen : n.length = 6 := by
          have := congrArg List.length hn
          simpa [lower] using this
        have := congrArg List.length h
        simp [bitSrcs, Bit.src, hlen] at this
        omega, by
        intro _ a b h
        have := congrArg (List.countP (· == '-')) h
        simp [bitSrcs, Bit.src] at this⟩
    ⟨⟨⟨'S', _, rfl, by decide⟩, by decide⟩,
      (fun a ha => by cases ha), by unfold Spaces; decide, by decide⟩
    ⟨by decide, by decide⟩ (by decide +kernel) (by decide +kernel)
    (unix_same (by decide +kernel))
  exact h.trans (by decide +kernel)

/-! ### C116, C117, C119: references -/

/-- Text with one piece in it. -/
theorem around (sink : List Token → Option Content) {pre post : Str} {p : Piece} (hp : p.Ok .text)
    (h : ∀ c ∈ pre ++ post, c ≠ '<' ∧ c ≠ '&') {doc : Str} (hd : Unix doc (pre ++ p.src ++ post)) :
    tokens (program sink) doc = (pre ++ p.means ++ post).map char ++ [eof] := by
  have e : ((pre.map Piece.char ++ [p] ++ post.map Piece.char).map Item.text) =
      (pre.map fun c => Item.text (.char c)) ++ [.text p] ++ (post.map fun c => Item.text (.char c)) := by
    simp [Function.comp_def]
  have e1 : itemSrcs ((pre.map Piece.char ++ [p] ++ post.map Piece.char).map Item.text) = pre ++ p.src ++ post := by
    rw [e, itemSrcs, List.flatMap_append, List.flatMap_append]
    show itemSrcs _ ++ _ ++ itemSrcs _ = _
    rw [(text_items pre).1, (text_items post).1]
    simp [Item.src]
  have e2 : itemMeanings ((pre.map Piece.char ++ [p] ++ post.map Piece.char).map Item.text) =
      (pre ++ p.means ++ post).map char := by
    rw [e, itemMeanings, List.flatMap_append, List.flatMap_append]
    show itemMeanings _ ++ _ ++ itemMeanings _ = _
    rw [(text_items pre).2, (text_items post).2]
    simp [Item.means]
  rw [C114_document_partial sink (is := (pre.map Piece.char ++ [p] ++ post.map Piece.char).map .text)
    (texts_ok rfl ?_) (agrees_text sink _ _) (by rw [e1]; exact hd), e2]
  intro q hq
  simp only [List.mem_append, List.mem_singleton, List.mem_map] at hq
  have hc : ∀ c, c ∈ pre ++ post → (Piece.char c).Ok .text := by
    intro c hc
    show ¬ (c = '&' ∨ c = '<')
    exact fun hs => hs.elim (h c hc).2 (h c hc).1
  rcases hq with (⟨c, hm, rfl⟩ | rfl) | ⟨c, hm, rfl⟩
  · exact hc c (by simp [hm])
  · exact hp
  · exact hc c (by simp [hm])

/-- A tag with one attribute, in double quotes, with one piece in it. -/
theorem aroundAttr (sink : List Token → Option Content) (hs : ∀ ts, sink ts = none) {pre post : Str}
    {p : Piece} (hp : p.Ok (.quoted '"'))
    (h : ∀ c ∈ pre ++ post, c ≠ '"' ∧ c ≠ '&' ∧ c ≠ '\x00') {doc : Str}
    (hd : Unix doc (['<', 'a', ' ', 'b', '=', '"'] ++ pre ++ p.src ++ post ++ ['"', '>'])) :
    tokens (program sink) doc =
      [{ kind := .startTag, name := some ['a'], attrs := [⟨['b'], pre ++ p.means ++ post⟩] }, eof] := by
  have hsrc : ∀ x : Str, srcs (x.map Piece.char) = x ∧ meanings (x.map Piece.char) = x := by
    intro x
    induction x with
    | nil => exact ⟨rfl, rfl⟩
    | cons c x ih =>
      exact ⟨by show c :: srcs _ = _; rw [ih.1], by show c :: meanings _ = _; rw [ih.2]⟩
  have e1 : srcs (pre.map Piece.char ++ [p] ++ post.map Piece.char) = pre ++ p.src ++ post := by
    rw [srcs, List.flatMap_append, List.flatMap_append]
    show srcs _ ++ _ ++ srcs _ = _
    rw [(hsrc pre).1, (hsrc post).1]
    simp
  have e2 : meanings (pre.map Piece.char ++ [p] ++ post.map Piece.char) = pre ++ p.means ++ post := by
    rw [meanings, List.flatMap_append, List.flatMap_append]
    show meanings _ ++ _ ++ meanings _ = _
    rw [(hsrc pre).2, (hsrc post).2]
    simp
  have hc : ∀ c, c ∈ pre ++ post → (Piece.char c).Ok (.quoted '"') := by
    intro c hc
    show ¬ (c = '&' ∨ c = '"' ∨ c = '\x00')
    rintro (hs | hs | hs)
    · exact (h c hc).2.1 hs
    · exact (h c hc).1 hs
    · exact (h c hc).2.2 hs
  rw [C114_document_partial sink (is := [.opens ⟨['a'], [⟨[' '], ['b'],
      .quoted [] [] '"' (pre.map Piece.char ++ [p] ++ post.map Piece.char)⟩], [], false⟩]) ?_
    ⟨hs _, trivial⟩]
  · simp only [itemMeanings, List.flatMap_cons, List.flatMap_nil, Item.means, TagSrc.means,
      List.map_cons, List.map_nil, List.foldl_cons, List.foldl_nil, AttrSrc.means, Val.means, e2]
    rfl
  · simp only [itemSrcs, List.flatMap_cons, List.flatMap_nil, Item.src, TagSrc.src, AttrSrc.src,
      Val.src, e1, closing]
    simpa using hd
  · intro i hi
    rw [List.mem_singleton.mp hi]
    refine ⟨⟨⟨'a', [], rfl, by decide⟩, ?_⟩, ?_, (fun c hc => by cases hc), (fun h => by cases h)⟩
    · intro c hc
      rw [List.mem_singleton.mp hc]; decide
    intro a ha
    rw [List.mem_singleton.mp ha]
    refine ⟨⟨by simp, ?_⟩, ⟨by simp, ?_⟩, (fun c hc => by cases hc), (fun c hc => by cases hc),
      Or.inl rfl, ?_⟩
    · intro c hc; rw [List.mem_singleton.mp hc]; decide
    · intro c hc; rw [List.mem_singleton.mp hc]; decide
    intro q hq
    simp only [List.mem_append, List.mem_singleton, List.mem_map] at hq
    rcases hq with (⟨c, hm, rfl⟩ | rfl) | ⟨c, hm, rfl⟩
    · exact hc c (by simp [hm])
    · exact hp
    · exact hc c (by simp [hm])

/-- **C116, partial: decimal references.**  `&#`, digits and `;` stand for the one character of
that number, however long the number is, in text as in attributes; numbers that are no characters
stand for U+FFFD and 128 to 159 for the characters of Windows-1252. -/
theorem C116_decimal_partial (sink : List Token → Option Content) {pre ds post : Str}
    (h : ∀ c ∈ pre ++ post, c ≠ '<' ∧ c ≠ '&') (hne : ds ≠ []) (hds : ∀ c ∈ ds, Digit c)
    {doc : Str} (hd : Unix doc (pre ++ ('&' :: '#' :: ds ++ [';']) ++ post)) :
    tokens (program sink) doc =
      (pre ++ [numbered (number 10 ds)] ++ post).map char ++ [eof] :=
  around sink (p := .dec ds) ⟨hne, hds⟩ h hd

theorem C116_hexadecimal_partial (sink : List Token → Option Content) {pre ds post : Str} {x : Char}
    (h : ∀ c ∈ pre ++ post, c ≠ '<' ∧ c ≠ '&') (hx : x = 'x' ∨ x = 'X') (hne : ds ≠ [])
    (hds : ∀ c ∈ ds, HexDigit c) {doc : Str}
    (hd : Unix doc (pre ++ ('&' :: '#' :: x :: ds ++ [';']) ++ post)) :
    tokens (program sink) doc =
      (pre ++ [numbered (number 16 ds)] ++ post).map char ++ [eof] :=
  around sink (p := .hex x ds) ⟨hx, hne, hds⟩ h hd

theorem C116_attribute_partial (sink : List Token → Option Content) (hs : ∀ ts, sink ts = none)
    {pre ds post : Str} (h : ∀ c ∈ pre ++ post, c ≠ '"' ∧ c ≠ '&' ∧ c ≠ '\x00') (hne : ds ≠ [])
    (hds : ∀ c ∈ ds, Digit c) {doc : Str}
    (hd : Unix doc (['<', 'a', ' ', 'b', '=', '"'] ++ pre ++ ('&' :: '#' :: ds ++ [';']) ++ post ++ ['"', '>'])) :
    tokens (program sink) doc =
      [{ kind := .startTag, name := some ['a'], attrs := [⟨['b'], pre ++ [numbered (number 10 ds)] ++ post⟩] }, eof] :=
  aroundAttr sink hs (p := .dec ds) ⟨hne, hds⟩ h hd

example : tokens (program quiet) ['a', '&', '#', 'x', '2', '0', 'a', 'C', ';'] = [char 'a', char '€', eof] :=
  (C116_hexadecimal_partial quiet (pre := ['a']) (ds := ['2', '0', 'a', 'C']) (post := []) (x := 'x')
    (by decide) (Or.inl rfl) (by decide) (by decide) (unix_same (by decide))).trans
    (by decide +kernel)

/-- Beyond the last character of Unicode. -/
example : numbered (number 10 ['9', '9', '9', '9', '9', '9', '9', '9', '9', '9', '9']) = '�' := by
  decide +kernel

/-- **C116, as a claim about every document, is false.**  In `&#x41g;` the letter `g` should end
the number, so that the text is `Ag;`.  It is taken for a digit of value 16. -/
theorem C116_hexadecimal_fails :
    tokens (program quiet) ['&', '#', 'x', '4', '1', 'g', ';'] = [char (Char.ofNat 0x420), eof] := by
  decide +kernel

/-- **C117, partial: named references.**  Every name of the table, with its semicolon, stands for
its characters. -/
theorem C117_named_partial (sink : List Token → Option Content) {pre post : Str} {r : Row}
    (h : ∀ c ∈ pre ++ post, c ≠ '<' ∧ c ≠ '&') (hr : r ∈ rows) (hsemi : r.key.getLast? = some ';')
    {doc : Str} (hd : Unix doc (pre ++ ('&' :: r.key) ++ post)) :
    tokens (program sink) doc = (pre ++ r.points.map Char.ofNat ++ post).map char ++ [eof] :=
  around sink (p := .named r) ⟨hr, hsemi⟩ h hd

theorem C117_attribute_partial (sink : List Token → Option Content) (hs : ∀ ts, sink ts = none)
    {pre post : Str} {r : Row} (h : ∀ c ∈ pre ++ post, c ≠ '"' ∧ c ≠ '&' ∧ c ≠ '\x00')
    (hr : r ∈ rows) (hsemi : r.key.getLast? = some ';') {doc : Str}
    (hd : Unix doc (['<', 'a', ' ', 'b', '=', '"'] ++ pre ++ ('&' :: r.key) ++ post ++ ['"', '>'])) :
    tokens (program sink) doc =
      [{ kind := .startTag, name := some ['a'], attrs := [⟨['b'], pre ++ r.points.map Char.ofNat ++ post⟩] }, eof] :=
  aroundAttr sink hs (p := .named r) ⟨hr, hsemi⟩ h hd

/-- The old names work without a semicolon before a character that could not be part of a name. -/
theorem C117_legacy_partial (sink : List Token → Option Content) {pre post : Str} {r : Row} {c : Char}
    (h : ∀ c ∈ pre ++ post, c ≠ '<' ∧ c ≠ '&') (hr : r ∈ rows) (hsemi : r.key.getLast? ≠ some ';')
    (hc : c ≠ '<' ∧ c ≠ '&' ∧ c ≠ ';' ∧ ¬ AlphaNum c)
    {doc : Str} (hd : Unix doc (pre ++ ('&' :: r.key ++ [c]) ++ post)) :
    tokens (program sink) doc =
      (pre ++ (r.points.map Char.ofNat ++ [c]) ++ post).map char ++ [eof] :=
  around sink (p := .legacy r c)
    ⟨rfl, hr, hsemi, fun hs => hs.elim hc.2.1 hc.1, hc.2.2.2, hc.2.2.1⟩ h hd

theorem row_amp : ⟨['a', 'm', 'p', ';'], [38]⟩ ∈ rows := by
  have h : (rows.any fun r => r.key == ['a', 'm', 'p', ';'] && r.points == [38]) = true := by
    decide +kernel
  obtain ⟨r, hr, he⟩ := List.any_eq_true.mp h
  simp only [Bool.and_eq_true, beq_iff_eq] at he
  obtain ⟨k, p⟩ := r
  simp only at he
  rw [← he.1, ← he.2]
  exact hr

/-- `&amp;lt;` is the text `&lt;`: what a reference stands for is not read again. -/
example : tokens (program quiet) ['&', 'a', 'm', 'p', ';', 'l', 't', ';'] =
    [char '&', char 'l', char 't', char ';', eof] :=
  C117_named_partial quiet (pre := []) (post := ['l', 't', ';']) (r := ⟨['a', 'm', 'p', ';'], [38]⟩)
    (by decide) row_amp (by decide) (unix_same (by decide))

/-- **C119, partial.**  A query string in an attribute keeps its parameters: `&`, a word of letters
and digits and `=` stay what they are, even if the word is the name of a reference. -/
theorem C119_query_partial (sink : List Token → Option Content) (hs : ∀ ts, sink ts = none)
    {pre w post : Str} (h : ∀ c ∈ pre ++ post, c ≠ '"' ∧ c ≠ '&' ∧ c ≠ '\x00')
    (hne : w ≠ []) (hw : ∀ c ∈ w, AlphaNum c) {doc : Str}
    (hd : Unix doc (['<', 'a', ' ', 'b', '=', '"'] ++ pre ++ ('&' :: w ++ ['=']) ++ post ++ ['"', '>'])) :
    tokens (program sink) doc =
      [{ kind := .startTag, name := some ['a'], attrs := [⟨['b'], pre ++ ('&' :: w ++ ['=']) ++ post⟩] }, eof] :=
  aroundAttr sink hs (p := .query w) ⟨rfl, hne, hw⟩ h hd

/-- `<a b="?x=1&copy=2">` -/
example : tokens (program quiet)
    ['<', 'a', ' ', 'b', '=', '"', '?', 'x', '=', '1', '&', 'c', 'o', 'p', 'y', '=', '2', '"', '>'] =
    [{ kind := .startTag, name := some ['a'],
       attrs := [⟨['b'], ['?', 'x', '=', '1', '&', 'c', 'o', 'p', 'y', '=', '2']⟩] }, eof] :=
  C119_query_partial quiet (fun _ => rfl) (pre := ['?', 'x', '=', '1']) (w := ['c', 'o', 'p', 'y'])
    (post := ['2']) (by decide) (by decide) (by decide)
    (unix_same (by decide))

/-! ### C120: document types -/

/-- **C120, partial.**  A document type is one token with the name in lower case and the
identifiers as written, and does not ask for quirks, in these spellings: no white space before `>`
if there is no identifier, and exactly one white space before `PUBLIC` or `SYSTEM`. -/
theorem C120_doctype_partial (sink : List Token → Option Content) {d : Doctype} (hok : d.Ok)
    {is : List Item} (his : ∀ i ∈ is, i.Ok) (hag : Agrees sink [d.means] is) {doc : Str}
    (hd : Unix doc (d.src ++ itemSrcs is)) :
    tokens (program sink) doc = d.means :: (itemMeanings is ++ [eof]) ∧ d.means.forceQuirks = false := by
  refine ⟨?_, rfl⟩
  rw [C114_document_partial sink (is := .doctype d :: is) ?_ hag (by simpa [itemSrcs, Item.src] using hd)]
  · simp [itemMeanings, Item.means]
  · intro i hi
    rcases List.mem_cons.mp hi with rfl | hi
    · exact hok
    · exact his i hi

/-- `<!doctype HTML public 'p' "s" >` -/
example : tokens (program quiet)
    ['<', '!', 'd', 'o', 'c', 't', 'y', 'p', 'e', ' ', 'H', 'T', 'M', 'L', ' ', 'p', 'u', 'b', 'l', 'i', 'c', ' ',
     '\'', 'p', '\'', ' ', '"', 's', '"', ' ', '>'] =
    [{ kind := .doctype, name := some ['h', 't', 'm', 'l'], publicIdent := some ['p'], systemIdent := some ['s'] },
     eof] := by
  have h := (C120_doctype_partial quiet (is := []) (d := ⟨['d', 'o', 'c', 't', 'y', 'p', 'e'], [' '], ['H', 'T', 'M', 'L'],
    .pub ' ' ['p', 'u', 'b', 'l', 'i', 'c'] [' '] ⟨'\'', ['p']⟩ (some ([' '], ⟨'"', ['s']⟩)) [' ']⟩)
    ⟨by decide +kernel, ⟨by decide, by unfold Spaces; decide⟩, ⟨by decide, by decide⟩,
      ⟨by decide, by decide +kernel, by unfold Spaces; decide, ⟨by decide, by decide⟩,
        (by rintro a b h; cases h; exact ⟨by unfold Spaces; decide, by decide, by decide⟩),
        by unfold Spaces; decide⟩⟩
    (by simp) trivial (unix_same (by decide +kernel))).1
  exact h.trans (by decide +kernel)

/-- **C120, as a claim about every spelling, is false.**  With two spaces before `PUBLIC` the
identifiers are lost and the token asks for quirks. -/
theorem C120_two_spaces_fails :
    tokens (program quiet)
      ['<', '!', 'd', 'o', 'c', 't', 'y', 'p', 'e', ' ', 'h', 't', 'm', 'l', ' ', ' ', 'p', 'u', 'b', 'l', 'i', 'c', ' ',
       '"', 'p', '"', '>'] =
      [{ kind := .doctype, name := some ['h', 't', 'm', 'l'], forceQuirks := true }, eof] := by
  decide +kernel

/-- A space before the `>` of a document type spoils the next comment: `<!doctype html ><!-- > -->`
is read as the document type, a comment of the data `>-- `, and the text ` -->`. -/
theorem C120_space_fails :
    tokens (program quiet)
      ['<', '!', 'd', 'o', 'c', 't', 'y', 'p', 'e', ' ', 'h', 't', 'm', 'l', ' ', '>',
       '<', '!', '-', '-', ' ', '>', ' ', '-', '-', '>'] =
      [{ kind := .doctype, name := some ['h', 't', 'm', 'l'] },
       { kind := .comment, data := ['>', '-', '-', ' '] }, char ' ', char '-', char '-', char '>', eof] := by
  decide +kernel

/-! ### C121: CDATA -/

/-- **C121 is false.**  `<![CDATA[<]]>` inside an `svg` element should be the text `<`.  The
tokenizer is never told that it is there, so that it is a comment. -/
theorem C121_cdata_fails :
    ∃ doc, doc = ['<', 's', 'v', 'g', '>', '<', '!', '[', 'C', 'D', 'A', 'T', 'A', '[', '<', ']', ']', '>'] ∧
      tokens (program quiet) doc =
        [{ kind := .startTag, name := some ['s', 'v', 'g'] },
         { kind := .comment, data := ['[', 'C', 'D', 'A', 'T', 'A', '[', '<', ']', ']'] }, eof] :=
  ⟨_, rfl, by decide +kernel⟩

/-! ### C118: tags make sense -/

/-- **C118.**  Every start tag and end tag that the tree builder is given has a lower-case name
that is not empty, and attributes whose names are lower-case, not empty and pairwise
different. -/
theorem C118_tags_make_sense (sink : List Token → Option Content) (doc : Str) :
    GoodTags (tokens (program sink) doc) :=
  (run_done (program sink) entities_table doc).tags

/-- `<P A=1 a=2>`: the first of two attributes of the same name counts. -/
example : tokens (program quiet) ['<', 'P', ' ', 'A', '=', '1', ' ', 'a', '=', '2', '>'] =
    [{ kind := .startTag, name := some ['p'], attrs := [⟨['a'], ['1']⟩] },
      { kind := .endOfFile }] := by decide +kernel

end Verif.Html
