import Verif.Doc.Lemmas
/-!
# Properties C222–C227: a document's title, text, root, address, background and styles

`Spec.lean` says what is meant, on child lists.
-/
namespace Verif.Doc
open Verif.Dom

/-- The legal history that builds the sample: a document 0 with a doctype 1 and `html` 2, in it `head` 3 with `title` 4 and
its texts 5 and 6, and `body` 7 with a text 8. -/
def sample : List Edit :=
  [.append 0 1, .append 0 2, .append 2 3, .append 3 4, .append 4 5, .append 4 6, .append 2 7, .append 7 8]

def sampleInfo : Info
  | 0 => .document
  | 1 => .doctype
  | 2 => htmlTag "html"
  | 3 => htmlTag "head"
  | 4 => htmlTag "title"
  | 5 => .text [65, 32]
  | 6 => .text [66]
  | 7 => htmlTag "body"
  | _ => .text [67]

theorem append_legal {k : Kids} {s n : Nat} (h1 : k n = []) (h2 : n ≠ s) : (Edit.append s n).Legal k := by
  intro h
  have : ∀ m, InSubtree k n m → m = n := by
    intro m hm
    induction hm with
    | root => rfl
    | child _ hc ih => subst ih; simp [h1] at hc
  exact h2 (this s h).symm

theorem sample_legal : LegalHistory Kids.init sample :=
  ⟨append_legal rfl (by decide), append_legal rfl (by decide), append_legal rfl (by decide), append_legal rfl (by decide),
   append_legal rfl (by decide), append_legal rfl (by decide), append_legal rfl (by decide), append_legal rfl (by decide), trivial⟩

/-- The child lists of the sample. -/
def sampleKids : Kids
  | 0 => [1, 2]
  | 2 => [3, 7]
  | 3 => [4]
  | 4 => [5, 6]
  | 7 => [8]
  | _ => []

theorem sample_kids : specEdits Kids.init sample = sampleKids := by
  funext n
  by_cases hn : n < 9
  · have : ∀ m, m < 9 → specEdits Kids.init sample m = sampleKids m := by decide
    exact this n hn
  · have : sampleKids n = [] := by
      unfold sampleKids
      split <;> first | rfl | omega
    rw [this]
    simp [specEdits, sample, Edit.spec, Kids.set, Kids.detach, Kids.init]
    repeat (first | (split; omega) | rfl)
    all_goals grind

theorem sample_proper : Proper sampleKids sampleInfo where
  leaf n hn := by
    unfold sampleKids at hn
    split at hn <;> simp [sampleInfo, htmlTag] at hn ⊢
  top d hd p := by
    have : d = 0 := by unfold sampleInfo at hd; split at hd <;> first | rfl | simp [htmlTag] at hd
    subst this
    unfold sampleKids
    split <;> simp

theorem sample_order : PreOrder sampleKids 0 [0, 1, 2, 3, 4, 5, 6, 7, 8] := by
  have leaf : ∀ n, sampleKids n = [] → PreOrder sampleKids n [n] := fun n hn => .node (by rw [hn]; exact .nil)
  have h4 : PreOrder sampleKids 4 [4, 5, 6] := .node (.cons (leaf 5 rfl) (.cons (leaf 6 rfl) .nil))
  have h3 : PreOrder sampleKids 3 [3, 4, 5, 6] := .node (.cons h4 .nil)
  have h7 : PreOrder sampleKids 7 [7, 8] := .node (.cons (leaf 8 rfl) .nil)
  have h2 : PreOrder sampleKids 2 [2, 3, 4, 5, 6, 7, 8] := .node (.cons h3 (.cons h7 .nil))
  exact .node (.cons (leaf 1 rfl) (.cons h2 .nil))

theorem first_title : First (fun n => HtmlElement "title" (sampleInfo n)) [0, 1, 2, 3, 4, 5, 6, 7, 8] 4 :=
  ⟨[0, 1, 2, 3], [5, 6, 7, 8], rfl, rfl, by simp [sampleInfo, HtmlElement, htmlTag]⟩

theorem first_unique {P : Nat → Prop} {l : List Nat} {x y : Nat} (h1 : First P l x) (h2 : First P l y) : x = y := by
  classical
  have hq : ∀ z, (decide (P z)) = true ↔ P z := fun z => by simp
  have a := (find_first (q := fun z => decide (P z)) hq).1 h1
  have b := (find_first (q := fun z => decide (P z)) hq).1 h2
  rw [a] at b
  exact Option.some.inj b

theorem sample_root : RootIs sampleKids sampleInfo 0 2 :=
  ⟨[1], [], rfl, ⟨_, _, rfl⟩, by simp [sampleInfo]⟩

/-! ## C222: the title -/

/-- **C222** (partial).  However the document was built, `title` ends and is the title, for documents that are not drawings,
whose titles hold only text, and that without white space to be stripped or collapsed. -/
theorem C222_title_partial (es : List Edit) (hl : LegalHistory Kids.init es) (info : Info) (doc : Nat) (s : Text)
    (hs : TitleIs (specEdits Kids.init es) info doc s)
    (hr : ∀ r, RootIs (specEdits Kids.init es) info doc r → info r ≠ .element (some "http://www.w3.org/2000/svg") "svg")
    (ht : ∀ t, HtmlElement "title" (info t) → ∀ c ∈ specEdits Kids.init es t, ∃ x, info c = .text x)
    (hw : ∀ t, HtmlElement "title" (info t) →
      tidy (childText (specEdits Kids.init es) info t) = childText (specEdits Kids.init es) info t) :
    ∃ h, runEdits Heap.init es = some h ∧ Ends (fun f => title h info f doc) s := by
  obtain ⟨h, e, r, g⟩ := rep_init.edits grounded_init es hl
  refine ⟨h, e, ?_⟩
  cases hs with
  | drawing h1 h2 _ => exact absurd h2 (hr _ h1)
  | @page l t _ hp hf =>
    have hf' := (find_first (q := fun n => info n == htmlTag "title") fun x => html_iff "title" (info x)).1 hf
    obtain ⟨_, _, _, htt, _⟩ := hf
    refine Ends.bind (iter_ends r g hp) ?_
    simp only [hf']
    rw [hw t htt]
    exact getText_childText r htt (ht t htt)
  | @none l _ hp hn =>
    refine Ends.bind (iter_ends r g hp) ?_
    have : l.find? (fun n => info n == htmlTag "title") = none := by
      rw [List.find?_eq_none]
      intro x hx hc
      exact hn x hx ((html_iff "title" (info x)).1 hc)
    simp only [this]
    exact ⟨0, fun _ _ => rfl⟩

/-- The hypotheses are met by the sample, whose title is `A B`. -/
example : ∃ h, runEdits Heap.init sample = some h ∧ Ends (fun f => title h sampleInfo f 0) [65, 32, 66] := by
  have hr : ∀ r, RootIs (specEdits Kids.init sample) sampleInfo 0 r →
      sampleInfo r ≠ .element (some "http://www.w3.org/2000/svg") "svg" := by
    intro r hr
    rw [sample_kids] at hr
    have := first_unique hr sample_root
    subst this
    simp [sampleInfo, htmlTag, htmlNs]
  have h4 : ∀ t, HtmlElement "title" (sampleInfo t) → t = 4 := by
    intro t ht
    unfold sampleInfo at ht
    split at ht <;> simp [HtmlElement, htmlTag] at ht ⊢
  refine C222_title_partial sample sample_legal sampleInfo 0 _ ?_ hr ?_ ?_
  · rw [sample_kids]
    have := TitleIs.page (k := sampleKids) (by rw [← sample_kids]; exact hr) sample_order first_title
    exact this
  · intro t ht
    rw [h4 t ht, sample_kids]
    intro c hc
    simp [sampleKids] at hc
    rcases hc with rfl | rfl
    · exact ⟨_, rfl⟩
    · exact ⟨_, rfl⟩
  · intro t ht
    rw [h4 t ht, sample_kids]
    decide

/-- The links of a short history. -/
def built (es : List Edit) : Heap := (runEdits Heap.init es).getD Heap.init

/-- **C222** is false with a comment in the title (`<title>A<!--B--></title>` in XHTML): its text is part of what is given. -/
theorem C222_comment_fails :
    let info : Info := fun | 0 => .document | 1 => htmlTag "title" | 2 => .text [65] | _ => .comment [66]
    let es : List Edit := [.append 0 1, .append 1 2, .append 1 3]
    TitleIs (specEdits Kids.init es) info 0 [65] ∧ title (built es) info 10 0 = some [65, 66] := by
  intro info es
  refine ⟨?_, by decide⟩
  have k1 : specEdits Kids.init es 1 = [2, 3] := by decide
  have hp : PreOrder (specEdits Kids.init es) 0 [0, 1, 2, 3] := by
    have leaf : ∀ n, specEdits Kids.init es n = [] → PreOrder (specEdits Kids.init es) n [n] :=
      fun n hn => .node (by rw [hn]; exact .nil)
    refine .node (l := [1, 2, 3]) ?_
    rw [show specEdits Kids.init es 0 = [1] by decide]
    refine PreOrders.cons (l₁ := [1, 2, 3]) (l₂ := []) (.node ?_) .nil
    rw [k1]
    exact PreOrders.cons (l₁ := [2]) (leaf 2 (by decide)) (PreOrders.cons (l₁ := [3]) (leaf 3 (by decide)) .nil)
  have hn : ∀ r, RootIs (specEdits Kids.init es) info 0 r → info r ≠ .element (some "http://www.w3.org/2000/svg") "svg" := by
    intro r _ hr
    match r, hr with
    | 0, hr => cases hr
    | 1, hr => simp [info, htmlTag, htmlNs] at hr
    | 2, hr => cases hr
    | n + 3, hr => cases hr
  have := TitleIs.page hn hp (t := 1) ⟨[0], [2, 3], rfl, rfl, by simp [info, HtmlElement]⟩
  rw [childText, k1] at this
  exact this

/-- **C222** is false with white space around the title: it is given as it is written. -/
theorem C222_space_fails :
    let info : Info := fun | 0 => .document | 1 => htmlTag "title" | _ => .text [10, 65, 10]
    let es : List Edit := [.append 0 1, .append 1 2]
    TitleIs (specEdits Kids.init es) info 0 [65] ∧ title (built es) info 10 0 = some [10, 65, 10] := by
  intro info es
  refine ⟨?_, by decide⟩
  have k1 : specEdits Kids.init es 1 = [2] := by decide
  have hp : PreOrder (specEdits Kids.init es) 0 [0, 1, 2] := by
    refine .node (l := [1, 2]) ?_
    rw [show specEdits Kids.init es 0 = [1] by decide]
    refine PreOrders.cons (l₁ := [1, 2]) (l₂ := []) (.node ?_) .nil
    rw [k1]
    exact PreOrders.cons (l₁ := [2]) (.node (by rw [show specEdits Kids.init es 2 = [] by decide]; exact .nil)) .nil
  have hn : ∀ r, RootIs (specEdits Kids.init es) info 0 r → info r ≠ .element (some "http://www.w3.org/2000/svg") "svg" := by
    intro r _ hr
    match r, hr with
    | 0, hr => cases hr
    | 1, hr => simp [info, htmlTag, htmlNs] at hr
    | n + 2, hr => cases hr
  have := TitleIs.page hn hp (t := 1) ⟨[0], [2], rfl, rfl, by simp [info, HtmlElement]⟩
  rw [childText, k1] at this
  exact this

/-- **C222** is false for drawings: the title of an SVG document is not seen. -/
theorem C222_drawing_fails :
    let info : Info := fun | 0 => .document | 1 => .element (some "http://www.w3.org/2000/svg") "svg"
                           | 2 => .element (some "http://www.w3.org/2000/svg") "title" | _ => .text [65]
    let es : List Edit := [.append 0 1, .append 1 2, .append 2 3]
    TitleIs (specEdits Kids.init es) info 0 [65] ∧ title (built es) info 10 0 = some [] := by
  intro info es
  refine ⟨?_, by decide⟩
  have := TitleIs.drawing (k := specEdits Kids.init es) (info := info) (doc := 0) (r := 1) (t := 2)
    ⟨[], [], by decide, ⟨_, _, rfl⟩, by simp⟩ rfl ⟨[], [], by decide, rfl, by simp⟩
  rw [childText, show specEdits Kids.init es 2 = [3] by decide] at this
  exact this

/-! ## C223: the text of an element -/

/-- **C223** (partial).  However the document was built, the text of a node is that of the text nodes in it in document
order, if no comments are in it. -/
theorem C223_text_partial (es : List Edit) (hl : LegalHistory Kids.init es) (info : Info)
    (hp : Proper (specEdits Kids.init es) info) (n : Nat) (hn : info n ≠ .document) (s : Text)
    (hs : TextIs (specEdits Kids.init es) info n s)
    (hc : ∀ m, InSubtree (specEdits Kids.init es) n m → ∀ x, info m ≠ .comment x) :
    ∃ h, runEdits Heap.init es = some h ∧ Ends (fun f => getText h info f n) s := by
  obtain ⟨h, e, r, g⟩ := rep_init.edits grounded_init es hl
  obtain ⟨l, hl', rfl⟩ := hs
  exact ⟨h, e, getText_ends r hp hl' (fun m hm => hc m ((hl'.mem m).1 hm)) hn⟩

/-- The hypotheses are met by the sample: all its text is `A BC`. -/
example : ∃ h, runEdits Heap.init sample = some h ∧ Ends (fun f => getText h sampleInfo f 2) [65, 32, 66, 67] := by
  refine C223_text_partial sample sample_legal sampleInfo (by rw [sample_kids]; exact sample_proper) 2
    (by simp [sampleInfo, htmlTag]) _ ?_ ?_
  · rw [sample_kids]
    refine ⟨[2, 3, 4, 5, 6, 7, 8], ?_, rfl⟩
    have leaf : ∀ n, sampleKids n = [] → PreOrder sampleKids n [n] := fun n hn => .node (by rw [hn]; exact .nil)
    have h4 : PreOrder sampleKids 4 [4, 5, 6] := .node (.cons (leaf 5 rfl) (.cons (leaf 6 rfl) .nil))
    have h3 : PreOrder sampleKids 3 [3, 4, 5, 6] := .node (.cons h4 .nil)
    have h7 : PreOrder sampleKids 7 [7, 8] := .node (.cons (leaf 8 rfl) .nil)
    exact .node (.cons h3 (.cons h7 .nil))
  · intro m _ x
    unfold sampleInfo
    split <;> simp [htmlTag]

/-- **C223** is false with comments: in XHTML the style sheet `a{}<!-- b{} -->` has the rule in the comment too. -/
theorem C223_comment_fails :
    let info : Info := fun | 0 => htmlTag "style" | 1 => .text [97] | _ => .comment [98]
    let es : List Edit := [.append 0 1, .append 0 2]
    TextIs (specEdits Kids.init es) info 0 [97] ∧ getText (built es) info 10 0 = some [97, 98] := by
  intro info es
  refine ⟨⟨[0, 1, 2], ?_, by decide⟩, by decide⟩
  have leaf : ∀ n, specEdits Kids.init es n = [] → PreOrder (specEdits Kids.init es) n [n] :=
    fun n hn => .node (by rw [hn]; exact .nil)
  refine .node (l := [1, 2]) ?_
  rw [show specEdits Kids.init es 0 = [1, 2] by decide]
  exact PreOrders.cons (l₁ := [1]) (leaf 1 (by decide)) (PreOrders.cons (l₁ := [2]) (leaf 2 (by decide)) .nil)

/-! ## C224: the root and the body -/

/-- **C224** (root).  However the document was built, `documentElement` ends and is the root element, or null if there is
none. -/
theorem C224_root (es : List Edit) (hl : LegalHistory Kids.init es) (info : Info) (doc : Nat) :
    ∃ h x, runEdits Heap.init es = some h ∧ Ends (fun f => documentElement h info f doc) x ∧
      ∀ r, x = some r ↔ RootIs (specEdits Kids.init es) info doc r := by
  obtain ⟨h, e, r, g⟩ := rep_init.edits grounded_init es hl
  exact ⟨h, _, e, firstWhere_ends r _ doc, fun r => root_iff.symm⟩

theorem body_ends {h k} (r : Rep h k) (info : Info) (doc : Nat)
    (hf : ∀ n, ¬ HtmlElement "frameset" (info n)) :
    ∃ x, Ends (fun f => body h info f doc) x ∧ ∀ b, x = some b ↔ BodyIs k info doc b := by
  obtain ⟨N, hN⟩ := firstWhere_ends r (fun c => isElement (info c)) doc
  cases hx : (k doc).find? (fun c => isElement (info c)) with
  | none =>
    refine ⟨none, ⟨N, fun f hf => ?_⟩, fun b => ⟨by simp, ?_⟩⟩
    · have := hN f hf
      simp only [hx] at this
      simp [body, documentElement, this]
    · rintro ⟨r, hr, _⟩
      rw [root_iff, hx] at hr; cases hr
  | some q =>
    have hroot : ∀ r, RootIs k info doc r ↔ r = q := fun r => by rw [root_iff, hx]; simp [eq_comm]
    by_cases hh : info q = htmlTag "html"
    · obtain ⟨M, hM⟩ := firstWhere_ends r (fun c => info c == htmlTag "body") q
      refine ⟨(k q).find? (fun c => info c == htmlTag "body"), ⟨max N M, fun f hf => ?_⟩, fun b => ?_⟩
      · have h1 := hN f (by omega)
        simp only [hx] at h1
        have h2 := hM f (by omega)
        simp [body, documentElement, h1, hh, h2]
      · rw [← find_first fun x => html_iff "body" (info x)]
        constructor
        · intro h
          refine ⟨q, (hroot q).2 rfl, hh, ?_⟩
          simpa [hf] using h
        · rintro ⟨r, hr, _, h⟩
          rw [(hroot r).1 hr] at h
          simpa [hf] using h
    · refine ⟨none, ⟨N, fun f hf => ?_⟩, fun b => ⟨by simp, ?_⟩⟩
      · have h1 := hN f hf
        simp only [hx] at h1
        simp [body, documentElement, h1, hh]
      · rintro ⟨r, hr, hr', _⟩
        rw [(hroot r).1 hr] at hr'
        exact absurd hr' hh

/-- **C224** (body, partial).  `body` ends and is the body, or null if there is none, in documents without frame sets. -/
theorem C224_body_partial (es : List Edit) (hl : LegalHistory Kids.init es) (info : Info) (doc : Nat)
    (hf : ∀ n, ¬ HtmlElement "frameset" (info n)) :
    ∃ h x, runEdits Heap.init es = some h ∧ Ends (fun f => body h info f doc) x ∧
      ∀ b, x = some b ↔ BodyIs (specEdits Kids.init es) info doc b := by
  obtain ⟨h, e, r, g⟩ := rep_init.edits grounded_init es hl
  obtain ⟨x, h1, h2⟩ := body_ends r info doc hf
  exact ⟨h, x, e, h1, h2⟩

theorem sample_body : BodyIs sampleKids sampleInfo 0 7 :=
  ⟨2, sample_root, rfl, [3], [], rfl, .inl rfl, by simp [sampleInfo, HtmlElement, htmlTag]⟩

/-- In the sample they are 2 and 7. -/
example : (∀ n, ¬ HtmlElement "frameset" (sampleInfo n)) ∧ RootIs sampleKids sampleInfo 0 2 ∧ BodyIs sampleKids sampleInfo 0 7 := by
  refine ⟨fun n => ?_, sample_root, sample_body⟩
  unfold sampleInfo
  split <;> simp [HtmlElement, htmlTag]

/-- **C224** is false with a frame set, which is not found. -/
theorem C224_frameset_fails :
    let info : Info := fun | 0 => .document | 1 => htmlTag "html" | _ => htmlTag "frameset"
    let es : List Edit := [.append 0 1, .append 1 2]
    BodyIs (specEdits Kids.init es) info 0 2 ∧ body (built es) info 10 0 = some none := by
  intro info es
  exact ⟨⟨1, ⟨[], [], by decide, ⟨_, _, rfl⟩, by simp⟩, rfl, [], [], by decide, .inr rfl, by simp⟩, by decide⟩

/-! ## C225: the document and the address of a node -/

/-- **C225** (document).  However the tree was built, a node in a document has that document, and a node that is in none
has none. -/
theorem C225_document (es : List Edit) (hl : LegalHistory Kids.init es) (info : Info)
    (hp : Proper (specEdits Kids.init es) info) (n : Nat) :
    ∃ h x, runEdits Heap.init es = some h ∧ Ends (fun f => ownerDocument h info f n) x ∧
      ∀ d, x = some d ↔ info d = .document ∧ n ≠ d ∧ InSubtree (specEdits Kids.init es) d n := by
  obtain ⟨h, e, r, g⟩ := rep_init.edits grounded_init es hl
  obtain ⟨ht, hh⟩ := g
  obtain ⟨M, hM⟩ := bounded_edits (k := Kids.init) (M := 0) (by simp [Bounded, Kids.init]) es
  obtain ⟨l, hc⟩ := chain_exists hM hh n
  refine ⟨h, _, e, owner_chain r hc, fun d => ?_⟩
  have hmem := chain_mem r hc
  have sub : ∀ a, a ∈ l → InSubtree (specEdits Kids.init es) a n ∧ n ≠ a := by
    intro a ha
    obtain ⟨c, hc1, hc2⟩ := (hmem a).1 ha
    refine ⟨hc2.ofChild hc1, fun hna => ?_⟩
    have h1 := hc2.height hh
    have h2 := hh a c hc1
    rw [hna] at h1
    omega
  have back : ∀ a, InSubtree (specEdits Kids.init es) a n → n ≠ a → a ∈ l := by
    intro a ha hna
    have : ∀ m, InSubtree (specEdits Kids.init es) a m → m = a ∨ ∃ c ∈ specEdits Kids.init es a, InSubtree (specEdits Kids.init es) c m := by
      intro m hm
      induction hm with
      | root => exact .inl rfl
      | child h1 h2 ih =>
        rcases ih with rfl | ⟨c, hc, hs⟩
        · exact .inr ⟨_, h2, .root⟩
        · exact .inr ⟨c, hc, .child hs h2⟩
    rcases this n ha with h | h
    · exact absurd h hna
    · exact (hmem a).2 h
  constructor
  · intro hd
    have h1 := List.find?_some hd
    have h2 := sub d (List.mem_of_find?_eq_some hd)
    exact ⟨by simpa using h1, h2.2, h2.1⟩
  · rintro ⟨hd, hnd, hs⟩
    have hdl := back d hs hnd
    cases hx : l.find? (fun a => info a == .document) with
    | none =>
      rw [List.find?_eq_none] at hx
      exact absurd hd (by simpa using hx d hdl)
    | some d' =>
      have h1 : info d' = .document := by simpa using List.find?_some hx
      have h2 := (sub d' (List.mem_of_find?_eq_some hx)).1
      have top : ∀ a b, info b = .document → InSubtree (specEdits Kids.init es) a b → a = b := by
        intro a b hb hab
        cases hab with
        | root => rfl
        | child _ hm => exact absurd hm (hp.top b hb _)
      rcases InSubtree.chain r h2 hs with hch | hch
      · rw [top _ _ hd hch]
      · rw [top _ _ h1 hch]

/-- The address that relative addresses at `n` are meant to be relative to: that of the first `base` in the document with an
address (`href` gives it, already resolved), or else that of the document. -/
inductive BaseIs (k : Kids) (info : Info) (url : Nat → Text) (href : Nat → Option Text) (n : Nat) : Text → Prop
  | base {d b : Nat} {l : List Nat} {u : Text} : info d = .document → InSubtree k d n → PreOrder k d l →
      First (fun x => HtmlElement "base" (info x) ∧ ∃ u, href x = some u) l b → href b = some u → BaseIs k info url href n u
  | plain {d : Nat} : info d = .document → InSubtree k d n →
      (∀ x, InSubtree k d x → HtmlElement "base" (info x) → href x = none) → BaseIs k info url href n (url d)

/-- **C225** (address, partial).  The base address of a node in a document without `base`, other than the document itself,
is the address of the document. -/
theorem C225_address_partial (es : List Edit) (hl : LegalHistory Kids.init es) (info : Info)
    (hp : Proper (specEdits Kids.init es) info) (n : Nat) (hn : info n ≠ .document) (url : Nat → Text)
    (href : Nat → Option Text) (hb : ∀ x, HtmlElement "base" (info x) → href x = none) (u : Text)
    (hu : BaseIs (specEdits Kids.init es) info url href n u) :
    ∃ h, runEdits Heap.init es = some h ∧ Ends (fun f => baseURI h info url f n) (.url u) := by
  obtain ⟨h, x, e, ⟨N, hN⟩, hx⟩ := C225_document es hl info hp n
  refine ⟨h, e, N, fun f hf => ?_⟩
  cases hu with
  | base _ _ _ h1 _ =>
    obtain ⟨_, _, _, ⟨h1, u', h2⟩, _⟩ := h1
    rw [hb _ h1] at h2; cases h2
  | @plain d hd hs _ =>
    have := (hx d).2 ⟨hd, fun h => hn (h ▸ hd), hs⟩
    have h2 := hN f hf
    simp only [this] at h2
    simp [baseURI, h2]

/-- The hypotheses are met by the text of the sample. -/
example : ∃ h, runEdits Heap.init sample = some h ∧
    Ends (fun f => baseURI h sampleInfo (fun _ => [47]) f 8) (.url [47]) := by
  refine C225_address_partial sample sample_legal sampleInfo (by rw [sample_kids]; exact sample_proper) 8 (by simp [sampleInfo])
    _ (fun _ => none) (fun _ _ => rfl) _ ?_
  exact .plain (d := 0) rfl (by rw [sample_kids]; exact (sample_order.mem 8).1 (by simp)) (fun _ _ _ => rfl)

/-- **C225** is false for the document itself, whose address cannot be asked for: the program stops. -/
theorem C225_self_fails : baseURI (built sample) sampleInfo (fun _ => [47]) 10 0 = some .panic := by decide

/-- **C225** is false with `base`: it is not looked at. -/
theorem C225_base_fails :
    let info : Info := fun | 0 => .document | 1 => htmlTag "base" | _ => htmlTag "img"
    let es : List Edit := [.append 0 1, .append 0 2]
    let href : Nat → Option Text := fun | 1 => some [98] | _ => none
    BaseIs (specEdits Kids.init es) info (fun _ => [97]) href 2 [98] ∧
      baseURI (built es) info (fun _ => [97]) 10 2 = some (.url [97]) := by
  intro info es href
  refine ⟨?_, by decide⟩
  have k0 : specEdits Kids.init es 0 = [1, 2] := by decide
  have leaf : ∀ n, specEdits Kids.init es n = [] → PreOrder (specEdits Kids.init es) n [n] :=
    fun n hn => .node (by rw [hn]; exact .nil)
  refine .base (d := 0) (b := 1) (l := [0, 1, 2]) rfl (.child .root (by rw [k0]; simp)) ?_
    ⟨[0], [2], rfl, ⟨rfl, _, rfl⟩, by simp [info, HtmlElement]⟩ rfl
  refine .node (l := [1, 2]) ?_
  rw [k0]
  exact PreOrders.cons (l₁ := [1]) (leaf 1 (by decide)) (PreOrders.cons (l₁ := [2]) (leaf 2 (by decide)) .nil)

/-! ## C226: the background of the body -/

/-- No colour and no image. -/
def Blank (b : Bg) : Prop := b.color = (0, 0, 0, 0) ∧ ∀ x ∈ b.images, x = none

/-- The first `body` in an `html` that is the root. -/
def BodyOf (k : Kids) (info : Info) (r b : Nat) : Prop :=
  HtmlElement "html" (info r) ∧ First (fun c => HtmlElement "body" (info c)) (k r) b

theorem isNone_iff (b : Bg) : b.isNone = true ↔ Blank b := by
  simp only [Bg.isNone, Blank, Bool.and_eq_true, beq_iff_eq, List.all_eq_true]

/-- **C226.**  In every document with a root, however it was built: if the root has no background and there is a body, the
root gets the background of the body, the body has none, and all others keep theirs; otherwise all keep theirs. -/
theorem C226_background (es : List Edit) (hl : LegalHistory Kids.init es) (info : Info) (doc r : Nat)
    (hr : RootIs (specEdits Kids.init es) info doc r) (bg : Nat → Bg) :
    ∃ h bg', runEdits Heap.init es = some h ∧ Ends (fun f => propagate h info f doc bg) (.ok bg') ∧
      (∀ b, BodyOf (specEdits Kids.init es) info r b → Blank (bg r) →
        bg' r = bg b ∧ bg' b = { color := (0, 0, 0, 0), images := [] } ∧ ∀ n, n ≠ r → n ≠ b → bg' n = bg n) ∧
      (((∀ b, ¬ BodyOf (specEdits Kids.init es) info r b) ∨ ¬ Blank (bg r)) → bg' = bg) := by
  obtain ⟨h, e, rp, ht, hh⟩ := rep_init.edits grounded_init es hl
  obtain ⟨N, hN⟩ := firstWhere_ends rp (fun c => isElement (info c)) doc
  rw [root_iff] at hr
  rw [hr] at hN
  obtain ⟨M, hM⟩ := firstWhere_ends rp (fun c => info c == htmlTag "body") r
  have hbody : ∀ b, BodyOf (specEdits Kids.init es) info r b ↔ info r = htmlTag "html" ∧
      (specEdits Kids.init es r).find? (fun c => info c == htmlTag "body") = some b := fun b => by
    simp only [BodyOf, find_first fun x => html_iff "body" (info x)]
    rfl
  by_cases hns : nsOf (info r) = some htmlNs
  · by_cases hh' : info r = htmlTag "html"
    · cases hx : (specEdits Kids.init es r).find? (fun c => info c == htmlTag "body") with
      | none =>
        rw [hx] at hM
        refine ⟨h, bg, e, ⟨max N M, fun f hf => ?_⟩, fun b hb => ?_, fun _ => rfl⟩
        · have h1 := hN f (by omega)
          have h2 := hM f (by omega)
          simp only at h1 h2
          simp [propagate, body, documentElement, h1, hh', h2]
        · rw [hbody, hx] at hb; cases hb.2
      | some b =>
        rw [hx] at hM
        have hbr : b ≠ r := by
          intro hbr
          have hb' := List.mem_of_find?_eq_some hx
          have := hh r b hb'
          rw [hbr] at this; omega
        by_cases hB : (bg r).isNone = true
        · refine ⟨h, upd (upd bg r (bg b)) b {}, e, ⟨max N M, fun f hf => ?_⟩, fun b' hb _ => ?_, fun hc => ?_⟩
          · have h1 := hN f (by omega)
            have h2 := hM f (by omega)
            simp only at h1 h2
            have hns' : nsOf (htmlTag "html") = some htmlNs := by rw [← hh']; exact hns
            simp [propagate, body, documentElement, h1, hh', h2, hns', hB]
          · rw [hbody, hx] at hb
            obtain ⟨_, hb⟩ := hb
            cases hb
            refine ⟨?_, by simp [upd], fun n h1 h2 => by simp [upd, h1, h2]⟩
            have : r ≠ b := fun h => hbr h.symm
            simp [upd, this]
          · rcases hc with hc | hc
            · exact absurd ((hbody b).2 ⟨hh', hx⟩) (hc b)
            · exact absurd ((isNone_iff _).1 hB) hc
        · refine ⟨h, bg, e, ⟨max N M, fun f hf => ?_⟩, fun b' hb hbl => ?_, fun _ => rfl⟩
          · have h1 := hN f (by omega)
            have h2 := hM f (by omega)
            simp only at h1 h2
            simp [propagate, body, documentElement, h1, hh', h2, hB]
          · exact absurd ((isNone_iff _).2 hbl) hB
    · refine ⟨h, bg, e, ⟨N, fun f hf => ?_⟩, fun b hb => absurd ((hbody b).1 hb).1 hh', fun _ => rfl⟩
      have h1 := hN f hf
      simp only at h1
      simp [propagate, body, documentElement, h1, hh']
  · refine ⟨h, bg, e, ⟨N, fun f hf => ?_⟩, fun b hb => absurd (by rw [((hbody b).1 hb).1]; rfl) hns, fun _ => rfl⟩
    have h1 := hN f hf
    simp only at h1
    simp [propagate, documentElement, h1, hns]

/-- The sample, with a red body. -/
example : RootIs sampleKids sampleInfo 0 2 ∧ BodyOf sampleKids sampleInfo 2 7 ∧
    (match propagate (built sample) sampleInfo 10 0 (fun n => if n = 7 then { color := (255, 0, 0, 255) } else {}) with
      | some (.ok bg) => some (bg 2, bg 7)
      | _ => none) = some ({ color := (255, 0, 0, 255) }, {}) :=
  ⟨sample_root, ⟨rfl, [3], [], rfl, rfl, by simp [sampleInfo, HtmlElement, htmlTag]⟩, by decide⟩

/-- A document without a root element, which the readers do not make, stops the program. -/
theorem C226_empty_fails : ∃ bg, propagate (built []) (fun _ => .document) 10 0 bg = some .fault :=
  ⟨fun _ => {}, rfl⟩

/-! ## C227: styles and pseudo-elements -/

theorem styled_from (e : Engine S) (k : Kids) (info : Info) (r n : Nat) (s : S) (hs : Styled e k info r n s) :
    From e k info (e.root r) r (e.root r) n s := by
  induction hs with
  | root => exact .root
  | child _ hc hi ih => exact .child ih hc hi

theorem has_iff (e : Engine S) (r n : Nat) (s : S) (t : PType) : wants e (e.root r) s n t = true ↔ Has e r n s t := by
  cases t
  · cases hc : e.content (e.pseudo (e.root r) s n .before) <;> simp [wants, Has, hc]
  · cases hc : e.content (e.pseudo (e.root r) s n .after) <;> simp [wants, Has, hc]
  · cases hc : e.content (e.pseudo (e.root r) s n .marker) <;> simp [wants, Has, hc]

/-- **C227** (partial).  Styling ends, however the document was built: the root has its own values, every element in it
those that come from its parent's, and just the pseudo-elements that it should have, if it had none before. -/
theorem C227_styles_partial (es : List Edit) (hl : LegalHistory Kids.init es) (info : Info) (doc r : Nat)
    (hr : RootIs (specEdits Kids.init es) info doc r) (e : Engine S) (st : Styles S)
    (hst : ∀ n t, st.pseudo n t = none) :
    ∃ h st', runEdits Heap.init es = some h ∧ Ends (fun f => styleDocument e h info f doc st) st' ∧
      ∀ n s, Styled e (specEdits Kids.init es) info r n s → st'.style n = some s ∧
        ∀ t, (Has e r n s t → st'.pseudo n t = some (e.pseudo (e.root r) s n t)) ∧
          (¬ Has e r n s t → st'.pseudo n t = none) := by
  obtain ⟨h, he, rp, ht, hh⟩ := rep_init.edits grounded_init es hl
  obtain ⟨N, hN⟩ := firstWhere_ends rp (fun c => isElement (info c)) doc
  rw [root_iff] at hr
  rw [hr] at hN
  obtain ⟨st', ⟨F, hF⟩, ha, _⟩ := style_ends e rp hh info (e.root r) (ht r + 1) r (by omega) (e.root r) st
  refine ⟨h, st', he, ⟨max N F, fun f hf => ?_⟩, fun n s hs => ?_⟩
  · have h1 := hN f (by omega)
    have h2 := hF f (by omega)
    simp only at h1 h2
    simp [styleDocument, documentElement, h1, h2]
  · obtain ⟨h1, h2⟩ := ha n s (styled_from e _ info r n s hs)
    refine ⟨h1, fun t => ⟨fun hw => ?_, fun hw => ?_⟩⟩
    · rw [h2, if_pos ((has_iff e r n s t).2 hw)]
    · rw [h2, if_neg (fun h => hw ((has_iff e r n s t).1 h)), hst]

/-- Values that are paths from the root, with something before every element below the root. -/
def sampleEngine : Engine (List Nat) where
  root r := [r]
  own _ p n := n :: p
  pseudo _ s _ _ := s
  item _ := false
  content s := if s.length = 1 then .none else .other

/-- The text in the body of the sample is no element, the body has its values. -/
example : RootIs (specEdits Kids.init sample) sampleInfo 0 2 ∧
    Styled sampleEngine sampleKids sampleInfo 2 7 [7, 2] ∧ Has sampleEngine 2 7 [7, 2] .before ∧
    ¬ Has sampleEngine 2 2 [2] .before := by
  refine ⟨by rw [sample_kids]; exact sample_root, .child .root (by simp [sampleKids]) rfl, by simp [Has, sampleEngine],
    by simp [Has, sampleEngine]⟩

/-- **C227** is false for a second styling (a window of another size, say): a pseudo-element that an element no longer has
stays. -/
theorem C227_again_fails :
    let info : Info := fun | 0 => .document | _ => htmlTag "html"
    let wide : Engine Nat := ⟨fun _ => 0, fun _ _ _ => 0, fun _ _ _ _ => 1, fun _ => false, fun v => if v = 1 then .other else .none⟩
    let narrow : Engine Nat := ⟨fun _ => 0, fun _ _ _ => 0, fun _ _ _ _ => 1, fun _ => false, fun _ => .none⟩
    ¬ Has narrow 1 1 0 .before ∧
      ((styleDocument wide (built [.append 0 1]) info 10 0 ⟨fun _ => none, fun _ _ => none⟩).bind fun st =>
        (styleDocument narrow (built [.append 0 1]) info 10 0 st).map fun st => st.pseudo 1 .before) = some (some 1) := by
  refine ⟨by simp [Has], by decide⟩

end Verif.Doc
