import Verif.Tree.Nodes
import Verif.Tree.Mono
/-
A page from the first token to the last.
-/
namespace Verif.Tree
open Verif.Html (Str Attr Content)
open Spec

/-! ### Outside of the body -/

/-- The state in one of the modes around the body. -/
structure At (m : Mode) (s : St) (fs : List Frame) (D : List Tree) : Prop extends Core s fs D where
  skip : s.skipLf = false
  mode : s.mode = m
  html : ∀ f ∈ fs, f.el.q.ns = .html

theorem At.congr {m m' : Mode} {s s' : St} {fs : List Frame} {D : List Tree} (g : At m s fs D)
    (h1 : s'.data = s.data) (h2 : s'.kids = s.kids) (h3 : s'.next = s.next)
    (h4 : s'.stack = s.stack) (h5 : s'.foster = s.foster) (h6 : s'.entries = s.entries)
    (h7 : s'.after = s.after) (h8 : s'.form = s.form) (h9 : s'.skipLf = s.skipLf)
    (h10 : s'.mode = m') : At m' s' fs D := by
  refine ⟨⟨g.toStk.congr h1 h2 h3 h4 h5, ?_, ?_, ?_⟩, ?_, h10, g.html⟩
  · rw [h6]; exact g.entries
  · rw [h6, h7]; exact g.after
  · rw [h8]; exact g.form
  · rw [h9]; exact g.skip

theorem At.lexer {m : Mode} {s : St} {fs : List Frame} {D : List Tree} (g : At m s fs D)
    (l : Option Content) : At m { s with lexer := l } fs D :=
  g.congr rfl rfl rfl rfl rfl rfl rfl rfl rfl g.mode

/-- The token goes to the mode. -/
theorem At.run {m : Mode} {s : St} {fs : List Frame} {D : List Tree} (g : At m s fs D)
    (d : Nat) (t : Tok) : run (d + 2) none s t = handle (recAt d) m s t := by
  rw [run_none' g.skip, congrArg (handle (recAt d)) g.mode]
  cases fs with
  | nil => have : s.stack = [] := g.stack
           rw [forHtml, this]
  | cons f fs => exact forHtml_top g.stack (g.html f (by simp)) t

/-- The top element gets more content. -/
theorem At.fill {m : Mode} {s s' : St} {f : Frame} {fs : List Frame} {D l : List Tree}
    (g : At m s (f :: fs) D) (hs : Stk s' ({ f with done := l } :: fs) D)
    (h1 : s'.entries = s.entries) (h2 : s'.after = s.after) (h3 : s'.form = s.form)
    (h5 : s'.skipLf = s.skipLf) (h6 : s'.mode = s.mode) :
    At m s' ({ f with done := l } :: fs) D := by
  refine ⟨⟨hs, ?_, ?_, ?_⟩, by rw [h5]; exact g.skip, by rw [h6]; exact g.mode, ?_⟩
  · rw [h1, g.entries, entriesOf_cons, entriesOf_cons]; rfl
  · rw [h1, h2]; exact g.after
  · rw [h3, g.form, List.find?_cons, List.find?_cons]
    split <;> rename_i e
    · simp only [e]; rfl
    · simp only [e]
  · intro x hx
    rcases List.mem_cons.mp hx with rfl | hx
    · exact g.html f (by simp)
    · exact g.html x (List.mem_cons_of_mem _ hx)

/-- A new open element. -/
theorem At.push {m m' : Mode} {s s' : St} {F : Frame} {fs : List Frame} {D : List Tree}
    (g : At m s fs D) (hs : Stk s' (F :: fs) D) (hq : F.el.q.ns = .html)
    (hn : F.name ∈ [nm! "html", nm! "head", nm! "body"])
    (h1 : s'.entries = s.entries) (h2 : s'.after = s.after) (h3 : s'.form = s.form)
    (h5 : s'.skipLf = s.skipLf) (h6 : s'.mode = m') : At m' s' (F :: fs) D := by
  have key : ∀ n ∈ [nm! "html", nm! "head", nm! "body"], (h n).isIn marking = false ∧
      (h n).isIn formats = false ∧ (h n == h (nm! "form")) = false := by decide
  obtain ⟨k1, k2, k3⟩ := key _ hn
  rw [show h F.name = F.el.q from (q_eq hq).symm] at k1 k2 k3
  refine ⟨⟨hs, ?_, ?_, ?_⟩, by rw [h5]; exact g.skip, h6, ?_⟩
  · rw [h1, g.entries, entriesOf_cons, Frame.entry, k1, k2]
    simp
  · rw [h1, h2]; exact g.after
  · rw [h3, g.form, List.find?_cons, k3]
  · intro x hx
    rcases List.mem_cons.mp hx with rfl | hx
    · exact hq
    · exact g.html x hx

/-- The top element is closed. -/
theorem At.pop {m m' : Mode} {s s' : St} {F f : Frame} {fs : List Frame} {D : List Tree}
    (g : At m s (F :: f :: fs) D) (hs : Stk s' (f.add F.tree :: fs) D)
    (hn : F.name ∈ [nm! "html", nm! "head", nm! "body"])
    (h1 : s'.entries = s.entries) (h2 : s'.after = s.after) (h3 : s'.form = s.form)
    (h5 : s'.skipLf = s.skipLf) (h6 : s'.mode = m') : At m' s' (f.add F.tree :: fs) D := by
  have key : ∀ n ∈ [nm! "html", nm! "head", nm! "body"], (h n).isIn marking = false ∧
      (h n).isIn formats = false ∧ (h n == h (nm! "form")) = false := by decide
  obtain ⟨k1, k2, k3⟩ := key _ hn
  have hq := g.html F (by simp)
  rw [show h F.name = F.el.q from (q_eq hq).symm] at k1 k2 k3
  refine ⟨⟨hs, ?_, ?_, ?_⟩, by rw [h5]; exact g.skip, h6, ?_⟩
  · rw [h1, g.entries, entriesOf_cons, Frame.entry, k1, k2, entriesOf_cons, entriesOf_cons]
    simp only [Bool.false_eq_true, if_false, Option.toList_none, List.append_nil]
    rfl
  · rw [h1, h2]; exact g.after
  · rw [h3, g.form, List.find?_cons, k3, List.find?_cons, List.find?_cons]
    show Option.map Frame.el (match f.el.q == _ with | true => _ | false => _) =
      Option.map Frame.el (match f.el.q == _ with | true => _ | false => _)
    split <;> rfl
  · intro x hx
    rcases List.mem_cons.mp hx with rfl | hx
    · exact g.html f (by simp)
    · exact g.html x (by simp [hx])

theorem blank_iff {c : Char} (hc : (c == ' ' || c == '\n' || c == '\t' || c == '\x0c') = true) :
    blank c = true := by
  simp only [blank, Bool.or_eq_true, beq_iff_eq] at hc ⊢
  rcases hc with ((h | h) | h) | h <;> simp [h]

theorem blankText_all {x : Str} (hx : blankText x = true) : ∀ c ∈ x, blank c = true := by
  intro c hc
  exact blank_iff (List.all_eq_true.mp hx c hc)

/-- White space that is dropped. -/
theorem drop_chars {m : Mode} (hm : ∀ k s c, blank c = true → handle k m s (.char c) = .ok s) :
    ∀ (x : Str) {s : St} {fs : List Frame} {D : List Tree} (d : Nat), At m s fs D →
    (∀ c ∈ x, blank c = true) →
    ∃ s', Runs (d + 2) s (chars x) s' ∧ At m s' fs D ∧ s'.head = s.head := by
  intro x
  induction x with
  | nil => intro s fs D d g _; exact ⟨s, rfl, g, rfl⟩
  | cons c x ih =>
    intro s fs D d g hx
    obtain ⟨s', h1, h2, h3⟩ := ih d (g.lexer none) (fun c hc => hx c (by simp [hc]))
    refine ⟨s', ⟨{ s with lexer := none }, ?_, rfl, h1⟩, h2, h3⟩
    rw [feed, (g.lexer none).run d, hm _ _ _ (hx c (by simp))]

/-- White space that becomes text. -/
theorem keep_chars {m : Mode}
    (hm : ∀ k s c, blank c = true → handle k m s (.char c) = insertChar s c) :
    ∀ (x : Str) {s : St} {f : Frame} {fs : List Frame} {D : List Tree} (d : Nat),
    At m s (f :: fs) D → (∀ c ∈ x, blank c = true) →
    ∃ s', Runs (d + 2) s (chars x) s' ∧ At m s' ({ f with done := addText f.done x } :: fs) D ∧
      s'.head = s.head := by
  intro x
  induction x with
  | nil => intro s f fs D d g _; exact ⟨s, rfl, g, rfl⟩
  | cons c x ih =>
    intro s f fs D d g hx
    obtain ⟨da, ki, pa, ne, h1, h2⟩ := (g.lexer none).toStk.char c
    have hg := (g.lexer none).fill h2 rfl rfl rfl rfl rfl
    obtain ⟨s', h3, h4, h5⟩ := ih d hg (fun c hc => hx c (by simp [hc]))
    refine ⟨s', ⟨_, ?_, rfl, h3⟩, ?_, h5⟩
    · rw [feed, (g.lexer none).run d, hm _ _ _ (hx c (by simp))]
      exact h1
    · rw [addText_cons]
      exact h4

/-! ### Before the html element -/

theorem At.document {m : Mode} {s : St} {D : List Tree} (g : At m s [] D) (d : Data) :
    addToDocument s d = added s 0 d :=
  append_alloc (g.tree.lt ⟨0, .document, D⟩ (by simp))

theorem doc_leaf {m m' : Mode} {s : St} {D : List Tree} (g : At m s [] D) {d : Data} {t : Tree} (q : Bool)
    (ht : ShowsT (added s 0 d) s.next (s.next + 1) t) :
    At m' { added s 0 d with quirks := q, mode := m' } [] (D ++ [t]) := by
  refine ⟨⟨⟨g.stack, ?_, g.foster⟩, g.entries, g.after, g.form⟩, g.skip, rfl, g.html⟩
  exact (Holds.leaf (f := ⟨0, .document, D⟩) (fs := []) g.tree ht).frame fun n _ _ => ⟨rfl, rfl⟩

theorem initial_comment {s : St} {D : List Tree} (g : At .initial s [] D) (x : Str) (d : Nat) :
    ∃ s', run (d + 2) none s (.comment x) = .ok s' ∧ s'.lexer = s.lexer ∧
      At .initial s' [] (D ++ [.comment x]) := by
  refine ⟨added s 0 (.comment x), (g.run d _).trans (congrArg Except.ok (g.document _)), rfl, ?_⟩
  have := doc_leaf (m' := .initial) g (d := .comment x) (t := .comment x) s.quirks
    (by unfold ShowsT; exact ⟨by simp [added, update], by omega⟩)
  exact this.congr rfl rfl rfl rfl rfl rfl rfl rfl rfl g.mode

theorem lead_ok : ∀ (xs : List Node) {s : St} {D : List Tree} (d : Nat),
    xs.all Node.isLead = true → At .initial s [] D →
    ∃ s', Runs (d + 2) s (allMarks xs) s' ∧ At .initial s' [] (D ++ xs.flatMap Node.leadTree) := by
  intro xs
  induction xs with
  | nil =>
    intro s D d _ g
    rw [allMarks, List.flatMap_nil, List.append_nil]
    exact ⟨s, rfl, g⟩
  | cons x xs ih =>
    intro s D d hx g
    rw [List.all_cons, Bool.and_eq_true] at hx
    have : ∃ s', Runs (d + 2) s x.marks s' ∧ At .initial s' [] (D ++ x.leadTree) := by
      cases x with
      | text x =>
        obtain ⟨s', h1, h2, -⟩ := drop_chars (m := .initial)
          (fun k s c hc => by show (if blank c then _ else _) = _; rw [if_pos hc]) x d g
          (blankText_all hx.1)
        rw [Node.marks, Node.leadTree]
        · exact ⟨s', h1, by simpa using h2⟩
        · intro d h; cases h
      | comment x =>
        obtain ⟨s', h1, h2, h3⟩ := initial_comment (g.lexer none) x d
        rw [Node.marks, Node.leadTree]
        exact ⟨s', Runs.one h1 h2, h3⟩
      | void _ _ _ => exact absurd hx.1 (by simp [Node.isLead])
      | raw _ _ _ => exact absurd hx.1 (by simp [Node.isLead])
      | elem _ _ _ => exact absurd hx.1 (by simp [Node.isLead])
      | drawing _ _ => exact absurd hx.1 (by simp [Node.isLead])
    obtain ⟨s1, h1, h2⟩ := this
    obtain ⟨s2, h3, h4⟩ := ih d hx.2 h2
    rw [allMarks, List.flatMap_cons, ← List.append_assoc]
    exact ⟨s2, h1.append h3, h4⟩

theorem doctype_ok {s : St} {D : List Tree} (g : At .initial s [] D) (a b c : Option Str) (d : Nat) :
    ∃ s', run (d + 2) none s (.doctype a b c) = .ok s' ∧ s'.lexer = s.lexer ∧
      At .beforeHtml s' [] (D ++ [.doctype (a.getD []) (b.getD []) (c.getD [])]) := by
  refine ⟨{ added s 0 (.doctype (a.getD []) (b.getD []) (c.getD [])) with
    quirks := false, mode := .beforeHtml }, ?_, rfl, doc_leaf g false ?_⟩
  · rw [g.run d, ← g.document]
    rfl
  · unfold ShowsT
    exact ⟨by simp [added, update], by omega⟩

theorem root_eq {s : St} {D : List Tree} {m : Mode} (g : At m s [] D) {as : List Attr}
    (ha : distinct as = true) (m' : Mode) :
    (let (s, el) := createFor s .html (nm! "html") as
     let s := append s 0 el.id
     ({ s with stack := el :: s.stack, mode := m' } : St)) =
      { opened s 0 .html (nm! "html") as with mode := m' } ∧
    At m' { opened s 0 .html (nm! "html") as with mode := m' } [newFrame s (nm! "html") as] D := by
  have h0 : 0 < s.next := g.tree.lt ⟨0, .document, D⟩ (by simp)
  constructor
  · have e := append_alloc (s := s) (p := 0) (d := .element ⟨.html, nm! "html"⟩ (plain as)) h0
    have : (let (s, el) := createFor s .html (nm! "html") as
      let s := append s 0 el.id
      ({ s with stack := el :: s.stack, mode := m' } : St)) =
      { (append (alloc s (.element ⟨.html, nm! "html"⟩ (tokenAttrs as))).1 0
          (alloc s (.element ⟨.html, nm! "html"⟩ (tokenAttrs as))).2) with
        stack := ⟨s.next, ⟨.html, nm! "html"⟩⟩ ::
          (append (alloc s (.element ⟨.html, nm! "html"⟩ (tokenAttrs as))).1 0
          (alloc s (.element ⟨.html, nm! "html"⟩ (tokenAttrs as))).2).stack, mode := m' } := rfl
    rw [this, tokenAttrs_plain ha, e]
    rfl
  · refine g.push ⟨?_, ?_, g.foster⟩ rfl (by show nm! "html" ∈ _; decide) rfl rfl rfl rfl rfl
    · show _ :: s.stack = _
      rw [g.stack]
      rfl
    · have := Holds.opened (f := ⟨0, .document, D⟩) (.element ⟨.html, nm! "html"⟩ (plain as)) g.tree
      exact this.frame fun n _ _ => ⟨rfl, rfl⟩

theorem html_ok {s : St} {D : List Tree} (g : At .beforeHtml s [] D) {as : List Attr}
    (ha : distinct as = true) (d : Nat) :
    ∃ s', run (d + 2) none s (.opens (nm! "html") as false) = .ok s' ∧ s'.lexer = s.lexer ∧
      At .beforeHead s' [newFrame s (nm! "html") as] D := by
  obtain ⟨h1, h2⟩ := root_eq g ha .beforeHead
  refine ⟨_, ?_, ?_, h2⟩
  · rw [g.run d, ← h1]
    rfl
  · rfl

/-! ### The head -/

theorem head_ok {s : St} {f : Frame} {fs : List Frame} {D : List Tree}
    (g : At .beforeHead s (f :: fs) D) {as : List Attr} (ha : distinct as = true) (d : Nat) :
    ∃ s', run (d + 2) none s (.opens (nm! "head") as false) = .ok s' ∧ s'.lexer = s.lexer ∧
      At .inHead s' (newFrame s (nm! "head") as :: f :: fs) D ∧ s'.head.isSome = true := by
  refine ⟨{ opened s f.el.id .html (nm! "head") as with
    head := some ⟨s.next, ⟨.html, nm! "head"⟩⟩, mode := .inHead }, ?_, rfl, ?_, rfl⟩
  · rw [g.run d]
    show (do let (s, el) ← insertForeign s .html (nm! "head") as; _) = _
    rw [insert_eq g.toStk _ _ ha]
    rfl
  · refine g.push ?_ rfl (by show nm! "head" ∈ _; decide) rfl rfl rfl rfl rfl
    exact (g.toStk.opened .html _ as).congr rfl rfl rfl rfl rfl

theorem head_raw {s : St} {f : Frame} {fs : List Frame} {D : List Tree}
    (g : At .inHead s (f :: fs) D) {n : Str} {as : List Attr} {x : Str} (hd : distinct as = true)
    (hn : n ∈ [nm! "title", nm! "style", nm! "script", nm! "noframes"]) (hx : ∀ c ∈ x, c ≠ '\x00')
    (d : Nat) :
    ∃ s', Runs (d + 2) s (Node.marks (.raw n as x)) s' ∧
      At .inHead s' (f.add (.elem .html n (plain as) (addText [] x)) :: fs) D ∧
      s'.head = s.head := by
  have h1 : run (d + 2) none { s with lexer := none } (.opens n as false) =
      .ok (rawState s f.el.id n as s.framesetOk s.skipLf) := by
    rw [(g.lexer none).run d]
    have hins := insertHtml_eq (g.lexer none).toStk n hd
    simp only [List.mem_cons, List.not_mem_nil, or_false] at hn
    rcases hn with rfl | rfl | rfl | rfl
    all_goals
      show (do let s ← insertHtml _ _ as; _) = _
      rw [hins]
      rfl
  have hS : Stk (rawState s f.el.id n as s.framesetOk s.skipLf) (newFrame s n as :: f :: fs) D :=
    (g.toStk.opened .html n as).congr rfl rfl rfl rfl rfl
  obtain ⟨da, ki, pa, ne, le, h3, h4⟩ := raw_chars x d hS rfl rfl g.skip hx
  have h5 := raw_closes h4 rfl rfl g.skip n d
  refine ⟨_, ⟨_, h1, rfl, h3.append (Runs.one (a := none) h5 rfl)⟩, ?_, ?_⟩
  · refine At.fill g (l := f.done ++ [.elem .html n (plain as) (addText [] x)]) ?_ ?_ ?_ ?_ ?_ ?_
    · exact h4.closed.congr rfl rfl rfl rfl rfl
    · rfl
    · rfl
    · rfl
    · rfl
    · rfl
  · rfl

theorem head_node (x : Node) {s : St} {f : Frame} {fs : List Frame} {D : List Tree} (d : Nat)
    (hx : x.inHead = true) (g : At .inHead s (f :: fs) D) :
    ∃ s', Runs (d + 2) s x.marks s' ∧ At .inHead s' ({ f with done := x.trees f.done } :: fs) D ∧
      s'.head = s.head := by
  cases x with
  | text x =>
    rw [Node.marks, Node.trees]
    refine keep_chars (m := .inHead) ?_ x d g (blankText_all hx)
    intro k s c hc
    show (if blank c then _ else _) = _
    rw [if_pos hc]
  | comment x =>
    obtain ⟨h1, h2⟩ := (g.lexer none).toStk.comment x
    rw [Node.marks, Node.trees]
    refine ⟨_, Runs.one (((g.lexer none).run d _).trans h1) rfl, ?_, rfl⟩
    exact (g.lexer none).fill h2 rfl rfl rfl rfl rfl
  | void n as self =>
    simp only [Node.inHead, Bool.and_eq_true] at hx
    have hins := insertVoid_eq (g.lexer none).toStk n hx.2
    rw [Node.marks, Node.trees]
    refine ⟨_, Runs.one (s1 := voided { s with lexer := none } f.el.id n as) ?_ rfl, ?_, rfl⟩
    · rw [(g.lexer none).run d]
      have h1 : ∀ n ∈ [nm! "base", nm! "basefont", nm! "bgsound", nm! "link", nm! "meta"],
        n ≠ nm! "html" := by decide
      show inHead (recAt d) _ (.opens n as self) = _
      rw [inHead, if_neg (h1 n (by simpa using hx.1)), if_pos (by simpa [isOne] using hx.1)]
      exact hins
    · exact (g.lexer none).fill ((g.lexer none).toStk.voided n as) rfl rfl rfl rfl rfl
  | raw n as x =>
    simp only [Node.inHead, Bool.and_eq_true, List.all_eq_true, bne_iff_ne] at hx
    rw [Node.trees]
    exact head_raw g hx.1.2 (by simpa using hx.1.1) hx.2 d
  | elem _ _ _ => exact absurd hx (by simp [Node.inHead])
  | drawing _ _ => exact absurd hx (by simp [Node.inHead])

theorem head_nodes : ∀ (xs : List Node) {s : St} {f : Frame} {fs : List Frame} {D : List Tree}
    (d : Nat), xs.all Node.inHead = true → At .inHead s (f :: fs) D →
    ∃ s', Runs (d + 2) s (allMarks xs) s' ∧ At .inHead s' ({ f with done := allTrees f.done xs } :: fs) D ∧
      s'.head = s.head := by
  intro xs
  induction xs with
  | nil => intro s f fs D d _ g; rw [allMarks, allTrees]; exact ⟨s, rfl, g, rfl⟩
  | cons x xs ih =>
    intro s f fs D d hx g
    rw [List.all_cons, Bool.and_eq_true] at hx
    obtain ⟨s1, h1, h2, h3⟩ := head_node x d hx.1 g
    obtain ⟨s2, h4, h5, h6⟩ := ih d hx.2 h2
    rw [allMarks, allTrees]
    exact ⟨s2, h1.append h4, h5, h6.trans h3⟩

/-- White space and comments, outside of the head. -/
theorem loose_node {m : Mode} (hc : ∀ k s c, blank c = true → handle k m s (.char c) = insertChar s c)
    (hm : ∀ k s x, handle k m s (.comment x) = insertComment s x)
    (x : Node) {s : St} {f : Frame} {fs : List Frame} {D : List Tree} (d : Nat)
    (hx : x.isLead = true) (g : At m s (f :: fs) D) :
    ∃ s', Runs (d + 2) s x.marks s' ∧ At m s' ({ f with done := x.trees f.done } :: fs) D ∧
      s'.head = s.head := by
  cases x with
  | text x =>
    rw [Node.marks, Node.trees]
    exact keep_chars hc x d g (blankText_all hx)
  | comment x =>
    obtain ⟨h1, h2⟩ := (g.lexer none).toStk.comment x
    rw [Node.marks, Node.trees]
    refine ⟨_, Runs.one (((g.lexer none).run d _).trans ((hm _ _ _).trans h1)) rfl, ?_, rfl⟩
    exact (g.lexer none).fill h2 rfl rfl rfl rfl rfl
  | void n as self => exact absurd hx (by simp [Node.isLead])
  | raw n as x => exact absurd hx (by simp [Node.isLead])
  | elem _ _ _ => exact absurd hx (by simp [Node.isLead])
  | drawing _ _ => exact absurd hx (by simp [Node.isLead])

theorem loose_nodes {m : Mode} (hc : ∀ k s c, blank c = true → handle k m s (.char c) = insertChar s c)
    (hm : ∀ k s x, handle k m s (.comment x) = insertComment s x) :
    ∀ (xs : List Node) {s : St} {f : Frame} {fs : List Frame} {D : List Tree}
    (d : Nat), xs.all Node.isLead = true → At m s (f :: fs) D →
    ∃ s', Runs (d + 2) s (allMarks xs) s' ∧ At m s' ({ f with done := allTrees f.done xs } :: fs) D ∧
      s'.head = s.head := by
  intro xs
  induction xs with
  | nil => intro s f fs D d _ g; rw [allMarks, allTrees]; exact ⟨s, rfl, g, rfl⟩
  | cons x xs ih =>
    intro s f fs D d hx g
    rw [List.all_cons, Bool.and_eq_true] at hx
    obtain ⟨s1, h1, h2, h3⟩ := loose_node hc hm x d hx.1 g
    obtain ⟨s2, h4, h5, h6⟩ := ih d hx.2 h2
    rw [allMarks, allTrees]
    exact ⟨s2, h1.append h4, h5, h6.trans h3⟩

/-- White space is dropped, comments are kept. -/
theorem sparse_nodes {m : Mode} (hc : ∀ k s c, blank c = true → handle k m s (.char c) = .ok s)
    (hm : ∀ k s x, handle k m s (.comment x) = insertComment s x) :
    ∀ (xs : List Node) {s : St} {f : Frame} {fs : List Frame} {D : List Tree}
    (d : Nat), xs.all Node.isLead = true → At m s (f :: fs) D →
    ∃ s', Runs (d + 2) s (allMarks xs) s' ∧
      At m s' ({ f with done := f.done ++ xs.flatMap Node.leadTree } :: fs) D := by
  intro xs
  induction xs with
  | nil =>
    intro s f fs D d _ g
    rw [allMarks, List.flatMap_nil, List.append_nil]
    exact ⟨s, rfl, g⟩
  | cons x xs ih =>
    intro s f fs D d hx g
    rw [List.all_cons, Bool.and_eq_true] at hx
    have : ∃ s', Runs (d + 2) s x.marks s' ∧ At m s' ({ f with done := f.done ++ x.leadTree } :: fs) D := by
      cases x with
      | text x =>
        obtain ⟨s', h1, h2, -⟩ := drop_chars hc x d g (blankText_all hx.1)
        rw [Node.marks, Node.leadTree]
        · rw [List.append_nil]; exact ⟨s', h1, h2⟩
        · intro d h; cases h
      | comment x =>
        obtain ⟨h1, h2⟩ := (g.lexer none).toStk.comment x
        rw [Node.marks, Node.leadTree]
        refine ⟨_, Runs.one (((g.lexer none).run d _).trans ((hm _ _ _).trans h1)) rfl, ?_⟩
        exact (g.lexer none).fill h2 rfl rfl rfl rfl rfl
      | void _ _ _ => exact absurd hx.1 (by simp [Node.isLead])
      | raw _ _ _ => exact absurd hx.1 (by simp [Node.isLead])
      | elem _ _ _ => exact absurd hx.1 (by simp [Node.isLead])
      | drawing _ _ => exact absurd hx.1 (by simp [Node.isLead])
    obtain ⟨s1, h1, h2⟩ := this
    obtain ⟨s2, h3, h4⟩ := ih d hx.2 h2
    rw [allMarks, List.flatMap_cons, ← List.append_assoc]
    exact ⟨s2, h1.append h3, h4⟩

/-- White space that is dropped, in parts. -/
theorem drop_nodes {m : Mode} (hc : ∀ k s c, blank c = true → handle k m s (.char c) = .ok s) :
    ∀ (xs : List Node) {s : St} {fs : List Frame} {D : List Tree}
    (d : Nat), xs.all Node.isBlank = true → At m s fs D →
    ∃ s', Runs (d + 2) s (allMarks xs) s' ∧ At m s' fs D := by
  intro xs
  induction xs with
  | nil => intro s fs D d _ g; rw [allMarks]; exact ⟨s, rfl, g⟩
  | cons x xs ih =>
    intro s fs D d hx g
    rw [List.all_cons, Bool.and_eq_true] at hx
    cases x with
    | text x =>
      obtain ⟨s1, h1, h2, -⟩ := drop_chars hc x d g (blankText_all hx.1)
      obtain ⟨s2, h3, h4⟩ := ih d hx.2 h2
      rw [allMarks, Node.marks]
      exact ⟨s2, h1.append h3, h4⟩
    | comment _ => exact absurd hx.1 (by simp [Node.isBlank])
    | void _ _ _ => exact absurd hx.1 (by simp [Node.isBlank])
    | raw _ _ _ => exact absurd hx.1 (by simp [Node.isBlank])
    | elem _ _ _ => exact absurd hx.1 (by simp [Node.isBlank])
    | drawing _ _ => exact absurd hx.1 (by simp [Node.isBlank])

theorem headEnd_ok {s : St} {F f : Frame} {fs : List Frame} {D : List Tree}
    (g : At .inHead s (F :: f :: fs) D) (hn : F.name = nm! "head") (d : Nat) :
    ∃ s', run (d + 2) none s (.closes (nm! "head") [] false) = .ok s' ∧ s'.lexer = s.lexer ∧
      At .afterHead s' (f.add F.tree :: fs) D ∧ s'.head = s.head := by
  refine ⟨{ s with stack := s.stack.tail, mode := .afterHead }, ?_, rfl, ?_, rfl⟩
  · rw [g.run d]
    show (do let s ← pop s; _) = _
    rw [pop_eq g.toStk]
    rfl
  · exact g.pop (g.toStk.closed.congr rfl rfl rfl rfl rfl) (by rw [hn]; decide) rfl rfl rfl rfl rfl

/-! ### The body -/

theorem body_ok {s : St} {f : Frame} {D : List Tree} (g : At .afterHead s [f] D)
    (hf : f.name = nm! "html") (hh : s.head.isSome = true) {as : List Attr}
    (ha : distinct as = true) (d : Nat) :
    ∃ s', run (d + 2) none s (.opens (nm! "body") as false) = .ok s' ∧ s'.lexer = s.lexer ∧
      Good s' [newFrame s (nm! "body") as, f] D := by
  have hA : At .inBody { opened s f.el.id .html (nm! "body") as with framesetOk := false, mode := .inBody }
      [newFrame s (nm! "body") as, f] D := by
    refine g.push ?_ rfl (by show nm! "body" ∈ _; decide) rfl rfl rfl rfl rfl
    exact (g.toStk.opened .html _ as).congr rfl rfl rfl rfl rfl
  refine ⟨{ opened s f.el.id .html (nm! "body") as with framesetOk := false, mode := .inBody }, ?_, rfl,
    ⟨hA.toCore, ?_, hA.html, hh, hA.skip, ?_⟩⟩
  · rw [g.run d]
    show (do let s ← insertHtml s (nm! "body") as; _) = _
    rw [insertHtml_eq g.toStk _ ha]
    rfl
  · show Path [nm! "body", f.name]
    rw [hf]
    exact Path.body
  · rw [hA.stack]
    exact resetMode_some (m := .inBody) (by decide) _ (by simp)

theorem inScope_top {s : St} {f : Frame} {fs : List Frame} {D : List Tree} (hs : Stk s (f :: fs) D)
    {n : Str} (hn : f.el.q = h n) : inScope s n = .ok true := by
  rw [inScope, inScopeOf_true hs hn]

theorem bodyEnd_ok {s : St} {f : Frame} {fs : List Frame} {D : List Tree} (g : Good s (f :: fs) D)
    (hf : f.name = nm! "body") (d : Nat) :
    ∃ s', run (d + 3) none s (.closes (nm! "body") [] false) = .ok s' ∧ s'.lexer = s.lexer ∧
      At .afterBody s' (f :: fs) D := by
  refine ⟨{ s with mode := .afterBody }, ?_, rfl,
    ⟨⟨g.toStk.congr rfl rfl rfl rfl rfl, g.entries, g.after, g.form⟩, g.skip, rfl, g.html⟩⟩
  rw [g.run (d + 1), congrArg (handle (recAt (d + 1))) (g.mode'.2 .inBody (by rw [hf]; decide))]
  show bodyCloses (recAt (d + 1)) s (nm! "body") [] false = _
  rw [bodyCloses, show bodyEnd (nm! "body") = .body by decide]
  simp only [inScope_top g.toStk (g.q.trans (by rw [hf])), ok_bind, if_true]

/-- White space after the body goes into it. -/
theorem after_chars {m : Mode}
    (hm : ∀ k s c, blank c = true → handle k m s (.char c) = k.acceptIn .inBody s (.char c)) :
    ∀ (x : Str) {s : St} {f : Frame} {fs : List Frame} {D : List Tree} (d : Nat),
    At m s (f :: fs) D → (∀ c ∈ x, blank c = true) →
    ∃ s', Runs (d + 3) s (chars x) s' ∧ At m s' ({ f with done := addText f.done x } :: fs) D := by
  intro x
  induction x with
  | nil => intro s f fs D d g _; exact ⟨s, rfl, g⟩
  | cons c x ih =>
    intro s f fs D d g hx
    obtain ⟨da, ki, pa, ne, h1, h2⟩ := (g.lexer none).toStk.char c
    have hg := (g.lexer none).fill h2 rfl rfl rfl rfl rfl
    obtain ⟨s', h3, h4⟩ := ih d hg (fun c hc => hx c (by simp [hc]))
    have hc := hx c (by simp)
    refine ⟨s', ⟨_, ?_, rfl, h3⟩, ?_⟩
    · rw [feed, (g.lexer none).run (d + 1), hm _ _ _ hc]
      show inBody (recAt d) _ (.char c) = _
      have h0 : c ≠ '\x00' := by rintro rfl; exact absurd hc (by decide)
      rw [inBody, if_neg h0, if_pos (by rw [blankCr, hc]; rfl), reconstruct_eq (g.lexer none).toCore, ok_bind]
      exact h1
    · rw [addText_cons]
      exact h4

theorem htmlEnd_ok {s : St} {fs : List Frame} {D : List Tree} (g : At .afterBody s fs D) (d : Nat) :
    ∃ s', run (d + 2) none s (.closes (nm! "html") [] false) = .ok s' ∧ s'.lexer = s.lexer ∧
      At .afterAfterBody s' fs D :=
  ⟨{ s with mode := .afterAfterBody }, g.run d _, rfl,
    g.congr rfl rfl rfl rfl rfl rfl rfl rfl rfl rfl⟩

theorem eof_ok {s : St} {fs : List Frame} {D : List Tree} (g : At .afterAfterBody s fs D) (d : Nat) :
    run (d + 2) none s .eof = .ok s := g.run d _

/-- With `html` and `body` open. -/
theorem tree_eq {s : St} {b f : Frame} {D : List Tree} (hs : Stk s [b, f] D) :
    tree s = .document (D ++ [(f.add b.tree).tree]) := by
  have h1 := hs.closed
  have h2 := Holds.close (f := (f.add b.tree).open) (g := ⟨0, .document, D⟩) (fs := [])
    (ns := f.el.q.ns) (name := f.el.q.name) (as := plain f.attrs) h1.tree rfl
  obtain ⟨k1, k2, ⟨ids, k3, k4⟩, -⟩ := h2
  have k1 : 0 < s.next := k1
  unfold tree
  obtain ⟨m, hm⟩ : ∃ m, s.next = m + 1 := ⟨s.next - 1, by omega⟩
  have hv : ∀ (s : St) (n : Nat), s.data n = .document →
      view s (m + 1) n = .document ((s.kids n).map (view s m)) := by
    intro s n hd
    rw [view, hd]
  have h3 : ∀ n, view s n = view { s with stack := s.stack.tail } n := by
    intro n
    induction n with
    | zero => rfl
    | succ n ih => funext i; simp only [view, ih]
  rw [h3, congrArg (view { s with stack := s.stack.tail }) hm, hv _ _ k2, k3, List.append_nil,
    ShowsF.views k4 (by show s.next - (0 + 1) ≤ m; omega)]
  rfl

theorem allTrees_append (acc : List Tree) (xs ys : List Node) :
    allTrees acc (xs ++ ys) = allTrees (allTrees acc xs) ys := by
  induction xs generalizing acc with
  | nil => rw [List.nil_append, allTrees]
  | cons x xs ih => rw [List.cons_append, allTrees, allTrees, ih]

theorem start : At .initial ({} : St) [] [] := by
  refine ⟨⟨⟨rfl, ?_, rfl⟩, rfl, rfl, rfl⟩, rfl, rfl, by simp⟩
  refine ⟨by show 0 < 1; omega, rfl, ⟨[], rfl, ?_⟩, trivial⟩
  show ShowsF _ _ _ _ []
  unfold ShowsF
  exact ⟨rfl, by show 0 + 1 ≤ 1; omega⟩


/-! ### Tags that are left out -/

/-- The token leads from one state to the other before it is dealt with. -/
def Jump (n : Nat) (s : St) (t : Tok) (s1 : St) : Prop :=
  s1.lexer = s.lexer ∧ ∀ k s', run k none s1 t = .ok s' → run (k + n) none s t = .ok s'

theorem Jump.refl (n : Nat) (s : St) (t : Tok) : Jump n s t s :=
  ⟨rfl, fun _ _ h => run_mono (by omega) h⟩

theorem Jump.trans {n m : Nat} {s s1 s2 : St} {t : Tok} (h1 : Jump n s t s1) (h2 : Jump m s1 t s2) :
    Jump (m + n) s t s2 :=
  ⟨h2.1.trans h1.1, fun k s' h => by
    have := h1.2 _ _ (h2.2 k s' h)
    rw [Nat.add_assoc] at this
    exact this⟩

theorem Jump.more {n m : Nat} {s s1 : St} {t : Tok} (h1 : Jump n s t s1) (h : n ≤ m) :
    Jump m s t s1 :=
  ⟨h1.1, fun k s' hr => run_mono (by omega) (h1.2 k s' hr)⟩

theorem Runs.mono {d d' : Nat} (hd : d ≤ d') : ∀ {ms : List Mark} {s s' : St}, Runs d s ms s' →
    Runs d' s ms s' := by
  intro ms
  induction ms with
  | nil => intro s s' h; exact h
  | cons m ms ih =>
    obtain ⟨t, a⟩ := m
    rintro s s' ⟨s1, h1, h2, h3⟩
    exact ⟨s1, run_mono hd h1, h2, ih h3⟩

theorem Runs.jump {d n : Nat} {s s1 s' : St} {t : Tok} {a : Option Content} {ms : List Mark}
    (hj : Jump n { s with lexer := none } t s1) (hr : Runs d s1 ((t, a) :: ms) s') :
    Runs (d + n) s ((t, a) :: ms) s' := by
  obtain ⟨s2, h1, h2, h3⟩ := hr
  have e : { s1 with lexer := none } = s1 := by
    have := hj.1
    cases s1; simp only at this; subst this; rfl
  rw [feed, e] at h1
  exact ⟨s2, hj.2 _ _ h1, h2, h3.mono (by omega)⟩

/-- One step of it. -/
theorem At.jump {m : Mode} {s s1 : St} {fs : List Frame} {D : List Tree} {t : Tok} (g : At m s fs D)
    (hl : s1.lexer = s.lexer) (h : ∀ k, handle (recAt k) m s t = Tree.run k none s1 t) :
    Jump 2 s t s1 :=
  ⟨hl, fun k s' hr => by rw [g.run k, h k]; exact hr⟩

/-- The tokens that end a mode. -/
def leaves : Mode → Tok → Bool
  | .initial, t => match t with
    | .char c => !blank c
    | .comment _ | .doctype _ _ _ => false
    | _ => true
  | .beforeHtml, t => match t with
    | .char c => !blank c
    | .comment _ | .doctype _ _ _ => false
    | .opens n _ _ => n != nm! "html"
    | .closes n _ _ => isOne n endsHead
    | .eof => true
  | .beforeHead, t => match t with
    | .char c => !blank c
    | .comment _ | .doctype _ _ _ => false
    | .opens n _ _ => n != nm! "html" && n != nm! "head"
    | .closes n _ _ => isOne n endsHead
    | .eof => true
  | .inHead, t => match t with
    | .char c => !blank c
    | .comment _ | .doctype _ _ _ => false
    | .opens n _ _ => !isOne n [nm! "html", nm! "base", nm! "basefont", nm! "bgsound", nm! "link",
        nm! "meta", nm! "title", nm! "noframes", nm! "style", nm! "noscript", nm! "script",
        nm! "template", nm! "head"]
    | .closes n _ _ => isOne n [nm! "body", nm! "html", nm! "br"]
    | .eof => true
  | .afterHead, t => match t with
    | .char c => !blankCr c
    | .comment _ | .doctype _ _ _ => false
    | .opens n _ _ => !isOne n (nm! "html" :: nm! "body" :: nm! "frameset" :: nm! "head" :: headNames)
    | .closes n _ _ => isOne n [nm! "body", nm! "html", nm! "br"]
    | .eof => true
  | _, _ => false

theorem leaves_initial {k : Rec} {s : St} {t : Tok} (h : leaves .initial t = true) :
    initial k s t = k.accept { s with quirks := true, mode := .beforeHtml } t := by
  cases t with
  | char c => have : blank c = false := by simpa [leaves] using h
              simp [initial, this]
  | comment _ => cases h
  | doctype _ _ _ => cases h
  | _ => rfl

theorem leaves_beforeHtml {k : Rec} {s : St} {t : Tok} (h : leaves .beforeHtml t = true) :
    beforeHtml k s t = impliedHtml k s t := by
  cases t with
  | char c => have : blank c = false := by simpa [leaves] using h
              simp [beforeHtml, this]
  | comment _ => cases h
  | doctype _ _ _ => cases h
  | opens n as self => have : n ≠ nm! "html" := by simpa [leaves] using h
                       simp [beforeHtml, this]
  | closes n as self => have : isOne n endsHead = true := h
                        simp [beforeHtml, this]
  | eof => rfl

theorem leaves_beforeHead {k : Rec} {s : St} {t : Tok} (h : leaves .beforeHead t = true) :
    beforeHead k s t = impliedHead k s t := by
  cases t with
  | char c => have : blank c = false := by simpa [leaves] using h
              simp [beforeHead, this]
  | comment _ => cases h
  | doctype _ _ _ => cases h
  | opens n as self =>
    have : n ≠ nm! "html" ∧ n ≠ nm! "head" := by simpa [leaves] using h
    simp [beforeHead, this]
  | closes n as self => have : isOne n endsHead = true := h
                        simp [beforeHead, this]
  | eof => rfl

theorem leaves_inHead {k : Rec} {s : St} {t : Tok} (h : leaves .inHead t = true) :
    inHead k s t = leaveHead k s t := by
  cases t with
  | char c => have : blank c = false := by simpa [leaves] using h
              simp [inHead, this]
  | comment _ => cases h
  | doctype _ _ _ => cases h
  | opens n as self =>
    simp only [leaves, isOne, Bool.not_eq_true', List.contains_eq_mem, decide_eq_false_iff_not,
      List.mem_cons, List.not_mem_nil, or_false, not_or] at h
    obtain ⟨h1, h2, h3, h4, h5, h6, h7, h8, h9, h10, h11, h12, h13⟩ := h
    simp [inHead, isOne, h1, h2, h3, h4, h5, h6, h7, h8, h9, h10, h11, h12, h13]
  | closes n as self =>
    have h : isOne n [nm! "body", nm! "html", nm! "br"] = true := h
    have : ∀ n ∈ [nm! "body", nm! "html", nm! "br"], n ≠ nm! "head" := by decide
    rw [inHead, if_neg (this n (by simpa [isOne] using h)), if_pos h]
  | eof => rfl

theorem leaves_afterHead {k : Rec} {s : St} {t : Tok} (h : leaves .afterHead t = true) :
    afterHead k s t = impliedBody k s t := by
  cases t with
  | char c => have : blankCr c = false := by simpa [leaves] using h
              simp [afterHead, this]
  | comment _ => cases h
  | doctype _ _ _ => cases h
  | opens n as self =>
    have h : isOne n (nm! "html" :: nm! "body" :: nm! "frameset" :: nm! "head" :: headNames) = false := by
      simpa [leaves] using h
    simp only [isOne, List.contains_eq_mem, decide_eq_false_iff_not, List.mem_cons, not_or] at h
    obtain ⟨h1, h2, h3, h4, h5⟩ := h
    have h5 : isOne n headNames = false := by simpa [isOne] using h5
    simp [afterHead, h1, h2, h3, h4, h5]
  | closes n as self =>
    have h : isOne n [nm! "body", nm! "html", nm! "br"] = true := h
    have : ∀ n ∈ [nm! "body", nm! "html", nm! "br"], n ≠ nm! "template" := by decide
    rw [afterHead, if_neg (this n (by simpa [isOne] using h)), if_pos h]
  | eof => rfl

/-! ### How far the page is -/

def htmlFrame (i : Nat) (as : List Attr) (ts : List Tree) : Frame := ⟨⟨i, h (nm! "html")⟩, as, ts⟩
def headFrame (i : Nat) (as : List Attr) (ts : List Tree) : Frame := ⟨⟨i, h (nm! "head")⟩, as, ts⟩

/-- Before the tag of `html`. -/
def S1 (s : St) (D : List Tree) : Prop := At .initial s [] D ∨ At .beforeHtml s [] D

/-- Before the tag of `head`. -/
def S2 (s : St) (D : List Tree) (as : List Attr) (ts : List Tree) : Prop :=
  (as = [] ∧ ts = [] ∧ S1 s D) ∨ ∃ i, At .beforeHead s [htmlFrame i as ts] D

/-- In the head. -/
def S3 (s : St) (D : List Tree) (as : List Attr) (ts : List Tree) (hs : List Attr) (ks : List Tree) :
    Prop :=
  (hs = [] ∧ ks = [] ∧ S2 s D as ts) ∨
    ∃ i j, At .inHead s [headFrame j hs ks, htmlFrame i as ts] D ∧ s.head.isSome = true

/-- After the head. -/
def S4 (s : St) (D : List Tree) (as : List Attr) (ts : List Tree) : Prop :=
  (∃ l hs ks, S3 s D as l hs ks ∧ ts = l ++ [.elem .html (nm! "head") (plain hs) ks]) ∨
    ∃ i, At .afterHead s [htmlFrame i as ts] D ∧ s.head.isSome = true

theorem S1.lexer {s : St} {D : List Tree} (g : S1 s D) : S1 { s with lexer := none } D :=
  g.imp (·.lexer none) (·.lexer none)
theorem S2.lexer {s : St} {D : List Tree} {as : List Attr} {ts : List Tree} (g : S2 s D as ts) :
    S2 { s with lexer := none } D as ts :=
  g.imp (fun ⟨a, b, c⟩ => ⟨a, b, c.lexer⟩) (fun ⟨i, a⟩ => ⟨i, a.lexer none⟩)
theorem S3.lexer {s : St} {D : List Tree} {as hs : List Attr} {ts ks : List Tree}
    (g : S3 s D as ts hs ks) : S3 { s with lexer := none } D as ts hs ks :=
  g.imp (fun ⟨a, b, c⟩ => ⟨a, b, c.lexer⟩) (fun ⟨i, j, a, b⟩ => ⟨i, j, a.lexer none, b⟩)
theorem S4.lexer {s : St} {D : List Tree} {as : List Attr} {ts : List Tree} (g : S4 s D as ts) :
    S4 { s with lexer := none } D as ts :=
  g.imp (fun ⟨l, hs, ks, a, b⟩ => ⟨l, hs, ks, a.lexer, b⟩) (fun ⟨i, a, b⟩ => ⟨i, a.lexer none, b⟩)

theorem jump1 {s : St} {D : List Tree} (g : S1 s D) {t : Tok} (h1 : leaves .initial t = true) :
    ∃ s1, Jump 2 s t s1 ∧ At .beforeHtml s1 [] D := by
  rcases g with g | g
  · refine ⟨{ s with quirks := true, mode := .beforeHtml }, g.jump rfl fun k => leaves_initial h1, ?_⟩
    exact g.congr rfl rfl rfl rfl rfl rfl rfl rfl rfl rfl
  · exact ⟨s, Jump.refl _ _ _, g⟩

theorem jump2 {s : St} {D : List Tree} {as : List Attr} {ts : List Tree} (g : S2 s D as ts) {t : Tok}
    (h1 : leaves .initial t = true) (h2 : leaves .beforeHtml t = true) :
    ∃ s1 i, Jump 4 s t s1 ∧ At .beforeHead s1 [htmlFrame i as ts] D := by
  rcases g with ⟨rfl, rfl, g⟩ | ⟨i, g⟩
  · obtain ⟨s1, j1, g1⟩ := jump1 g h1
    obtain ⟨e, g2⟩ := root_eq g1 (as := []) (by decide) .beforeHead
    refine ⟨_, s1.next, j1.trans (g1.jump (s1 := { opened s1 0 .html (nm! "html") [] with mode := .beforeHead }) rfl ?_), g2⟩
    intro k
    show beforeHtml _ _ _ = _
    rw [leaves_beforeHtml h2, ← e]
    rfl
  · exact ⟨s, i, Jump.refl _ _ _, g⟩

theorem jump3 {s : St} {D : List Tree} {as hs : List Attr} {ts ks : List Tree}
    (g : S3 s D as ts hs ks) {t : Tok} (h1 : leaves .initial t = true)
    (h2 : leaves .beforeHtml t = true) (h3 : leaves .beforeHead t = true) :
    ∃ s1 i j, Jump 6 s t s1 ∧ At .inHead s1 [headFrame j hs ks, htmlFrame i as ts] D ∧
      s1.head.isSome = true := by
  rcases g with ⟨rfl, rfl, g⟩ | ⟨i, j, g, hh⟩
  · obtain ⟨s1, i, j1, g1⟩ := jump2 g h1 h2
    refine ⟨{ opened s1 i .html (nm! "head") [] with
      head := some ⟨s1.next, ⟨.html, nm! "head"⟩⟩, mode := .inHead }, i, s1.next,
      j1.trans (g1.jump rfl ?_), ?_, rfl⟩
    · intro k
      show beforeHead _ _ _ = _
      rw [leaves_beforeHead h3, impliedHead, insert_eq g1.toStk _ _ (by decide)]
      rfl
    · refine g1.push ?_ rfl (by show nm! "head" ∈ _; decide) rfl rfl rfl rfl rfl
      exact (g1.toStk.opened .html (nm! "head") []).congr rfl rfl rfl rfl rfl
  · exact ⟨s, i, j, Jump.refl _ _ _, g, hh⟩

theorem jump4 {s : St} {D : List Tree} {as : List Attr} {ts : List Tree}
    (g : S4 s D as ts) {t : Tok} (h1 : leaves .initial t = true)
    (h2 : leaves .beforeHtml t = true) (h3 : leaves .beforeHead t = true)
    (h4 : leaves .inHead t = true) :
    ∃ s1 i, Jump 8 s t s1 ∧ At .afterHead s1 [htmlFrame i as ts] D ∧ s1.head.isSome = true := by
  rcases g with ⟨l, hs, ks, g, rfl⟩ | ⟨i, g, hh⟩
  · obtain ⟨s1, i, j, j1, g1, hh⟩ := jump3 g h1 h2 h3
    refine ⟨{ s1 with stack := s1.stack.tail, mode := .afterHead }, i,
      j1.trans (g1.jump rfl ?_), ?_, hh⟩
    · intro k
      show inHead _ _ _ = _
      rw [leaves_inHead h4, leaveHead, pop_eq g1.toStk]
      rfl
    · exact g1.pop (g1.toStk.closed.congr rfl rfl rfl rfl rfl) (by show nm! "head" ∈ _; decide)
        rfl rfl rfl rfl rfl
  · exact ⟨s, i, Jump.refl _ _ _, g, hh⟩

theorem jump5 {s : St} {D : List Tree} {as : List Attr} {ts : List Tree}
    (g : S4 s D as ts) {t : Tok} (h1 : leaves .initial t = true)
    (h2 : leaves .beforeHtml t = true) (h3 : leaves .beforeHead t = true)
    (h4 : leaves .inHead t = true) (h5 : leaves .afterHead t = true) :
    ∃ s1 i j, Jump 10 s t s1 ∧ Good s1 [⟨⟨j, h (nm! "body")⟩, [], []⟩, htmlFrame i as ts] D := by
  obtain ⟨s1, i, j1, g1, hh⟩ := jump4 g h1 h2 h3 h4
  have hA : At .inBody { opened s1 i .html (nm! "body") [] with mode := .inBody }
      [newFrame s1 (nm! "body") [], htmlFrame i as ts] D := by
    refine g1.push ?_ rfl (by show nm! "body" ∈ _; decide) rfl rfl rfl rfl rfl
    exact (g1.toStk.opened .html (nm! "body") []).congr rfl rfl rfl rfl rfl
  refine ⟨{ opened s1 i .html (nm! "body") [] with mode := .inBody }, i, s1.next,
    j1.trans (g1.jump rfl ?_), ⟨hA.toCore, Path.body, hA.html, hh, hA.skip, ?_⟩⟩
  · intro k
    show afterHead _ _ _ = _
    rw [leaves_afterHead h5, impliedBody, insertHtml_eq g1.toStk _ (by decide)]
    rfl
  · rw [hA.stack]
    exact resetMode_some (m := .inBody) (by decide) _ (by simp)

/-! ### The end -/

/-- The body is over, with or without its end tag. -/
theorem end_ok {s : St} {f : Frame} {fs : List Frame} {D : List Tree} (g : Good s (f :: fs) D)
    (hf : f.name = nm! "body") (be he : Option Str) (h1 : blankEnd be = true)
    (h2 : blankEnd he = true) (d : Nat) :
    ∃ s', Runs (d + 8) s (endTag (nm! "body") be ++ (endTag (nm! "html") he ++ [calm .eof])) s' ∧
      Stk s' ({ f with done := addText (addText f.done (be.getD [])) (he.getD []) } :: fs) D := by
  have hmode : ∀ {s : St} {f : Frame}, Good s (f :: fs) D → f.name = nm! "body" → s.mode = .inBody :=
    fun g hf => g.mode'.2 .inBody (by rw [hf]; decide)
  have hblank : ∀ m, m = Mode.afterBody ∨ m = .afterAfterBody → ∀ (k : Rec) (s : St) (c : Char), blank c = true →
      handle k m s (.char c) = k.acceptIn .inBody s (.char c) := by
    intro m hm k s c hc
    rcases hm with rfl | rfl
    all_goals
      show (if blankCr c then _ else _) = _
      rw [if_pos (by rw [blankCr, hc]; rfl)]
  -- the end of `html` and the end of the file, after the end of `body`
  have last : ∀ {s : St} {f : Frame}, At .afterBody s (f :: fs) D →
      ∃ s', Runs (d + 6) s (endTag (nm! "html") he ++ [calm .eof]) s' ∧
        Stk s' ({ f with done := addText f.done (he.getD []) } :: fs) D := by
    intro s f g
    cases he with
    | none =>
      exact ⟨{ s with lexer := none }, Runs.one ((g.lexer none).run (d + 4) .eof) rfl, (g.lexer none).toStk⟩
    | some x =>
      obtain ⟨s1, r1, l1, g1⟩ := htmlEnd_ok (g.lexer none) (d + 4)
      obtain ⟨s2, r2, g2⟩ := after_chars (hblank _ (Or.inr rfl)) x (d + 3) g1 (blankText_all h2)
      exact ⟨{ s2 with lexer := none }, ⟨s1, r1, l1, r2.append (Runs.one (eof_ok (g2.lexer none) (d + 4)) rfl)⟩,
        (g2.lexer none).toStk⟩
  cases be with
  | some x =>
    obtain ⟨s1, r1, l1, g1⟩ := bodyEnd_ok (g.lexer none) hf (d + 5)
    obtain ⟨s2, r2, g2⟩ := after_chars (hblank _ (Or.inl rfl)) x (d + 5) g1 (blankText_all h1)
    obtain ⟨s3, r3, g3⟩ := last g2
    exact ⟨s3, ⟨s1, r1, l1, r2.append (r3.mono (by omega))⟩, g3⟩
  | none =>
    cases he with
    | none =>
      refine ⟨{ s with lexer := none }, Runs.one ?_ rfl, (g.lexer none).toStk⟩
      rw [(g.lexer none).run (d + 6)]
      show handle _ s.mode _ _ = _
      rw [congrArg (handle (recAt (d + 6))) (hmode g hf)]
      rfl
    | some x =>
      have gl := g.lexer none
      have g1 : At .afterBody { s with lexer := none, mode := .afterBody } (f :: fs) D :=
        ⟨⟨g.toStk.congr rfl rfl rfl rfl rfl, g.entries, g.after, g.form⟩, g.skip, rfl, g.html⟩
      obtain ⟨s1, ⟨s2, r1, l1, r2⟩, g2⟩ := last g1
      refine ⟨s1, ⟨s2, ?_, l1, r2.mono (by omega)⟩, g2⟩
      have r1 : run (d + 6) none { s with lexer := none, mode := .afterBody }
        (.closes (nm! "html") [] false) = .ok s2 := r1
      rw [feed, gl.run (d + 6)]
      show handle _ s.mode _ _ = _
      rw [congrArg (handle (recAt (d + 6))) (hmode g hf)]
      show bodyCloses (recAt (d + 6)) { s with lexer := none } (nm! "html") [] false = _
      rw [bodyCloses, show bodyEnd (nm! "html") = .html by decide]
      simp only [inScope_top gl.toStk (gl.q.trans (by rw [hf])), ok_bind, if_true]
      exact r1

/-! ### The whole page -/

theorem gap_ok {s : St} {D : List Tree} (g : S1 s D) {x : Str} (hx : blankText x = true) (d : Nat) :
    ∃ s', Runs (d + 2) s (chars x) s' ∧ S1 s' D := by
  rcases g with g | g
  · obtain ⟨s', h1, h2, -⟩ := drop_chars
      (fun k s c hc => by show (if blank c then _ else _) = _; rw [if_pos hc]) x d g (blankText_all hx)
    exact ⟨s', h1, Or.inl h2⟩
  · obtain ⟨s', h1, h2, -⟩ := drop_chars
      (fun k s c hc => by show (if blank c then _ else _) = _; rw [if_pos hc]) x d g (blankText_all hx)
    exact ⟨s', h1, Or.inr h2⟩

theorem gaps_ok {s : St} {D : List Tree} (g : S1 s D) {xs : List Node}
    (hx : xs.all Node.isBlank = true) (d : Nat) :
    ∃ s', Runs (d + 2) s (allMarks xs) s' ∧ S1 s' D := by
  rcases g with g | g
  · obtain ⟨s', h1, h2⟩ := drop_nodes
      (fun k s c hc => by show (if blank c then _ else _) = _; rw [if_pos hc]) xs d hx g
    exact ⟨s', h1, Or.inl h2⟩
  · obtain ⟨s', h1, h2⟩ := drop_nodes
      (fun k s c hc => by show (if blank c then _ else _) = _; rw [if_pos hc]) xs d hx g
    exact ⟨s', h1, Or.inr h2⟩

theorem blank_leads {xs : List Node} (h : xs.all Node.isBlank = true) :
    xs.flatMap Node.leadTree = [] := by
  rw [List.flatMap_eq_nil_iff]
  intro x hx
  have := List.all_eq_true.mp h x hx
  cases x <;> simp [Node.isBlank, Node.leadTree] at this ⊢

theorem one_jump {n d : Nat} {s s1 s' : St} {t : Tok} (hj : Jump n { s with lexer := none } t s1)
    (hr : run d none s1 t = .ok s') (hl : s'.lexer = s1.lexer) : Runs (d + n) s [calm t] s' := by
  refine Runs.jump hj ⟨s', ?_, by rw [hl, hj.1], rfl⟩
  have e : { s1 with lexer := none } = s1 := by
    have := hj.1
    cases s1; simp only at this; subst this; rfl
  rw [feed, e]
  exact hr

/-- The tag of `html` and what is before that of `head`. -/
theorem stage2 {s : St} {D : List Tree} (g : S1 s D) {as : Option (List Attr)} (ha : fine as = true)
    {xs : List Node} (hx : xs.all (if as.isSome then Node.isLead else Node.isBlank) = true) (d : Nat) :
    ∃ s', Runs (d + 4) s (tag (nm! "html") as ++ allMarks xs) s' ∧
      S2 s' D (as.getD []) (xs.flatMap Node.leadTree) := by
  cases as with
  | none =>
    obtain ⟨s', h1, h2⟩ := gaps_ok g hx (d + 2)
    exact ⟨s', h1, Or.inl ⟨rfl, blank_leads hx, h2⟩⟩
  | some as =>
    obtain ⟨s1, j1, g1⟩ := jump1 g.lexer (t := .opens (nm! "html") as false) rfl
    obtain ⟨s2, r2, l2, g2⟩ := html_ok g1 ha d
    have r2' := one_jump j1 r2 l2
    obtain ⟨s3, r3, g3⟩ := sparse_nodes (m := .beforeHead)
      (fun k s c hc => by show (if blank c then _ else _) = _; rw [if_pos hc])
      (fun k s x => rfl) xs (d + 2) hx g2
    exact ⟨s3, r2'.append r3, Or.inr ⟨s1.next, g3⟩⟩

/-- The tag of `head` and the head. -/
theorem stage3 {s : St} {D : List Tree} {as : List Attr} {ts : List Tree} (g : S2 s D as ts)
    {hs : Option (List Attr)} (ha : fine hs = true) {xs : List Node} (hx : xs.all Node.inHead = true)
    (h1 : (hs.isSome || (xs.take 1).all Node.isTag) = true) (d : Nat) :
    ∃ s', Runs (d + 8) s (tag (nm! "head") hs ++ allMarks xs) s' ∧
      S3 s' D as ts (hs.getD []) (allTrees [] xs) := by
  cases hs with
  | some hs =>
    obtain ⟨s1, i, j1, g1⟩ := jump2 g.lexer (t := .opens (nm! "head") hs false) rfl rfl
    obtain ⟨s2, r2, l2, g2, e2⟩ := head_ok g1 ha d
    have r2' := one_jump j1 r2 l2
    obtain ⟨s3, r3, g3, e3⟩ := head_nodes xs d hx g2
    exact ⟨s3, (r2'.mono (by omega)).append (r3.mono (by omega)), Or.inr ⟨i, s1.next, g3, by rw [e3]; exact e2⟩⟩
  | none =>
    cases xs with
    | nil => rw [allMarks, allTrees]; exact ⟨s, rfl, Or.inl ⟨rfl, rfl, g⟩⟩
    | cons x xs =>
      have hx1 : x.inHead = true := by rw [List.all_cons, Bool.and_eq_true] at hx; exact hx.1
      obtain ⟨t, a, ms, hm, l1, l2, l3⟩ : ∃ t a ms, x.marks = (t, a) :: ms ∧
          leaves .initial t = true ∧ leaves .beforeHtml t = true ∧ leaves .beforeHead t = true := by
        cases x with
        | text _ => simp [Node.isTag] at h1
        | comment _ => simp [Node.isTag] at h1
        | elem _ _ _ => simp [Node.isTag] at h1
        | drawing _ _ => simp [Node.isTag] at h1
        | void n as self =>
          simp only [Node.inHead, Bool.and_eq_true] at hx1
          have key : ∀ n ∈ [nm! "base", nm! "basefont", nm! "bgsound", nm! "link", nm! "meta"],
            n ≠ nm! "html" ∧ n ≠ nm! "head" := by decide
          have := key n (by simpa using hx1.1)
          refine ⟨.opens n as self, none, [], by rw [Node.marks]; rfl, rfl, ?_, ?_⟩
          · simp [leaves, this]
          · simp [leaves, this]
        | raw n as x =>
          simp only [Node.inHead, Bool.and_eq_true] at hx1
          have key : ∀ n ∈ [nm! "title", nm! "style", nm! "script", nm! "noframes"],
            n ≠ nm! "html" ∧ n ≠ nm! "head" := by decide
          have := key n (by simpa using hx1.1.1)
          refine ⟨_, _, _, by rw [Node.marks], rfl, ?_, ?_⟩
          · simp [leaves, this]
          · simp [leaves, this]
      have g3 : S3 { s with lexer := none } D as ts [] [] := Or.inl ⟨rfl, rfl, g.lexer⟩
      obtain ⟨s1, i, j, j1, g1, e1⟩ := jump3 g3 l1 l2 l3
      obtain ⟨s2, r2, g2, e2⟩ := head_nodes (x :: xs) d hx g1
      refine ⟨s2, ?_, Or.inr ⟨i, j, g2, by rw [e2]; exact e1⟩⟩
      rw [allMarks, hm] at r2 ⊢
      exact (Runs.jump j1 r2).mono (by omega)

/-- The end tag of `head`. -/
theorem stage4 {s : St} {D : List Tree} {as hs : List Attr} {ts ks : List Tree}
    (g : S3 s D as ts hs ks) (p : Page) (hx : (p.headEnd.getD []).all Node.isLead = true) (d : Nat) :
    ∃ s', Runs (d + 8) s p.headEndMarks s' ∧
      S4 s' D as (allTrees (ts ++ [.elem .html (nm! "head") (plain hs) ks]) (p.headEnd.getD [])) := by
  unfold Page.headEndMarks
  cases he : p.headEnd with
  | none =>
    rw [Option.getD_none, allTrees]
    exact ⟨s, rfl, Or.inl ⟨ts, hs, ks, g, rfl⟩⟩
  | some xs =>
    rw [he] at hx
    obtain ⟨s1, i, j, j1, g1, e1⟩ := jump3 g.lexer (t := .closes (nm! "head") [] false) rfl rfl rfl
    obtain ⟨s2, r2, l2, g2, e2⟩ := headEnd_ok g1 rfl d
    have r2' := one_jump j1 r2 l2
    obtain ⟨s3, r3, g3, e3⟩ := loose_nodes (m := .afterHead)
      (fun k s c hc => by
        show (if blankCr c then _ else _) = _
        rw [if_pos (by rw [blankCr, hc]; rfl)])
      (fun k s x => rfl) xs (d + 6) hx g2
    exact ⟨s3, r2'.append r3, Or.inr ⟨i, g3, by rw [e3, e2]; exact e1⟩⟩

theorem solid_leaves {t : Tok} (h : solid t = true) : leaves .initial t = true ∧
    leaves .beforeHtml t = true ∧ leaves .beforeHead t = true ∧ leaves .inHead t = true ∧
    leaves .afterHead t = true := by
  cases t with
  | char c =>
    simp only [solid, Bool.not_eq_true', Bool.or_eq_false_iff, beq_eq_false_iff_ne] at h
    obtain ⟨⟨⟨⟨h1, h2⟩, h3⟩, h4⟩, h5⟩ := h
    have hb : blank c = false := by simp [blank, h1, h2, h3, h4]
    have hb' : blankCr c = false := by simp [blankCr, hb, h5]
    simp [leaves, hb, hb']
  | opens n as self =>
    simp only [solid, Bool.not_eq_true', List.contains_eq_mem, decide_eq_false_iff_not,
      List.mem_cons, List.not_mem_nil, or_false, not_or] at h
    obtain ⟨h1, h2, h3, h4, h5, h6, h7, h8, h9, h10, h11, h12, h13, h14, h15⟩ := h
    simp [leaves, isOne, headNames, h1, h2, h3, h4, h5, h6, h7, h8, h9, h10, h11, h12, h13, h14, h15]
  | closes n as self =>
    simp only [solid, Bool.or_eq_true, beq_iff_eq] at h
    rcases h with rfl | rfl <;> exact ⟨rfl, rfl, rfl, rfl, rfl⟩
  | eof => decide
  | comment _ => cases h
  | doctype _ _ _ => cases h

/-- The body. -/
theorem rest_ok {s : St} {f : Frame} {fs : List Frame} {D : List Tree} (g : Good s (f :: fs) D)
    (hf : f.name = nm! "body") (hfs : around fs = [nm! "html"]) (p : Page)
    (h1 : allFit [nm! "body", nm! "html"] p.body = true) (h2 : blankEnd p.bodyEnd = true)
    (h3 : blankEnd p.htmlEnd = true) (d : Nat) :
    ∃ s', Runs (d + 8) s p.rest s' ∧ Stk s' (⟨f.el, f.attrs, allTrees f.done
      (p.body ++ [.text (p.bodyEnd.getD []), .text (p.htmlEnd.getD [])])⟩ :: fs) D := by
  obtain ⟨s1, r1, g1⟩ := nodes_ok p.body d
    (by show allFit (f.name :: around fs) _ = true; rw [hf, hfs]; exact h1) (Or.inl g)
  have g1 := g1.flow (by show f.name ∉ _; rw [hf]; decide)
  obtain ⟨s2, r2, g2⟩ := end_ok g1 hf p.bodyEnd p.htmlEnd h2 h3 d
  refine ⟨s2, r1.append r2, ?_⟩
  rw [allTrees_append]
  simp only [allTrees, Node.trees]
  exact g2

theorem stage5 {s : St} {D : List Tree} {as : List Attr} {ts : List Tree} (g : S4 s D as ts) (p : Page)
    (ha : fine p.bodyTag = true)
    (h0 : (p.bodyTag.isSome || (p.rest.take 1).all fun m => solid m.1) = true)
    (h1 : allFit [nm! "body", nm! "html"] p.body = true) (h2 : blankEnd p.bodyEnd = true)
    (h3 : blankEnd p.htmlEnd = true) (d : Nat) :
    ∃ s', Runs (d + 18) s (tag (nm! "body") p.bodyTag ++ p.rest) s' ∧
      tree s' = .document (D ++ [.elem .html (nm! "html") (plain as) (ts ++
        [.elem .html (nm! "body") (plain (p.bodyTag.getD [])) (allTrees []
          (p.body ++ [.text (p.bodyEnd.getD []), .text (p.htmlEnd.getD [])]))])]) := by
  cases hb : p.bodyTag with
  | some bs =>
    rw [hb] at ha
    obtain ⟨s1, i, j1, g1, e1⟩ := jump4 g.lexer (t := .opens (nm! "body") bs false) rfl rfl rfl rfl
    obtain ⟨s2, r2, l2, g2⟩ := body_ok g1 rfl e1 ha d
    have r2' := one_jump j1 r2 l2
    obtain ⟨s3, r3, g3⟩ := rest_ok g2 rfl rfl p h1 h2 h3 d
    exact ⟨s3, (r2'.mono (by omega)).append (r3.mono (by omega)), by rw [tree_eq g3]; rfl⟩
  | none =>
    rw [hb] at h0
    obtain ⟨t, a, ms, hm⟩ : ∃ t a ms, p.rest = (t, a) :: ms := by
      cases hr : p.rest with
      | nil => simp [Page.rest] at hr
      | cons m ms => exact ⟨m.1, m.2, ms, rfl⟩
    have hs : solid t = true := by simpa [hm] using h0
    obtain ⟨l1, l2, l3, l4, l5⟩ := solid_leaves hs
    obtain ⟨s1, i, j, j1, g1⟩ := jump5 g.lexer l1 l2 l3 l4 l5
    obtain ⟨s3, r3, g3⟩ := rest_ok g1 rfl rfl p h1 h2 h3 d
    refine ⟨s3, ?_, by rw [tree_eq g3]; rfl⟩
    rw [hm] at r3 ⊢
    have := Runs.jump j1 r3
    rw [tag, List.nil_append]
    exact this

theorem page_runs (p : Page) (hp : p.ok = true) (d : Nat) :
    ∃ s', Runs (d + 18) {} p.marks s' ∧ tree s' = p.tree := by
  simp only [Page.ok, Bool.and_eq_true] at hp
  obtain ⟨⟨⟨⟨⟨⟨⟨⟨⟨⟨⟨⟨h1, h2⟩, h3⟩, h4⟩, h5⟩, h6⟩, h7⟩, h8⟩, h9⟩, h10⟩, h11⟩, h12⟩, h13⟩ := hp
  obtain ⟨s1, r1, g1⟩ := lead_ok p.lead (d + 16) h1 start
  have hdoc : ∃ s', Runs (d + 18) s1 p.doctypeMarks s' ∧
      S1 s' (([] ++ p.lead.flatMap Node.leadTree) ++ p.doctypeTree) := by
    unfold Page.doctypeMarks Page.doctypeTree
    cases hd : p.doctype with
    | none => exact ⟨s1, rfl, Or.inl (by simpa using g1)⟩
    | some x =>
      obtain ⟨a, b, c⟩ := x
      obtain ⟨s2, r2, l2, g2⟩ := doctype_ok (g1.lexer none) a b c (d + 16)
      exact ⟨s2, Runs.one r2 l2, Or.inr g2⟩
  obtain ⟨s2, r2, g2⟩ := hdoc
  obtain ⟨s3, r3, g3⟩ := gap_ok g2 h2 (d + 16)
  obtain ⟨s4, r4, g4⟩ := stage2 g3 h3 h4 (d + 14)
  obtain ⟨s5, r5, g5⟩ := stage3 g4 h5 h6 h7 (d + 10)
  obtain ⟨s6, r6, g6⟩ := stage4 g5 p h8 (d + 10)
  obtain ⟨s7, r7, e7⟩ := stage5 g6 p h9 h10 h11 h12 h13 d
  refine ⟨s7, ?_, ?_⟩
  · have := r1.append (r2.append (r3.append (r4.append (r5.append (r6.append r7)))))
    simpa only [Page.marks, List.append_assoc] using this
  · rw [e7, Page.tree]
    simp only [List.nil_append, List.append_assoc]

end Verif.Tree
