import Verif.Tree.Heap
/-
The state of the tree builder while it reads a page that is written by the rules of `Spec.lean`.
-/
namespace Verif.Tree
open Verif.Html (Str Attr Content)
open Spec

/-! ### Frames -/

/-- An open element, with the attributes of its tag and the trees of its children. -/
structure Frame where
  el : El
  attrs : List Attr
  done : List Tree

def Frame.name (f : Frame) : Str := f.el.q.name
def Frame.open (f : Frame) : Open := ⟨f.el.id, .element f.el.q (plain f.attrs), f.done⟩
def Frame.add (f : Frame) (t : Tree) : Frame := { f with done := f.done ++ [t] }
def Frame.tree (f : Frame) : Tree := .elem f.el.q.ns f.el.q.name (plain f.attrs) f.done

def marking : List Str :=
  [nm! "td", nm! "th", nm! "caption", nm! "applet", nm! "marquee", nm! "object"]

/-- The entry of an open element in the list of active formatting elements. -/
def Frame.entry (f : Frame) : Option Entry :=
  if f.el.q.isIn marking then some .marker
  else if f.el.q.isIn formats then some (.elem f.el f.el.q.name f.attrs)
  else none

def entriesOf (fs : List Frame) : List Entry := fs.reverse.filterMap Frame.entry

theorem entriesOf_cons (f : Frame) (fs : List Frame) :
    entriesOf (f :: fs) = entriesOf fs ++ f.entry.toList := by
  unfold entriesOf
  rw [List.reverse_cons, List.filterMap_append]
  cases h : f.entry <;> simp [h]

/-! ### The tree -/

structure Stk (s : St) (fs : List Frame) (D : List Tree) : Prop where
  stack : s.stack = fs.map Frame.el
  tree : Holds s s.next [] (fs.map Frame.open ++ [⟨0, .document, D⟩])
  foster : s.foster = false

theorem Stk.congr {s s' : St} {fs : List Frame} {D : List Tree} (h : Stk s fs D)
    (h1 : s'.data = s.data) (h2 : s'.kids = s.kids) (h3 : s'.next = s.next)
    (h4 : s'.stack = s.stack) (h5 : s'.foster = s.foster) : Stk s' fs D := by
  refine ⟨by rw [h4]; exact h.stack, ?_, by rw [h5]; exact h.foster⟩
  rw [h3]
  exact h.tree.frame fun n _ _ => ⟨by rw [h1], by rw [h2]⟩

theorem Stk.lt {s : St} {fs : List Frame} {D : List Tree} (h : Stk s fs D) :
    ∀ f ∈ fs, f.el.id < s.next := by
  intro f hf
  exact h.tree.lt f.open (by simp; exact Or.inl ⟨f, hf, rfl⟩)

theorem holds_lt {s : St} : ∀ {fs : List Open} {hi : Nat} {tail : List Nat} {f : Open},
    Holds s hi tail (f :: fs) → ∀ g ∈ fs, g.id < f.id := by
  intro fs hi tail f h
  exact h.2.2.2.lt

/-- Elements that are open longer have smaller numbers. -/
theorem Stk.below {s : St} {f : Frame} {fs : List Frame} {D : List Tree} (h : Stk s (f :: fs) D) :
    ∀ g ∈ fs, g.el.id < f.el.id := by
  intro g hg
  have := holds_lt (f := f.open) (fs := fs.map Frame.open ++ [⟨0, .document, D⟩]) h.tree g.open
    (by simp; exact Or.inl ⟨g, hg, rfl⟩)
  exact this

theorem Stk.fresh {s : St} {f : Frame} {fs : List Frame} {D : List Tree} (h : Stk s (f :: fs) D) :
    f.el ∉ fs.map Frame.el := by
  intro hm
  obtain ⟨g, hg, e⟩ := List.mem_map.mp hm
  have := h.below g hg
  rw [e] at this
  omega

theorem place_top {s : St} {f : Frame} {fs : List Frame} {D : List Tree} (h : Stk s (f :: fs) D) :
    place s = .ok ⟨f.el.id, none⟩ := by
  simp [place, current, h.stack, h.foster, bind, Except.bind]

theorem tokenAttrs_plain {as : List Attr} (h : distinct as = true) : tokenAttrs as = plain as := by
  have hn : (as.map Attr.name).Nodup := by simpa [distinct] using h
  have put : ∀ (l : Attrs) (k : Key) (v : Str), (∀ p ∈ l, p.1 ≠ k) →
      putAttr k v l = l ++ [(k, v)] := by
    intro l
    induction l with
    | nil => intros; rfl
    | cons p l ih =>
      intro k v hp
      obtain ⟨k', v'⟩ := p
      have h1 : k' ≠ k := hp (k', v') (by simp)
      rw [putAttr, if_neg h1, ih k v (fun p hq => hp p (by simp [hq])), List.cons_append]
  have key : ∀ (as : List Attr) (l : Attrs), (as.map Attr.name).Nodup →
      (∀ p ∈ l, ∀ a ∈ as, p.1 ≠ ⟨false, a.name⟩) →
      as.foldl (fun l a => putAttr ⟨false, a.name⟩ a.value l) l = l ++ plain as := by
    intro as
    induction as with
    | nil => intro l _ _; simp [plain]
    | cons a as ih =>
      intro l hn hl
      rw [List.map_cons, List.nodup_cons] at hn
      rw [List.foldl_cons, put l _ _ (fun p hp => hl p hp a (by simp)), ih _ hn.2]
      · simp [plain]
      · intro p hp b hb
        rw [List.mem_append, List.mem_singleton] at hp
        rcases hp with hp | rfl
        · exact hl p hp b (by simp [hb])
        · intro e
          apply hn.1
          rw [List.mem_map]
          exact ⟨b, hb, by simp only [Key.mk.injEq] at e; exact e.2.symm⟩
  have := key as [] hn (by simp)
  simpa [tokenAttrs] using this

/-- The state after a new open element. -/
def opened (s : St) (p : Nat) (ns : Ns) (n : Str) (as : List Attr) : St :=
  { added s p (.element ⟨ns, n⟩ (plain as)) with stack := ⟨s.next, ⟨ns, n⟩⟩ :: s.stack }

theorem insert_eq {s : St} {f : Frame} {fs : List Frame} {D : List Tree} (h : Stk s (f :: fs) D)
    (ns : Ns) (n : Str) {as : List Attr} (ha : distinct as = true) :
    insertForeign s ns n as = .ok (opened s f.el.id ns n as, ⟨s.next, ⟨ns, n⟩⟩) := by
  have hlt := h.lt f (by simp)
  have e := append_alloc (s := s) (p := f.el.id) (d := .element ⟨ns, n⟩ (plain as)) hlt
  have hi : insertForeign s ns n as = .ok
      (let s1 := append (alloc s (.element ⟨ns, n⟩ (tokenAttrs as))).1 f.el.id
        (alloc s (.element ⟨ns, n⟩ (tokenAttrs as))).2
       ({ s1 with stack := ⟨s.next, ⟨ns, n⟩⟩ :: s1.stack }, ⟨s.next, ⟨ns, n⟩⟩)) := by
    rw [insertForeign, place_top h]
    rfl
  rw [hi, tokenAttrs_plain ha, e]
  rfl

theorem insertHtml_eq {s : St} {f : Frame} {fs : List Frame} {D : List Tree}
    (h : Stk s (f :: fs) D) (n : Str) {as : List Attr} (ha : distinct as = true) :
    insertHtml s n as = .ok (opened s f.el.id .html n as) := by
  rw [insertHtml, insert_eq h .html n ha]
  rfl

theorem Stk.opened {s : St} {f : Frame} {fs : List Frame} {D : List Tree} (h : Stk s (f :: fs) D)
    (ns : Ns) (n : Str) (as : List Attr) :
    Stk (opened s f.el.id ns n as) (⟨⟨s.next, ⟨ns, n⟩⟩, as, []⟩ :: f :: fs) D := by
  refine ⟨?_, ?_, h.foster⟩
  · show _ :: s.stack = _
    rw [h.stack]
    rfl
  · have := Holds.opened (f := f.open) (.element ⟨ns, n⟩ (plain as)) h.tree
    exact this.frame fun n _ _ => ⟨rfl, rfl⟩

theorem Stk.closed {s : St} {f g : Frame} {fs : List Frame} {D : List Tree}
    (h : Stk s (f :: g :: fs) D) :
    Stk { s with stack := s.stack.tail } (g.add f.tree :: fs) D := by
  refine ⟨?_, ?_, h.foster⟩
  · show s.stack.tail = _
    rw [h.stack]
    rfl
  · have := Holds.close (f := f.open) (g := g.open) (ns := f.el.q.ns) (name := f.el.q.name)
      (as := plain f.attrs) h.tree rfl
    exact this.frame fun n _ _ => ⟨rfl, rfl⟩

/-- The last element of all is closed: what is left is the document. -/
theorem pop_eq {s : St} {f : Frame} {fs : List Frame} {D : List Tree} (h : Stk s (f :: fs) D) :
    pop s = .ok { s with stack := s.stack.tail } := by
  rw [pop, h.stack]
  rfl

theorem Stk.char {s : St} {f : Frame} {fs : List Frame} {D : List Tree} (h : Stk s (f :: fs) D)
    (c : Char) : ∃ data kids parent next,
      insertChar s c = .ok { s with data := data, kids := kids, parent := parent, next := next } ∧
      Stk { s with data := data, kids := kids, parent := parent, next := next }
        ({ f with done := addText f.done [c] } :: fs) D := by
  obtain ⟨s', h1, h2, data, kids, parent, next, rfl⟩ :=
    Holds.char (f := f.open) c h.tree h.stack rfl (by simp [Frame.open]) h.foster
  exact ⟨data, kids, parent, next, h1, h.stack, h2, h.foster⟩

theorem Stk.comment {s : St} {f : Frame} {fs : List Frame} {D : List Tree} (h : Stk s (f :: fs) D)
    (d : Str) : insertComment s d = .ok (added s f.el.id (.comment d)) ∧
      Stk (added s f.el.id (.comment d)) (f.add (.comment d) :: fs) D := by
  have hlt := h.lt f (by simp)
  constructor
  · rw [insertComment]
    show (do let loc ← place s; _) = _
    rw [place_top h]
    show Except.ok (append (alloc s (.comment d)).1 f.el.id (alloc s (.comment d)).2) = _
    rw [append_alloc hlt]
  · refine ⟨h.stack, ?_, h.foster⟩
    refine Holds.leaf (f := f.open) h.tree ?_
    unfold ShowsT
    exact ⟨by simp [added, update], by omega⟩

/-! ### The active formatting elements -/

/-- Everything but the modes. -/
structure Core (s : St) (fs : List Frame) (D : List Tree) : Prop extends Stk s fs D where
  entries : s.entries = entriesOf fs
  after : s.after = afterMarker s.entries
  form : s.form = (fs.find? (·.el.q == h (nm! "form"))).map Frame.el

theorem mem_entriesOf {fs : List Frame} {e : El} {n : Str} {as : List Attr}
    (he : Entry.elem e n as ∈ entriesOf fs) : ∃ f ∈ fs, f.el = e ∧ n = f.name ∧ as = f.attrs ∧
      f.el.q.isIn formats = true := by
  unfold entriesOf at he
  rw [List.mem_filterMap] at he
  obtain ⟨f, hf, h⟩ := he
  unfold Frame.entry at h
  split at h
  · simp at h
  · split at h
    · rename_i h1 h2
      simp only [Option.some.injEq, Entry.elem.injEq] at h
      exact ⟨f, by simpa using hf, h.1, h.2.1.symm, h.2.2.symm, h2⟩
    · cases h

theorem reconstruct_eq {s : St} {fs : List Frame} {D : List Tree} (h : Core s fs D) :
    reconstruct s = .ok s := by
  have hst : ∀ e ∈ s.entries, Entry.stale s e = false := by
    intro e he
    cases e with
    | marker => rfl
    | elem e n as =>
      rw [h.entries] at he
      obtain ⟨f, hf, rfl, -⟩ := mem_entriesOf he
      simp only [Entry.stale, Bool.not_eq_false', List.contains_iff_mem]
      rw [h.stack]
      exact List.mem_map.mpr ⟨f, hf, rfl⟩
  have h0 : s.entries.reverse.takeWhile (·.stale s) = [] := by
    cases hr : s.entries.reverse with
    | nil => rfl
    | cons e r =>
      rw [List.takeWhile_cons, hst e (by rw [← List.mem_reverse, hr]; simp)]
      rfl
  rw [reconstruct, h0]
  simp [remake, bind, Except.bind]

theorem afterMarker_marker (es : List Entry) : afterMarker (es ++ [.marker]) = es.length + 1 := by
  simp [afterMarker]

theorem afterMarker_elem (es : List Entry) (e : El) (n : Str) (as : List Attr) :
    afterMarker (es ++ [.elem e n as]) = afterMarker es := by
  simp [afterMarker]

theorem afterMarker_nil : afterMarker [] = 0 := rfl

theorem afterMarker_le (es : List Entry) : afterMarker es ≤ es.length := by
  unfold afterMarker
  have := (List.dropWhile_sublist (fun e => e != Entry.marker) (l := es.reverse)).length_le
  simpa using this

/-- What follows the last marker. -/
theorem drop_after (es : List Entry) :
    es.drop (afterMarker es) = (es.reverse.takeWhile (fun e => e != .marker)).reverse := by
  have h1 : es = (es.reverse.dropWhile (fun e => e != .marker)).reverse ++
      (es.reverse.takeWhile (fun e => e != .marker)).reverse := by
    rw [← List.reverse_append, List.takeWhile_append_dropWhile, List.reverse_reverse]
  have h2 : afterMarker es = (es.reverse.dropWhile (fun e => e != .marker)).reverse.length := by
    simp [afterMarker]
  rw [h2]
  exact (congrArg (List.drop _) h1).trans (List.drop_left ..)

/-- The elements after the last marker are formatting elements, with no table cell between. -/
theorem mem_after {fs : List Frame} {e : Entry}
    (he : e ∈ (entriesOf fs).drop (afterMarker (entriesOf fs))) (hall : ∀ f ∈ fs, f.el.q.ns = .html) :
    ∃ f ∈ fs, e = .elem f.el f.name f.attrs ∧
      f.name ∈ (fs.map Frame.name).takeWhile (!isCell ·) := by
  rw [drop_after, List.mem_reverse] at he
  induction fs with
  | nil => simp [entriesOf] at he
  | cons f fs ih =>
    rw [entriesOf_cons] at he
    cases hf : f.entry with
    | none =>
      rw [hf] at he
      simp only [Option.toList_none, List.append_nil] at he
      obtain ⟨g, hg, e1, e2⟩ := ih he (fun g hg => hall g (by simp [hg]))
      refine ⟨g, by simp [hg], e1, ?_⟩
      have hc : isCell f.name = false := by
        cases hc : isCell f.name with
        | false => rfl
        | true =>
          exfalso
          unfold Frame.entry at hf
          rw [if_pos] at hf
          · cases hf
          · unfold QName.isIn
            rw [hall f (by simp)]
            have : ∀ n ∈ [nm! "td", nm! "th", nm! "caption"], marking.contains n = true := by decide
            simp only [decide_true, Bool.true_and]
            exact this f.name (by simpa [isCell] using hc)
      rw [List.map_cons, List.takeWhile_cons, hc]
      simp only [Bool.not_false, if_true, List.mem_cons]
      exact Or.inr e2
    | some x =>
      rw [hf] at he
      simp only [Option.toList_some, List.reverse_append, List.reverse_singleton,
        List.singleton_append, List.takeWhile_cons] at he
      split at he
      · rename_i hx
        have hmk : f.el.q.isIn marking = false := by
          unfold Frame.entry at hf
          split at hf
          · cases hf; simp at hx
          · rename_i h; simpa using h
        have hc : isCell f.name = false := by
          cases hc : isCell f.name with
          | false => rfl
          | true =>
            exfalso
            unfold QName.isIn at hmk
            rw [hall f (by simp)] at hmk
            have : ∀ n ∈ [nm! "td", nm! "th", nm! "caption"], marking.contains n = true := by decide
            have := this f.name (by simpa [isCell] using hc)
            unfold Frame.name at this
            rw [this] at hmk
            cases hmk
        rw [List.mem_cons] at he
        rcases he with rfl | he
        · refine ⟨f, by simp, ?_, ?_⟩
          · unfold Frame.entry at hf
            rw [hmk] at hf
            simp only [Bool.false_eq_true, if_false] at hf
            split at hf
            · cases hf; rfl
            · cases hf
          · rw [List.map_cons, List.takeWhile_cons, hc]
            simp
        · obtain ⟨g, hg, e1, e2⟩ := ih he (fun g hg => hall g (by simp [hg]))
          refine ⟨g, by simp [hg], e1, ?_⟩
          rw [List.map_cons, List.takeWhile_cons, hc]
          simp only [Bool.not_false, if_true, List.mem_cons]
          exact Or.inr e2
      · cases he

/-! ### Scopes -/

theorem scopeLoop_false {n : Str} {ends : QName → Bool} : ∀ {st : List El},
    (∀ e ∈ st, e.q ≠ h n) → (∃ e ∈ st, ends e.q = true) → scopeLoop n ends st = .ok false := by
  intro st
  induction st with
  | nil => rintro _ ⟨e, he, _⟩; cases he
  | cons x st ih =>
    rintro h1 ⟨e, he, hen⟩
    rw [scopeLoop, if_neg (h1 x (by simp))]
    by_cases hx : ends x.q = true
    · rw [if_pos hx]
    · rw [if_neg hx]
      apply ih (fun y hy => h1 y (by simp [hy]))
      cases he with
      | head => exact absurd hen hx
      | tail _ he => exact ⟨e, he, hen⟩

theorem scopeLoop_true {n : Str} {ends : QName → Bool} {e : El} {st : List El} (he : e.q = h n) :
    scopeLoop n ends (e :: st) = .ok true := by
  rw [scopeLoop, if_pos he]

/-- The names of the open elements. -/
def around (fs : List Frame) : List Str := fs.map Frame.name

theorem q_eq {q : QName} (hq : q.ns = .html) : q = h q.name := by
  cases q; simp only at hq; subst hq; rfl

theorem inScopeOf_false {s : St} {fs : List Frame} {D : List Tree} (hs : Stk s fs D) {n : Str}
    {ends : QName → Bool} (hn : n ∉ around fs) (hr : ∃ f ∈ fs, f.el.q = h (nm! "html"))
    (he : ends (h (nm! "html")) = true) : inScopeOf s ends n = .ok false := by
  obtain ⟨f, hf, hq⟩ := hr
  rw [inScopeOf, if_neg]
  · apply scopeLoop_false
    · intro e hm
      rw [hs.stack] at hm
      obtain ⟨g, hg, rfl⟩ := List.mem_map.mp hm
      intro e
      apply hn
      exact List.mem_map.mpr ⟨g, hg, by unfold Frame.name; rw [e]; rfl⟩
    · refine ⟨f.el, ?_, by rw [hq]; exact he⟩
      rw [hs.stack]
      exact List.mem_map.mpr ⟨f, hf, rfl⟩
  · rw [hs.stack]
    intro e
    rw [List.map_eq_nil_iff.mp e] at hf
    cases hf

theorem inScopeOf_true {s : St} {f : Frame} {fs : List Frame} {D : List Tree}
    (hs : Stk s (f :: fs) D) {n : Str} {ends : QName → Bool} (hn : f.el.q = h n) :
    inScopeOf s ends n = .ok true := by
  rw [inScopeOf, if_neg (by rw [hs.stack]; simp), hs.stack, List.map_cons, scopeLoop_true hn]

theorem impliedEnds_eq {s : St} {f : Frame} {fs : List Frame} {D : List Tree}
    (hs : Stk s (f :: fs) D) {ex : List Str}
    (hn : (f.el.q.isIn impliedEnd && !f.el.q.isIn ex) = false) : impliedEnds s ex = .ok s := by
  rw [impliedEnds, hs.stack, List.map_cons, implied, hn]
  show Except.ok { s with stack := f.el :: List.map Frame.el fs } = _
  rw [← List.map_cons, ← hs.stack]

theorem popUntilOneOf_eq {s : St} {f : Frame} {fs : List Frame} {D : List Tree}
    (hs : Stk s (f :: fs) D) {names : List Str} (hn : f.el.q.isIn names = true) :
    popUntilOneOf s names = { s with stack := s.stack.tail } := by
  rw [popUntilOneOf, hs.stack, List.map_cons, dropPast, hn]
  rfl

end Verif.Tree
