import Verif.Tree.Flow
/-
What holds of the tree builder's state whatever the tokens are: the invariant, and that the
operations of `Base` keep it.
-/
namespace Verif.Tree
open Verif.Html (Str Attr Content)

/-! ### Where things come from -/

/-- What may be in the tree. -/
structure Src where
  tag : Str → List Attr → Prop
  elem : QName → Attrs → Prop
  char : Char → Prop
  comment : Str → Prop
  doctype : Str → Str → Str → Prop
  /-- Whether the mode to come back to has been set; see `Src.later`. -/
  known : Prop

def Src.data (P : Src) : Data → Prop
  | .document => True
  | .doctype a b c => P.doctype a b c
  | .element q as => P.elem q as
  | .text d => d ≠ [] ∧ ∀ c ∈ d, P.char c
  | .comment d => P.comment d

def Src.tok (P : Src) : Tok → Prop
  | .opens n as _ => P.tag n as
  | .closes n as _ => n = nm! "br" → P.tag n as
  | .comment d => P.comment d
  | .char c => P.char c
  | .doctype a b c => P.doctype (a.getD []) (b.getD []) (c.getD [])
  | .eof => True

def impliedNames : List Str :=
  [nm! "html", nm! "head", nm! "body", nm! "colgroup", nm! "tbody", nm! "tr", nm! "p"]

/-- What the tree builder makes of the tags. -/
structure Src.Closed (P : Src) : Prop where
  implied : ∀ n ∈ impliedNames, P.tag n []
  img : ∀ as, P.tag (nm! "image") as → P.tag (nm! "img") as
  bare : ∀ n as, P.tag n as → P.tag n []
  cased : ∀ n as, P.tag n as → P.tag (cased svgTags n) (casedAttrs as)
  keys : ∀ n as, P.tag n as → P.tag n (casedAttrs as)
  made : ∀ ns n as, P.tag n as → P.elem ⟨ns, n⟩ (tokenAttrs as)
  merged : ∀ n bs b q as, P.tag n bs → n = nm! "html" ∨ n = nm! "body" → b ∈ bs → P.elem q as →
    P.elem q (putAttr ⟨true, b.name⟩ b.value as)
  nul : P.char '\x00' → P.char '�'

/-! ### The nodes -/

def Data.isElement : Data → Prop
  | .element _ _ => True
  | _ => False

def Data.isDoctype : Data → Prop
  | .doctype _ _ _ => True
  | _ => False

def Data.isComment : Data → Prop
  | .comment _ => True
  | _ => False

/-- The kind of a node is kept. -/
inductive Data.Like : Data → Data → Prop
  | refl (d : Data) : Like d d
  | element (q : QName) (as bs : Attrs) : Like (.element q as) (.element q bs)
  | text (a b : Str) : Like (.text a) (.text b)

structure Heap (data : Nat → Data) (kids : Nat → List Nat) (parent : Nat → Option Nat) (next : Nat) :
    Prop where
  pos : 0 < next
  root : parent 0 = none
  doc : ∀ n, n < next → (data n = .document ↔ n = 0)
  up : ∀ n p, n ∈ kids p → parent n = some p
  zero : ∀ n, parent n = some 0 → n ∈ kids 0
  once : ∀ p, (kids p).Nodup
  bound : ∀ n p, parent n = some p → n < next ∧ p < next
  inner : ∀ n p, parent n = some p → p = 0 ∨ (data p).isElement
  dtype : ∀ n p, parent n = some p → (data n).isDoctype → p = 0

def Valid (data : Nat → Data) (next : Nat) (e : El) : Prop :=
  e.id < next ∧ ∃ as, data e.id = .element e.q as

/-- An entry of the list of active formatting elements. -/
structure Listed (P : Src) (data : Nat → Data) (next : Nat) (e : El) (n : Str) (as : List Attr) :
    Prop where
  valid : Valid data next e
  tag : P.tag n as
  name : e.q = h n
  other : n ≠ nm! "head"

structure Refs (P : Src) (data : Nat → Data) (parent : Nat → Option Nat) (next : Nat)
    (head form : Option El) (st : List El) (es : List Entry) : Prop where
  opened : ∀ e ∈ st, Valid data next e
  low : ∀ e ∈ st.dropLast, parent e.id ≠ some 0
  once : (st.filter fun e => e.q ≠ h (nm! "head")).Nodup
  listed : ∀ e n as, Entry.elem e n as ∈ es → Listed P data next e n as
  head : ∀ e, head = some e → Valid data next e ∧ e.q = h (nm! "head")
  form : ∀ e, form = some e → Valid data next e

/-- The children of the document: comments, a document type, comments, the root. -/
def Shape (data : Nat → Data) (quirks : Bool) (l : List Nat) : Prop :=
  ∃ a d b r as, l = a ++ d ++ b ++ [r] ∧ (∀ n ∈ a, (data n).isComment) ∧
    (∀ n ∈ b, (data n).isComment) ∧
    ((d = [] ∧ quirks = true) ∨ ∃ n, d = [n] ∧ (data n).isDoctype ∧ quirks = false) ∧
    data r = .element (h (nm! "html")) as

structure Whole (P : Src) (data : Nat → Data) (kids : Nat → List Nat) (parent : Nat → Option Nat)
    (next : Nat) (head form : Option El) (stack : List El) (entries : List Entry)
    (pending : List Char) : Prop where
  heap : Heap data kids parent next
  refs : Refs P data parent next head form stack entries
  src : ∀ n, n < next → P.data (data n)
  pending : ∀ c ∈ pending, P.char c

def Mode.early : Mode → Bool
  | .initial | .beforeHtml => true
  | _ => false

def Late (known : Prop) (m o : Mode) : Prop :=
  m.early = false ∧ (known ∨ m = .text ∨ m = .inTableText → o.early = false)

def WholeAt (P : Src) (s : St) : Prop :=
  Whole P s.data s.kids s.parent s.next s.head s.form s.stack s.entries s.pending

/-- The state from the root element on. -/
def Sound (P : Src) (s : St) : Prop :=
  (WholeAt P s ∧ Shape s.data s.quirks (s.kids 0)) ∧ Late P.known s.mode s.orig

/-! ### Outcomes -/

/-- The outcome, when there is one, is like this. -/
def Post {α : Type} (Q : α → Prop) (m : M α) : Prop := ∀ x, m = .ok x → Q x

theorem Post.ok {α : Type} {Q : α → Prop} {x : α} (h : Q x) : Post Q (.ok x) := by
  intro y e; cases e; exact h

theorem Post.error {α : Type} {Q : α → Prop} (e : Fault) : Post Q (.error e : M α) := by
  intro y h; cases h

theorem Post.bind {α β : Type} (Q : α → Prop) {R : β → Prop} {m : M α} {f : α → M β}
    (h1 : Post Q m) (h2 : ∀ x, Q x → Post R (f x)) : Post R (m >>= f) := by
  cases m with
  | error e => exact Post.error e
  | ok x => exact h2 x (h1 x rfl)

theorem Post.any {α β : Type} {R : β → Prop} {m : M α} {f : α → M β}
    (h2 : ∀ x, Post R (f x)) : Post R (m >>= f) :=
  Post.bind (fun _ => True) (fun _ _ => trivial) fun x _ => h2 x

theorem Post.mono {α : Type} {Q R : α → Prop} {m : M α} (h : Post Q m) (hq : ∀ x, Q x → R x) :
    Post R m := fun x e => hq x (h x e)

theorem Post.ite {α : Type} {Q : α → Prop} {c : Prop} [Decidable c] {a b : M α} (h1 : Post Q a)
    (h2 : Post Q b) : Post Q (if c then a else b) := by
  split
  · exact h1
  · exact h2

/-! ### Lists -/

theorem dropLast_sub {α : Type} : ∀ {a b : List α}, List.Sublist a b →
    List.Sublist a.dropLast b.dropLast := by
  intro a b hab
  induction hab with
  | slnil => exact List.Sublist.slnil
  | @cons a b x hab ih =>
    cases b with
    | nil => cases hab; exact List.Sublist.slnil
    | cons y ys => rw [List.dropLast_cons₂]; exact ih.cons x
  | @cons_cons a b x hab ih =>
    cases b with
    | nil => cases hab; exact List.Sublist.slnil
    | cons y ys =>
      cases a with
      | nil => exact List.nil_sublist _
      | cons z zs => rw [List.dropLast_cons₂, List.dropLast_cons₂]; exact ih.cons_cons x

theorem dropPast_sub (p : El → Bool) : ∀ l, List.Sublist (dropPast p l) l
  | [] => List.Sublist.slnil
  | e :: r => by
    rw [dropPast]
    split
    · exact List.sublist_cons_self _ _
    · exact (dropPast_sub p r).cons _

theorem putBefore_mem {n c x : Nat} : ∀ {l : List Nat}, x ∈ putBefore n c l → x = n ∨ x ∈ l := by
  intro l
  induction l with
  | nil => intro h; exact absurd h (by simp [putBefore])
  | cons y ys ih =>
    rw [putBefore]
    split
    · intro h
      rcases List.mem_cons.mp h with h | h
      · exact Or.inl h
      · exact Or.inr h
    · intro h
      rcases List.mem_cons.mp h with h | h
      · exact Or.inr (by simp [h])
      · rcases ih h with h | h
        · exact Or.inl h
        · exact Or.inr (List.mem_cons_of_mem _ h)

theorem putBefore_nodup {n c : Nat} : ∀ {l : List Nat}, l.Nodup → n ∉ l → (putBefore n c l).Nodup := by
  intro l
  induction l with
  | nil => intro _ _; exact List.nodup_nil
  | cons y ys ih =>
    intro hn hm
    rw [putBefore]
    split
    · exact List.nodup_cons.mpr ⟨hm, hn⟩
    · refine List.nodup_cons.mpr ⟨?_, ih (List.nodup_cons.mp hn).2 fun h => hm (List.mem_cons_of_mem _ h)⟩
      intro hy
      rcases putBefore_mem hy with e | e
      · exact hm (by simp [e])
      · exact (List.nodup_cons.mp hn).1 e

theorem Shape.congr {data data' : Nat → Data} {q : Bool} {l : List Nat}
    (hd : ∀ n ∈ l, (data n).Like (data' n)) (hs : Shape data q l) : Shape data' q l := by
  obtain ⟨a, d, b, r, as, rfl, h1, h2, h3, h4⟩ := hs
  have hc : ∀ n, (data n).Like (data' n) → (data n).isComment → (data' n).isComment := by
    intro n hl hc
    revert hc
    generalize data n = x at hl
    generalize data' n = y at hl
    cases hl <;> intro hc
    · exact hc
    · exact hc.elim
    · exact hc.elim
  have hr := hd r (by simp)
  rw [h4] at hr
  have hr : ∃ bs, data' r = .element (h (nm! "html")) bs := by
    generalize data' r = y at hr
    cases hr
    · exact ⟨_, rfl⟩
    · exact ⟨_, rfl⟩
  obtain ⟨bs, hr⟩ := hr
  refine ⟨a, d, b, r, bs, rfl, fun n hn => hc n (hd n (by simp [hn])) (h1 n hn),
    fun n hn => hc n (hd n (by simp [hn])) (h2 n hn), ?_, hr⟩
  rcases h3 with h3 | ⟨n, e1, e2, e3⟩
  · exact Or.inl h3
  · refine Or.inr ⟨n, e1, ?_, e3⟩
    have hl := hd n (by simp [e1])
    revert e2
    generalize data n = x at hl
    generalize data' n = y at hl
    cases hl <;> intro e2
    · exact e2
    · exact e2.elim
    · exact e2.elim

/-- A child of the document is a comment, a document type, or an `html` element. -/
theorem Shape.kid {data : Nat → Data} {q : Bool} {l : List Nat} (hs : Shape data q l) {n : Nat}
    (hn : n ∈ l) : (data n).isComment ∨ (data n).isDoctype ∨
      ∃ as, data n = .element (h (nm! "html")) as := by
  obtain ⟨a, d, b, r, as, rfl, h1, h2, h3, h4⟩ := hs
  simp only [List.mem_append, List.mem_singleton] at hn
  rcases hn with ((hn | hn) | hn) | rfl
  · exact Or.inl (h1 n hn)
  · rcases h3 with ⟨rfl, _⟩ | ⟨m, rfl, e2, _⟩
    · exact absurd hn (by simp)
    · rw [List.mem_singleton] at hn
      subst hn
      exact Or.inr (Or.inl e2)
  · exact Or.inl (h2 n hn)
  · exact Or.inr (Or.inr ⟨as, h4⟩)

/-! ### The nodes change -/

theorem Like.element {a b : Data} (hl : a.Like b) : a.isElement → b.isElement := by
  cases hl <;> intro h
  · exact h
  · trivial
  · exact h.elim

theorem Like.back {a b : Data} (hl : a.Like b) : b.isDoctype → a.isDoctype := by
  cases hl <;> intro h
  · exact h
  · exact h.elim
  · exact h.elim

theorem Like.document {a b : Data} (hl : a.Like b) : b = .document ↔ a = .document := by
  cases hl
  · exact Iff.rfl
  · constructor <;> intro h <;> cases h
  · constructor <;> intro h <;> cases h

theorem Heap.like {data data' : Nat → Data} {kids : Nat → List Nat} {parent : Nat → Option Nat}
    {next : Nat} (hh : Heap data kids parent next) (hl : ∀ n, (data n).Like (data' n)) :
    Heap data' kids parent next where
  pos := hh.pos
  root := hh.root
  doc n hn := (Like.document (hl n)).trans (hh.doc n hn)
  up := hh.up
  zero := hh.zero
  once := hh.once
  bound := hh.bound
  inner n p hp := (hh.inner n p hp).imp id (Like.element (hl p))
  dtype n p hp hd := hh.dtype n p hp (Like.back (hl n) hd)

theorem Valid.like {data data' : Nat → Data} {next : Nat} {e : El}
    (hl : ∀ n, (data n).Like (data' n)) (hv : Valid data next e) : Valid data' next e := by
  refine ⟨hv.1, ?_⟩
  obtain ⟨as, ha⟩ := hv.2
  have := hl e.id
  rw [ha] at this
  generalize data' e.id = y at this
  cases this
  · exact ⟨_, rfl⟩
  · exact ⟨_, rfl⟩

theorem Refs.like {P : Src} {data data' : Nat → Data} {parent : Nat → Option Nat} {next : Nat}
    {head form : Option El} {st : List El} {es : List Entry}
    (hr : Refs P data parent next head form st es) (hl : ∀ n, (data n).Like (data' n)) :
    Refs P data' parent next head form st es where
  opened e he := (hr.opened e he).like hl
  low := hr.low
  once := hr.once
  listed e n as he :=
    let l := hr.listed e n as he
    ⟨l.valid.like hl, l.tag, l.name, l.other⟩
  head e he := ⟨(hr.head e he).1.like hl, (hr.head e he).2⟩
  form e he := (hr.form e he).like hl

theorem update_like {data : Nat → Data} {n : Nat} {d : Data} (h : (data n).Like d) (m : Nat) :
    (data m).Like (update data n d m) := by
  unfold update
  split
  case isTrue e => subst e; exact h
  case isFalse => exact .refl _

/-- The data of a node changes, not its kind. -/
theorem Sound.change {P : Src} {s : St} {n : Nat} {d : Data} (hs : Sound P s)
    (hl : (s.data n).Like d) (hd : n < s.next → P.data d) :
    Sound P { s with data := update s.data n d } := by
  refine ⟨⟨⟨hs.1.1.heap.like (update_like hl), hs.1.1.refs.like (update_like hl), ?_, hs.1.1.pending⟩,
    hs.1.2.congr fun m _ => update_like hl m⟩, hs.2⟩
  intro m hm
  show P.data (update s.data n d m)
  unfold update
  split
  case isTrue e => subst e; exact hd hm
  case isFalse => exact hs.1.1.src m hm

/-! ### The tree changes -/

theorem detach_same (s : St) (n : Nat) :
    (detach s n).data = s.data ∧ (detach s n).next = s.next ∧ (detach s n).head = s.head ∧
    (detach s n).form = s.form ∧ (detach s n).stack = s.stack ∧
    (detach s n).entries = s.entries ∧ (detach s n).pending = s.pending ∧
    (detach s n).quirks = s.quirks ∧ (detach s n).mode = s.mode ∧ (detach s n).orig = s.orig := by
  unfold detach
  split
  · simp only [and_self]
  · simp only [and_self]

theorem detach_heap {s : St} (hh : Heap s.data s.kids s.parent s.next) {n : Nat}
    (h0 : s.parent n ≠ some 0) :
    Heap s.data (detach s n).kids (detach s n).parent s.next ∧
    (detach s n).parent n = none ∧ (∀ p, n ∉ (detach s n).kids p) ∧
    (detach s n).kids 0 = s.kids 0 ∧
    (∀ m, m ≠ n → (detach s n).parent m = s.parent m) := by
  unfold detach
  split
  case h_1 hp =>
    refine ⟨hh, hp, ?_, rfl, fun _ _ => rfl⟩
    intro p hm
    rw [hh.up n p hm] at hp
    cases hp
  case h_2 p hp =>
    have hp0 : p ≠ 0 := by intro e; subst e; exact h0 hp
    have hne : n ≠ 0 := by intro e; subst e; rw [hh.root] at hp; cases hp
    have hpar : ∀ m q, update s.parent n none m = some q → m ≠ n ∧ s.parent m = some q := by
      intro m q hm
      unfold update at hm
      split at hm
      case isTrue => cases hm
      case isFalse hmn => exact ⟨hmn, hm⟩
    have hkid : ∀ m q, m ∈ update s.kids p ((s.kids p).filter (· ≠ n)) q → m ≠ n ∧ m ∈ s.kids q := by
      intro m q hm
      unfold update at hm
      split at hm
      case isTrue e =>
        subst e
        rw [List.mem_filter] at hm
        exact ⟨by simpa using hm.2, hm.1⟩
      case isFalse e =>
        refine ⟨?_, hm⟩
        intro e'
        subst e'
        rw [hh.up m q hm] at hp
        cases hp
        exact e rfl
    refine ⟨⟨hh.pos, ?_, hh.doc, ?_, ?_, ?_, ?_, ?_, ?_⟩, ?_, ?_, ?_, ?_⟩
    · show update s.parent n none 0 = none
      rw [update, if_neg (Ne.symm hne)]
      exact hh.root
    · intro m q hm
      obtain ⟨h1, h2⟩ := hkid m q hm
      show update s.parent n none m = some q
      rw [update, if_neg h1]
      exact hh.up m q h2
    · intro m hm
      show m ∈ update s.kids p _ 0
      rw [update, if_neg (Ne.symm hp0)]
      exact hh.zero m (hpar m 0 hm).2
    · intro q
      show (update s.kids p ((s.kids p).filter (· ≠ n)) q).Nodup
      unfold update
      split
      · exact (hh.once p).filter _
      · exact hh.once q
    · intro m q hm
      exact hh.bound m q (hpar m q hm).2
    · intro m q hm
      exact hh.inner m q (hpar m q hm).2
    · intro m q hm
      exact hh.dtype m q (hpar m q hm).2
    · show update s.parent n none n = none
      rw [update, if_pos rfl]
    · intro q hm
      exact (hkid n q hm).1 rfl
    · show update s.kids p _ 0 = s.kids 0
      rw [update, if_neg (Ne.symm hp0)]
    · intro m hm
      show update s.parent n none m = s.parent m
      rw [update, if_neg hm]

theorem Refs.parents {P : Src} {data : Nat → Data} {parent parent' : Nat → Option Nat} {next : Nat}
    {head form : Option El} {st : List El} {es : List Entry}
    (hr : Refs P data parent next head form st es)
    (hp : ∀ n, parent' n = some 0 → parent n = some 0) :
    Refs P data parent' next head form st es where
  opened := hr.opened
  low e he := fun h => hr.low e he (hp _ h)
  once := hr.once
  listed := hr.listed
  head := hr.head
  form := hr.form

theorem Sound.detach {P : Src} {s : St} (hs : Sound P s) {n : Nat} (h0 : s.parent n ≠ some 0) :
    Sound P (detach s n) := by
  obtain ⟨e1, e2, e3, e4, e5, e6, e7, e8, e9, e10⟩ := detach_same s n
  obtain ⟨g1, g2, g3, g4, g5⟩ := detach_heap hs.1.1.heap h0
  refine ⟨⟨⟨?_, ?_, ?_, ?_⟩, ?_⟩, ?_⟩
  · rw [e1, e2]; exact g1
  · rw [e1, e2, e3, e4, e5, e6]
    refine hs.1.1.refs.parents ?_
    intro m hm
    by_cases e : m = n
    · subst e; rw [g2] at hm; cases hm
    · rw [← g5 m e]; exact hm
  · rw [e1, e2]; exact hs.1.1.src
  · rw [e7]; exact hs.1.1.pending
  · rw [e1, e8, g4]; exact hs.1.2
  · rw [e9, e10]; exact hs.2

/-- The children of an element are given a node that is nobody's child. -/
theorem Sound.adopt {P : Src} {s : St} (hs : Sound P s) {n p : Nat} {l : List Nat}
    (hn : n < s.next) (hn0 : n ≠ 0) (hd : ¬ (s.data n).isDoctype)
    (hp : p < s.next) (hp0 : p ≠ 0) (he : (s.data p).isElement)
    (ho : ∀ q, n ∉ s.kids q) (hl : ∀ m ∈ l, m = n ∨ m ∈ s.kids p) (hnd : l.Nodup)
    (h0 : s.parent n = none) :
    Sound P { s with kids := update s.kids p l, parent := update s.parent n (some p) } := by
  have hh := hs.1.1.heap
  have hpar : ∀ m q, update s.parent n (some p) m = some q →
      (m = n ∧ q = p) ∨ (m ≠ n ∧ s.parent m = some q) := by
    intro m q hm
    unfold update at hm
    split at hm
    case isTrue e => cases hm; exact Or.inl ⟨e, rfl⟩
    case isFalse e => exact Or.inr ⟨e, hm⟩
  refine ⟨⟨⟨⟨hh.pos, ?_, hh.doc, ?_, ?_, ?_, ?_, ?_, ?_⟩, ?_, hs.1.1.src, hs.1.1.pending⟩, ?_⟩, hs.2⟩
  · show update s.parent n (some p) 0 = none
    rw [update, if_neg (Ne.symm hn0)]
    exact hh.root
  · intro m q hm
    have hm' : m ∈ update s.kids p l q := hm
    show update s.parent n (some p) m = some q
    unfold update at hm' ⊢
    split at hm'
    case isTrue e =>
      subst e
      rcases hl m hm' with e | e
      · rw [if_pos e]
      · rw [if_neg (by intro e'; subst e'; exact ho _ e)]
        exact hh.up m q e
    case isFalse e =>
      rw [if_neg (by intro e'; subst e'; exact ho _ hm')]
      exact hh.up m q hm'
  · intro m hm
    show m ∈ update s.kids p l 0
    rw [update, if_neg (Ne.symm hp0)]
    rcases hpar m 0 hm with ⟨_, e⟩ | ⟨_, e⟩
    · exact absurd e.symm hp0
    · exact hh.zero m e
  · intro q
    show (update s.kids p l q).Nodup
    unfold update
    split
    · exact hnd
    · exact hh.once q
  · intro m q hm
    rcases hpar m q hm with ⟨e1, e2⟩ | ⟨_, e⟩
    · subst e1; subst e2; exact ⟨hn, hp⟩
    · exact hh.bound m q e
  · intro m q hm
    rcases hpar m q hm with ⟨e1, e2⟩ | ⟨_, e⟩
    · subst e1; subst e2; exact Or.inr he
    · exact hh.inner m q e
  · intro m q hm hdt
    rcases hpar m q hm with ⟨e1, e2⟩ | ⟨_, e⟩
    · subst e1; exact absurd hdt hd
    · exact hh.dtype m q e hdt
  · refine hs.1.1.refs.parents ?_
    intro m hm
    rcases hpar m 0 hm with ⟨_, e⟩ | ⟨_, e⟩
    · exact absurd e.symm hp0
    · exact e
  · show Shape s.data s.quirks (update s.kids p l 0)
    rw [update, if_neg (Ne.symm hp0)]
    exact hs.1.2

/-- What may be put somewhere, and where. -/
structure Loose (s : St) (n : Nat) : Prop where
  lt : n < s.next
  pos : n ≠ 0
  kind : ¬ (s.data n).isDoctype
  free : s.parent n ≠ some 0

structure Spot (s : St) (p : Nat) : Prop where
  lt : p < s.next
  pos : p ≠ 0
  kind : (s.data p).isElement

theorem Sound.append {P : Src} {s : St} (hs : Sound P s) {n p : Nat} (hn : Loose s n)
    (hp : Spot s p) : Sound P (append s p n) := by
  obtain ⟨e1, e2, _⟩ := detach_same s n
  obtain ⟨_, g2, g3, _, _⟩ := detach_heap hs.1.1.heap hn.free
  have h1 := hs.detach hn.free
  refine h1.adopt (by rw [e2]; exact hn.lt) hn.pos (by rw [e1]; exact hn.kind) (by rw [e2]; exact hp.lt)
    hp.pos (by rw [e1]; exact hp.kind) g3 ?_ ?_ g2
  · intro m hm
    rw [List.mem_append, List.mem_singleton] at hm
    exact hm.symm
  · rw [List.nodup_append]
    refine ⟨h1.1.1.heap.once p, List.nodup_cons.mpr ⟨by simp, List.nodup_nil⟩, ?_⟩
    intro a ha b hb e
    rw [List.mem_singleton] at hb
    subst e; subst hb
    exact g3 p ha

theorem Sound.insertBefore {P : Src} {s : St} (hs : Sound P s) {n p c : Nat} (hn : Loose s n)
    (hp : Spot s p) : Sound P (insertBefore s p n c) := by
  obtain ⟨e1, e2, _⟩ := detach_same s n
  obtain ⟨_, g2, g3, _, _⟩ := detach_heap hs.1.1.heap hn.free
  have h1 := hs.detach hn.free
  exact h1.adopt (by rw [e2]; exact hn.lt) hn.pos (by rw [e1]; exact hn.kind) (by rw [e2]; exact hp.lt)
    hp.pos (by rw [e1]; exact hp.kind) g3 (fun m hm => putBefore_mem hm)
    (putBefore_nodup (h1.1.1.heap.once p) (g3 p)) g2

theorem Sound.insert {P : Src} {s : St} (hs : Sound P s) {n : Nat} {p : Place} (hn : Loose s n)
    (hp : Spot s p.parent) : Sound P (p.insert s n) := by
  unfold Place.insert
  split
  · exact hs.insertBefore hn hp
  · exact hs.append hn hp

/-! ### New nodes -/

theorem Valid.lt {data : Nat → Data} {next : Nat} {e : El} (h : Valid data next e) : e.id < next := h.1

theorem Heap.ne_zero {data : Nat → Data} {kids : Nat → List Nat} {parent : Nat → Option Nat} {next : Nat}
    (hh : Heap data kids parent next) {n : Nat} (he : (data n).isElement) : n ≠ 0 := by
  intro e
  subst e
  rw [(hh.doc 0 hh.pos).mpr rfl] at he
  exact he

theorem Sound.spot {P : Src} {s : St} (hs : Sound P s) {e : El} (hv : Valid s.data s.next e) :
    Spot s e.id := by
  obtain ⟨h1, as, h2⟩ := hv
  have : (s.data e.id).isElement := by rw [h2]; trivial
  exact ⟨h1, hs.1.1.heap.ne_zero this, this⟩

theorem Sound.loose {P : Src} {s : St} (hs : Sound P s) {e : El} (hv : Valid s.data s.next e)
    (hp : s.parent e.id ≠ some 0) : Loose s e.id := by
  have := hs.spot hv
  refine ⟨this.lt, this.pos, ?_, hp⟩
  obtain ⟨h1, as, h2⟩ := hv
  rw [h2]
  exact id

theorem update_ne {α : Type} {f : Nat → α} {n m : Nat} {v : α} (h : m ≠ n) : update f n v m = f m := by
  rw [update, if_neg h]

theorem update_eq {α : Type} {f : Nat → α} {n : Nat} {v : α} : update f n v n = v := by
  rw [update, if_pos rfl]

theorem Valid.alloc {s : St} {d : Data} {e : El} (hv : Valid s.data s.next e) :
    Valid (alloc s d).1.data (alloc s d).1.next e := by
  refine ⟨Nat.lt_succ_of_lt hv.1, ?_⟩
  obtain ⟨as, ha⟩ := hv.2
  exact ⟨as, (update_ne (Nat.ne_of_lt hv.1)).trans ha⟩

theorem Sound.alloc {P : Src} {s : St} (hs : Sound P s) {d : Data} (hd : P.data d)
    (hk : d ≠ .document) : Sound P (alloc s d).1 := by
  have hh := hs.1.1.heap
  have hr := hs.1.1.refs
  have hnone : s.parent s.next = none := by
    cases hp : s.parent s.next with
    | none => rfl
    | some p => exact absurd (hh.bound _ _ hp).1 (Nat.lt_irrefl _)
  have hpar : update s.parent s.next none = s.parent := by
    funext m
    unfold update
    split
    case isTrue e => rw [e, hnone]
    case isFalse => rfl
  have hkid : update s.kids s.next [] = s.kids := by
    funext m
    unfold update
    split
    case isTrue e =>
      subst e
      cases hk : s.kids s.next with
      | nil => rfl
      | cons x xs =>
        have := (hh.bound _ _ (hh.up x s.next (by rw [hk]; simp))).2
        exact absurd this (Nat.lt_irrefl _)
    case isFalse => rfl
  refine ⟨⟨⟨?_, ?_, ?_, hs.1.1.pending⟩, ?_⟩, hs.2⟩
  · show Heap (update s.data s.next d) (update s.kids s.next []) (update s.parent s.next none) (s.next + 1)
    rw [hpar, hkid]
    refine ⟨Nat.succ_pos _, hh.root, ?_, hh.up, hh.zero, hh.once, ?_, ?_, ?_⟩
    · intro n hn
      by_cases e : n = s.next
      · subst e
        rw [update_eq]
        exact ⟨fun h => absurd h hk, fun h => absurd h (Nat.pos_iff_ne_zero.mp hh.pos)⟩
      · rw [update_ne e]
        exact hh.doc n (by omega)
    · intro n p hp
      have := hh.bound n p hp
      exact ⟨Nat.lt_succ_of_lt this.1, Nat.lt_succ_of_lt this.2⟩
    · intro n p hp
      rw [update_ne (Nat.ne_of_lt (hh.bound n p hp).2)]
      exact hh.inner n p hp
    · intro n p hp
      rw [update_ne (Nat.ne_of_lt (hh.bound n p hp).1)]
      exact hh.dtype n p hp
  · show Refs P (update s.data s.next d) (update s.parent s.next none) (s.next + 1) s.head s.form s.stack s.entries
    rw [hpar]
    exact ⟨fun e he => (hr.opened e he).alloc, hr.low, hr.once,
      fun e n as he => let l := hr.listed e n as he; ⟨l.valid.alloc, l.tag, l.name, l.other⟩,
      fun e he => ⟨(hr.head e he).1.alloc, (hr.head e he).2⟩, fun e he => (hr.form e he).alloc⟩
  · intro n hn
    show P.data (update s.data s.next d n)
    by_cases e : n = s.next
    · subst e; rw [update_eq]; exact hd
    · rw [update_ne e]
      have : n < s.next + 1 := hn
      exact hs.1.1.src n (by omega)
  · show Shape (update s.data s.next d) s.quirks (update s.kids s.next [] 0)
    rw [hkid]
    refine hs.1.2.congr ?_
    intro n hn
    rw [update_ne (Nat.ne_of_lt (hh.bound n 0 (hh.up n 0 hn)).1)]
    exact .refl _

theorem Sound.fresh {P : Src} {s : St} (hs : Sound P s) {d : Data} (hk : ¬ d.isDoctype) :
    Loose (Tree.alloc s d).1 s.next := by
  refine ⟨Nat.lt_succ_self _, Nat.pos_iff_ne_zero.mp hs.1.1.heap.pos, ?_, ?_⟩
  · show ¬ (update s.data s.next d s.next).isDoctype
    rw [update_eq]; exact hk
  · show update s.parent s.next none s.next ≠ some 0
    rw [update_eq]
    exact nofun

theorem Spot.alloc {s : St} {d : Data} {p : Nat} (hp : Spot s p) : Spot (alloc s d).1 p := by
  refine ⟨Nat.lt_succ_of_lt hp.lt, hp.pos, ?_⟩
  show (update s.data s.next d p).isElement
  rw [update_ne (Nat.ne_of_lt hp.lt)]
  exact hp.kind

/-! ### Places -/

theorem mem_dropWhile {α : Type} {p : α → Bool} {l : List α} {x : α} (h : x ∈ l.dropWhile p) : x ∈ l :=
  (List.dropWhile_sublist p).mem h

theorem fromLast_name {s : St} {name : Str} {e : El} {r : List El} (hf : fromLast s name = e :: r) :
    e.q = h name ∧ e ∈ s.stack ∧ ∀ x ∈ r, x ∈ s.stack := by
  unfold fromLast at hf
  refine ⟨?_, mem_dropWhile (p := (·.q != h name)) (by rw [hf]; simp), fun x hx =>
    mem_dropWhile (p := (·.q != h name)) (by rw [hf]; simp [hx])⟩
  have := List.head?_dropWhile_not (fun e : El => e.q != h name) s.stack
  rw [hf] at this
  simpa using this

theorem Sound.parent_spot {P : Src} {s : St} (hs : Sound P s) {e : El} {p : Nat}
    (hv : Valid s.data s.next e) (hq : e.q ≠ h (nm! "html")) (hp : s.parent e.id = some p) :
    Spot s p := by
  have hh := hs.1.1.heap
  have hp0 : p ≠ 0 := by
    intro e0
    subst e0
    have hk := hs.1.2.kid (hh.zero e.id hp)
    obtain ⟨_, as, ha⟩ := hv
    rw [ha] at hk
    rcases hk with hk | hk | ⟨bs, hk⟩
    · exact hk
    · exact hk
    · injection hk with hk _
      exact hq hk
  refine ⟨(hh.bound _ _ hp).2, hp0, ?_⟩
  rcases hh.inner _ _ hp with h | h
  · exact absurd h hp0
  · exact h

theorem Sound.placeTable {P : Src} {s : St} (hs : Sound P s) {l : List El}
    (hm : ∀ x ∈ l, x ∈ s.stack) (hq : ∀ e r, l = e :: r → e.q = h (nm! "table")) :
    Post (fun p => Spot s p.parent) (place.placeTable s l) := by
  unfold place.placeTable
  split
  case h_1 =>
    split
    case h_1 => exact Post.error _
    case h_2 b hb => exact Post.ok (hs.spot (hs.1.1.refs.opened b (List.mem_of_getLast? hb)))
  case h_2 tb below =>
    have hv := hs.1.1.refs.opened tb (hm tb (by simp))
    split
    case h_1 p hp =>
      refine Post.ok (hs.parent_spot hv ?_ hp)
      rw [hq tb below rfl]
      decide
    case h_2 =>
      split
      case h_1 => exact Post.error _
      case h_2 e r => exact Post.ok (hs.spot (hs.1.1.refs.opened e (hm e (by simp))))

theorem current_mem (s : St) : Post (fun e => e ∈ s.stack) (current s) := by
  unfold current
  split
  case h_1 => exact Post.error _
  case h_2 e r hs => exact Post.ok (by rw [hs]; simp)

theorem Sound.place {P : Src} {s : St} (hs : Sound P s) {t : Option El}
    (ht : ∀ e, t = some e → Valid s.data s.next e) :
    Post (fun p => Spot s p.parent) (place s t) := by
  unfold Tree.place
  refine Post.bind _ (current_mem s) fun cur hc => ?_
  refine Post.ite ?_ (Post.ok ?_)
  · split
    case h_1 _ _ tp tps htp =>
      have h1 := fromLast_name htp
      refine Post.ite (Post.ok (hs.spot (hs.1.1.refs.opened tp h1.2.1))) ?_
      refine hs.placeTable ?_ ?_
      · intro x hx
        exact mem_dropWhile hx
      · intro e r he
        exact (fromLast_name he).1
    case h_2 =>
      refine hs.placeTable ?_ ?_
      · intro x hx
        exact mem_dropWhile hx
      · intro e r he
        exact (fromLast_name he).1
  · cases t with
    | none => exact hs.spot (hs.1.1.refs.opened cur hc)
    | some e => exact hs.spot (ht e rfl)

end Verif.Tree
