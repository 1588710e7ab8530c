import Verif.Tree.Steady
/-
The state before the root element, and the whole of a document.
-/
namespace Verif.Tree
open Verif.Html (Str Attr Content)

/-- What the document has before the root element. -/
def Prolog (data : Nat → Data) (quirks : Bool) (l : List Nat) : Prop :=
  ∃ a d b, l = a ++ d ++ b ∧ (∀ n ∈ a, (data n).isComment) ∧ (∀ n ∈ b, (data n).isComment) ∧
    ((d = [] ∧ quirks = true) ∨ ∃ n, d = [n] ∧ (data n).isDoctype ∧ quirks = false)

/-- The state before the root element. -/
structure Early (P : Src) (s : St) : Prop where
  heap : Heap s.data s.kids s.parent s.next
  src : ∀ n, n < s.next → P.data (s.data n)
  opened : s.stack = []
  entries : s.entries = []
  head : s.head = none
  form : s.form = none
  pending : s.pending = []
  phase : (s.mode = .initial ∧ ∀ n ∈ s.kids 0, (s.data n).isComment) ∨
    (s.mode = .beforeHtml ∧ Prolog s.data s.quirks (s.kids 0))

theorem early_start (P : Src) : Early P {} where
  heap := {
    pos := Nat.zero_lt_one
    root := rfl
    doc := fun n hn => ⟨fun _ => Nat.lt_one_iff.mp hn, fun _ => rfl⟩
    up := by intro n p h; cases h
    zero := by intro n h; cases h
    once := fun _ => List.nodup_nil
    bound := by intro n p h; cases h
    inner := by intro n p h; cases h
    dtype := by intro n p h; cases h }
  src _ _ := trivial
  opened := rfl
  entries := rfl
  head := rfl
  form := rfl
  pending := rfl
  phase := Or.inl ⟨rfl, by intro n h; cases h⟩

/-- A new child of the document. -/
def withKid (s : St) (d : Data) : St :=
  { s with
    data := update s.data s.next d
    kids := update s.kids 0 (s.kids 0 ++ [s.next])
    parent := update s.parent s.next (some 0)
    next := s.next + 1 }

section
variable {P : Src} {s : St} (hh : Heap s.data s.kids s.parent s.next)
include hh

theorem fresh_kids : s.kids s.next = [] := by
  cases hk : s.kids s.next with
  | nil => rfl
  | cons x xs =>
    exact absurd (hh.bound _ _ (hh.up x s.next (by rw [hk]; simp))).2 (Nat.lt_irrefl _)

theorem addToDocument_eq (d : Data) : addToDocument s d = withKid s d := by
  have hk : update s.kids s.next [] = s.kids := by
    funext m
    unfold update
    split
    case isTrue e => rw [e, fresh_kids hh]
    case isFalse => rfl
  have hp : ∀ v, update (update s.parent s.next none) s.next v = update s.parent s.next v := by
    intro v
    funext m
    unfold update
    split
    · rfl
    · rfl
  unfold addToDocument Tree.append detach
  dsimp only [alloc]
  rw [show update s.parent s.next none s.next = none from update_eq]
  dsimp only
  rw [hk, hp]
  rfl

theorem withKid_heap {d : Data} (hd : d ≠ .document) :
    Heap (withKid s d).data (withKid s d).kids (withKid s d).parent (withKid s d).next := by
  have hpos : s.next ≠ 0 := Nat.pos_iff_ne_zero.mp hh.pos
  have hpar : ∀ m q, update s.parent s.next (some 0) m = some q →
      (m = s.next ∧ q = 0) ∨ (m ≠ s.next ∧ s.parent m = some q) := by
    intro m q hm
    unfold update at hm
    split at hm
    case isTrue e => cases hm; exact Or.inl ⟨e, rfl⟩
    case isFalse e => exact Or.inr ⟨e, hm⟩
  have hnew : ∀ q, s.next ∉ s.kids q := fun q hq =>
    absurd (hh.bound _ _ (hh.up _ _ hq)).1 (Nat.lt_irrefl _)
  refine ⟨Nat.succ_pos _, ?_, ?_, ?_, ?_, ?_, ?_, ?_, ?_⟩
  · exact (update_ne hpos.symm).trans hh.root
  · intro n hn
    show update s.data s.next d n = .document ↔ n = 0
    by_cases e : n = s.next
    · subst e
      rw [update_eq]
      exact ⟨fun h => absurd h hd, fun h => absurd h hpos⟩
    · rw [update_ne e]
      have : n < s.next + 1 := hn
      exact hh.doc n (by omega)
  · intro n p hn
    have hn : n ∈ update s.kids 0 (s.kids 0 ++ [s.next]) p := hn
    show update s.parent s.next (some 0) n = some p
    by_cases e : n = s.next
    · subst e
      rw [update_eq]
      by_cases e' : p = 0
      · rw [e']
      · rw [update_ne e'] at hn
        exact absurd hn (hnew p)
    · rw [update_ne e]
      by_cases e' : p = 0
      · subst e'
        rw [update_eq, List.mem_append, List.mem_singleton] at hn
        exact hh.up n 0 (hn.resolve_right e)
      · rw [update_ne e'] at hn
        exact hh.up n p hn
  · intro n hn
    show n ∈ update s.kids 0 (s.kids 0 ++ [s.next]) 0
    rw [update_eq, List.mem_append, List.mem_singleton]
    rcases hpar n 0 hn with ⟨e, _⟩ | ⟨_, e⟩
    · exact Or.inr e
    · exact Or.inl (hh.zero n e)
  · intro p
    show (update s.kids 0 (s.kids 0 ++ [s.next]) p).Nodup
    by_cases e' : p = 0
    · subst e'
      rw [update_eq, List.nodup_append]
      refine ⟨hh.once 0, List.nodup_cons.mpr ⟨by simp, List.nodup_nil⟩, ?_⟩
      intro a ha b hb e
      rw [List.mem_singleton] at hb
      subst e; subst hb
      exact hnew 0 ha
    · rw [update_ne e']
      exact hh.once p
  · intro n p hn
    rcases hpar n p hn with ⟨e1, e2⟩ | ⟨_, e⟩
    · rw [e1, e2]
      exact ⟨Nat.lt_succ_self _, Nat.succ_pos _⟩
    · have := hh.bound n p e
      exact ⟨Nat.lt_succ_of_lt this.1, Nat.lt_succ_of_lt this.2⟩
  · intro n p hn
    rcases hpar n p hn with ⟨_, e⟩ | ⟨_, e⟩
    · exact Or.inl e
    · show p = 0 ∨ (update s.data s.next d p).isElement
      rw [update_ne (Nat.ne_of_lt (hh.bound n p e).2)]
      exact hh.inner n p e
  · intro n p hn hk
    rcases hpar n p hn with ⟨_, e⟩ | ⟨e', e⟩
    · exact e
    · refine hh.dtype n p e ?_
      have : (update s.data s.next d n).isDoctype := hk
      rwa [update_ne e'] at this

theorem kid_lt {p n : Nat} (hn : n ∈ s.kids p) : n < s.next := (hh.bound n p (hh.up n p hn)).1

end

theorem withKid_src {P : Src} {s : St} (h : ∀ n, n < s.next → P.data (s.data n)) {d : Data}
    (hd : P.data d) : ∀ n, n < (withKid s d).next → P.data ((withKid s d).data n) := by
  intro n hn
  show P.data (update s.data s.next d n)
  by_cases e : n = s.next
  · subst e; rw [update_eq]; exact hd
  · rw [update_ne e]
    have : n < s.next + 1 := hn
    exact h n (by omega)

theorem Prolog.congr {data data' : Nat → Data} {q : Bool} {l : List Nat} (h : Prolog data q l)
    (he : ∀ n ∈ l, data' n = data n) : Prolog data' q l := by
  obtain ⟨a, d, b, rfl, h1, h2, h3⟩ := h
  refine ⟨a, d, b, rfl, ?_, ?_, ?_⟩
  · intro n hn; rw [he n (by simp [hn])]; exact h1 n hn
  · intro n hn; rw [he n (by simp [hn])]; exact h2 n hn
  · refine h3.imp id ?_
    rintro ⟨n, e1, e2, e3⟩
    exact ⟨n, e1, by rw [he n (by simp [e1])]; exact e2, e3⟩

theorem Prolog.comment {data : Nat → Data} {q : Bool} {l : List Nat} (h : Prolog data q l) {n : Nat}
    (hn : (data n).isComment) : Prolog data q (l ++ [n]) := by
  obtain ⟨a, d, b, rfl, h1, h2, h3⟩ := h
  refine ⟨a, d, b ++ [n], by simp, h1, ?_, h3⟩
  intro m hm
  rw [List.mem_append, List.mem_singleton] at hm
  rcases hm with hm | rfl
  · exact h2 m hm
  · exact hn

theorem withKid_old {s : St} (hh : Heap s.data s.kids s.parent s.next) {d : Data} {n : Nat}
    (hn : n ∈ s.kids 0) : (withKid s d).data n = s.data n := update_ne (Nat.ne_of_lt (kid_lt hh hn))

theorem withKid_new {s : St} {d : Data} : (withKid s d).data s.next = d := update_eq

theorem withKid_kids {s : St} {d : Data} : (withKid s d).kids 0 = s.kids 0 ++ [s.next] :=
  update_eq (f := s.kids) (n := 0)

theorem withKid_prolog {s : St} (hh : Heap s.data s.kids s.parent s.next) {c : Str}
    (hp : Prolog s.data s.quirks (s.kids 0)) :
    Prolog (withKid s (.comment c)).data s.quirks ((withKid s (.comment c)).kids 0) := by
  rw [withKid_kids]
  refine Prolog.comment (hp.congr fun n hn => withKid_old hh hn) ?_
  rw [withKid_new]
  trivial

/-- Where the root element goes. -/
theorem Early.root {P : Src} {s : St} (hk : P.known → False) (hs : Early P s)
    (hp : Prolog s.data s.quirks (s.kids 0)) {as : Attrs} (he : P.elem (h (nm! "html")) as) :
    Sound P { withKid s (.element (h (nm! "html")) as) with
      stack := [⟨s.next, h (nm! "html")⟩], mode := .beforeHead } := by
  refine ⟨⟨⟨withKid_heap hs.heap nofun, ?_, withKid_src hs.src he, ?_⟩, ?_⟩, rfl, ?_⟩
  · refine ⟨?_, ?_, ?_, ?_, ?_, ?_⟩
    · intro e hm
      rw [List.mem_singleton] at hm
      subst hm
      exact ⟨Nat.lt_succ_self _, as, update_eq⟩
    · intro e hm; cases hm
    · show (List.filter _ [(⟨s.next, h (nm! "html")⟩ : El)]).Nodup
      exact (List.nodup_cons.mpr ⟨by simp, List.nodup_nil⟩).filter _
    · intro e n bs hm
      have hm : Entry.elem e n bs ∈ s.entries := hm
      rw [hs.entries] at hm
      cases hm
    · intro e hm
      have hm : s.head = some e := hm
      rw [hs.head] at hm
      cases hm
    · intro e hm
      have hm : s.form = some e := hm
      rw [hs.form] at hm
      cases hm
  · intro c hc
    have hc : c ∈ s.pending := hc
    rw [hs.pending] at hc
    cases hc
  · show Shape _ s.quirks _
    obtain ⟨a, d, b, e, h1, h2, h3⟩ := hp.congr (data' := (withKid s (.element (h (nm! "html")) as)).data)
      fun n hn => withKid_old hs.heap hn
    refine ⟨a, d, b, s.next, as, ?_, h1, h2, h3, update_eq⟩
    show (withKid s (.element (h (nm! "html")) as)).kids 0 = _
    rw [withKid_kids, e]
  · rintro (h | h | h)
    · exact (hk h).elim
    · cases h
    · cases h

/-- The state, early or not. -/
def Held (P : Src) (t : Tok) (s : St) : Prop := (Early P s ∧ t ≠ .eof) ∨ Sound P s

structure RecHeld (P : Src) (k : Rec) : Prop where
  accept : ∀ {s t}, Early P s → P.tok t → Post (Held P t) (k.accept s t)
  acceptIn : ∀ {s t}, Early P s → P.tok t → Post (Held P t) (k.acceptIn s.mode s t)

section
variable {P : Src} {k : Rec} (hP : P.Closed) (hn : P.known → False) (hk : RecSound P k)
  (hh : RecHeld P k)
include hP hn hk

theorem impliedHtml_held {s : St} {t : Tok} (hs : Early P s) (ht : P.tok t)
    (hp : Prolog s.data s.quirks (s.kids 0)) : Post (Held P t) (impliedHtml k s t) := by
  have he : impliedHtml k s t = k.accept { withKid s (.element (h (nm! "html")) (tokenAttrs [])) with
      stack := [⟨s.next, h (nm! "html")⟩], mode := .beforeHead } t := by
    show k.accept { addToDocument s (.element (h (nm! "html")) (tokenAttrs [])) with
      stack := ⟨s.next, h (nm! "html")⟩ :: (addToDocument s (.element (h (nm! "html")) (tokenAttrs []))).stack
      mode := .beforeHead } t = _
    rw [addToDocument_eq hs.heap]
    show k.accept { withKid s (.element (h (nm! "html")) (tokenAttrs [])) with
      stack := ⟨s.next, h (nm! "html")⟩ :: s.stack, mode := .beforeHead } t = _
    rw [hs.opened]
  rw [he]
  exact (hk.accept (hs.root hn hp (hP.made .html _ _ (hP.implied _ (by decide)))) ht).mono fun _ => Or.inr

theorem beforeHtml_held {s : St} {t : Tok} (hs : Early P s) (ht : P.tok t)
    (hp : Prolog s.data s.quirks (s.kids 0)) : Post (Held P t) (beforeHtml k s t) := by
  have hi := impliedHtml_held hP hn hk hs ht hp
  unfold beforeHtml
  cases t with
  | doctype a b c => exact hi
  | eof => exact hi
  | char c => exact Post.ite (Post.ok (Or.inl ⟨hs, nofun⟩)) hi
  | closes n as f => exact Post.ite hi (Post.ok (Or.inl ⟨hs, nofun⟩))
  | comment c =>
    dsimp only
    rw [addToDocument_eq hs.heap]
    refine impliedHtml_held hP hn hk ⟨withKid_heap hs.heap nofun, withKid_src hs.src ht, hs.opened,
      hs.entries, hs.head, hs.form, hs.pending, ?_⟩ ht (withKid_prolog hs.heap hp)
    rcases hs.phase with ⟨h1, h2⟩ | ⟨h1, _⟩
    · refine Or.inl ⟨h1, ?_⟩
      intro n hm
      rw [withKid_kids, List.mem_append, List.mem_singleton] at hm
      rcases hm with hm | rfl
      · rw [withKid_old hs.heap hm]; exact h2 n hm
      · rw [withKid_new]; trivial
    · exact Or.inr ⟨h1, withKid_prolog hs.heap hp⟩
  | opens n as f =>
    refine Post.iff ?_ (fun _ => hi)
    rintro rfl
    refine Post.ok (Or.inr ?_)
    show Sound P { addToDocument s (.element (h (nm! "html")) (tokenAttrs as)) with
      stack := ⟨s.next, h (nm! "html")⟩ :: (addToDocument s (.element (h (nm! "html")) (tokenAttrs as))).stack
      mode := .beforeHead }
    rw [addToDocument_eq hs.heap]
    show Sound P { withKid s (.element (h (nm! "html")) (tokenAttrs as)) with
      stack := ⟨s.next, h (nm! "html")⟩ :: s.stack, mode := .beforeHead }
    rw [hs.opened]
    exact hs.root hn hp (hP.made .html _ _ ht)

include hh
theorem initial_held {s : St} {t : Tok} (hs : Early P s) (ht : P.tok t)
    (hp : ∀ n ∈ s.kids 0, (s.data n).isComment) : Post (Held P t) (initial k s t) := by
  have hq : Post (Held P t) (k.accept { s with quirks := true, mode := .beforeHtml } t) :=
    hh.accept ⟨hs.heap, hs.src, hs.opened, hs.entries, hs.head, hs.form, hs.pending,
      Or.inr ⟨rfl, s.kids 0, [], [], by simp, hp, by simp, Or.inl ⟨rfl, rfl⟩⟩⟩ ht
  unfold initial
  cases t with
  | char c => exact Post.ite (Post.ok (Or.inl ⟨hs, nofun⟩)) hq
  | comment c =>
    dsimp only
    rw [addToDocument_eq hs.heap]
    refine Post.ok (Or.inl ⟨⟨withKid_heap hs.heap nofun, withKid_src hs.src ht, hs.opened,
      hs.entries, hs.head, hs.form, hs.pending, ?_⟩, nofun⟩)
    rcases hs.phase with ⟨h1, h2⟩ | ⟨h1, h2⟩
    · refine Or.inl ⟨h1, ?_⟩
      intro n hm
      rw [withKid_kids, List.mem_append, List.mem_singleton] at hm
      rcases hm with hm | rfl
      · rw [withKid_old hs.heap hm]; exact h2 n hm
      · rw [withKid_new]; trivial
    · exact Or.inr ⟨h1, withKid_prolog hs.heap h2⟩
  | doctype a b c =>
    dsimp only
    rw [addToDocument_eq hs.heap]
    refine Post.ok (Or.inl ⟨⟨withKid_heap hs.heap nofun, withKid_src hs.src ht, hs.opened,
      hs.entries, hs.head, hs.form, hs.pending, Or.inr ⟨rfl, ?_⟩⟩, nofun⟩)
    refine ⟨s.kids 0, [s.next], [], ?_, ?_, by simp, Or.inr ⟨s.next, rfl, ?_, rfl⟩⟩
    · show (withKid s (.doctype (a.getD []) (b.getD []) (c.getD []))).kids 0 = _
      rw [withKid_kids, List.append_nil]
    · intro n hm
      show ((withKid s _).data n).isComment
      rw [withKid_old hs.heap hm]; exact hp n hm
    · show ((withKid s _).data s.next).isDoctype
      rw [withKid_new]; trivial
  | _ => exact hq

theorem handle_held {s : St} {t : Tok} (hs : Early P s) (ht : P.tok t) :
    Post (Held P t) (handle k s.mode s t) := by
  rcases hs.phase with ⟨h1, h2⟩ | ⟨h1, h2⟩
  · rw [congrArg (handle k) h1]
    exact initial_held hP hn hk hh hs ht h2
  · rw [congrArg (handle k) h1]
    exact beforeHtml_held hP hn hk hs ht h2

omit hP hn hk in
theorem acceptStep_held {s : St} {t : Tok} (hs : Early P s) (ht : P.tok t) :
    Post (Held P t) (acceptStep k s t) := by
  have hs' : Early P { s with skipLf := false } :=
    ⟨hs.heap, hs.src, hs.opened, hs.entries, hs.head, hs.form, hs.pending, hs.phase⟩
  unfold acceptStep
  refine Post.iff ?_ fun _ => ?_
  · intro e
    refine Post.ok (Or.inl ⟨hs', ?_⟩)
    rintro rfl
    simp at e
  · have : forHtml { s with skipLf := false } t = true := by
      unfold forHtml
      rw [show ({ s with skipLf := false } : St).stack = [] from hs.opened]
    dsimp only
    rw [if_pos this]
    exact hh.acceptIn hs' ht

end

theorem run_held : ∀ (d : Nat) {P : Src}, P.Closed → (P.known → False) → RecHeld P (recOf d)
  | 0, _, _, _ => ⟨fun _ _ => Post.error _, fun _ _ => Post.error _⟩
  | d + 1, _, hP, hn =>
    ⟨fun hs ht => acceptStep_held (run_held d hP hn) hs ht,
     fun hs ht => handle_held hP hn (run_sound d hP) (run_held d hP hn) hs ht⟩

theorem feed_held {P : Src} (hP : P.Closed) (hn : P.known → False) {d : Nat} {s : St} {t u : Tok}
    (hs : Held P u s) (ht : P.tok t) : Post (Held P t) (feed d s t) := by
  rcases hs with ⟨hs, _⟩ | hs
  · exact (run_held d hP hn).accept (s := { s with lexer := none })
      ⟨hs.heap, hs.src, hs.opened, hs.entries, hs.head, hs.form, hs.pending, hs.phase⟩ ht
  · exact ((run_sound d hP).accept (s := { s with lexer := none }) hs ht).mono fun _ => Or.inr

/-- **The tree builder keeps its invariant.** -/
theorem build_held {P : Src} (hP : P.Closed) (hn : P.known → False) {d : Nat} :
    ∀ (ts : List Tok) (u : Tok) {s : St}, Held P u s → (∀ t ∈ ts, P.tok t) →
      Post (Held P ((u :: ts).getLast (by simp))) (build d s ts)
  | [], u, s, hs, _ => Post.ok hs
  | t :: ts, u, s, hs, ht => by
    rw [build]
    refine Post.bind _ (feed_held hP hn hs (ht t (by simp))) fun s' hs' => ?_
    rw [List.getLast_cons (by simp)]
    exact build_held hP hn ts t hs' fun x hx => ht x (by simp [hx])

/-- A list of tokens that ends with the end of the file. -/
theorem build_sound {P : Src} (hP : P.Closed) (hn : P.known → False) {d : Nat} {ts : List Tok}
    (ht : ∀ t ∈ ts, P.tok t) {s : St} (hb : build d {} (ts ++ [.eof]) = .ok s) : Sound P s := by
  have := build_held hP hn (d := d) (ts ++ [.eof]) (.char 'a') (s := {})
    (Or.inl ⟨early_start P, nofun⟩) ?_ s hb
  · rw [List.getLast_cons (by simp), List.getLast_concat] at this
    rcases this with ⟨_, h⟩ | h
    · exact absurd rfl h
    · exact h
  · intro t hm
    rw [List.mem_append, List.mem_singleton] at hm
    rcases hm with hm | rfl
    · exact ht t hm
    · trivial

end Verif.Tree
