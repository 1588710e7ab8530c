import Verif.Tree.Reach
import Verif.Html.Tags
/-
What the tokens allow in the tree, as an instance of the invariant.
-/
namespace Verif.Tree
open Verif.Html (Str Attr Content)
open Spec

/-! ### Names -/

theorem Spec.Alike.refl (a : Str) : Alike a a := rfl

theorem Spec.Alike.symm {a b : Str} (h : Alike a b) : Alike b a := Eq.symm h

theorem Spec.Alike.trans {a b c : Str} (h : Alike a b) (h' : Alike b c) : Alike a c := Eq.trans h h'

theorem cased_alike (table : List Str) (n : Str) : Alike n (cased table n) := by
  unfold cased
  cases hf : table.find? (eqCi · n) with
  | none => exact .refl n
  | some t =>
    have := List.find?_some hf
    rw [eqCi, beq_iff_eq] at this
    unfold Alike
    have e : (Verif.Html.toLower) = Char.toLower := funext Verif.Html.lower_char
    rw [e] at this
    exact this.symm

theorem Spec.Names.alike {t n n' : Str} (h : Names t n) (h' : Alike n n') : Names t n' := by
  rcases h with h | ⟨h1, h2⟩
  · exact Or.inl (h.trans h')
  · exact Or.inr ⟨h1, h'.symm.trans h2⟩

/-! ### Attributes -/

theorem putAttr_mem {k : Key} {v : Str} : ∀ {l : Attrs} {p : Key × Str}, p ∈ putAttr k v l →
    p = (k, v) ∨ p ∈ l := by
  intro l
  induction l with
  | nil => intro p h; rw [putAttr, List.mem_singleton] at h; exact Or.inl h
  | cons q r ih =>
    obtain ⟨k', v'⟩ := q
    intro p h
    rw [putAttr] at h
    split at h
    · rcases List.mem_cons.mp h with h | h
      · exact Or.inl h
      · exact Or.inr (List.mem_cons_of_mem _ h)
    · rcases List.mem_cons.mp h with h | h
      · exact Or.inr (by simp [h])
      · exact (ih h).imp id (List.mem_cons_of_mem _)

theorem putAttr_nodup {k : Key} {v : Str} : ∀ {l : Attrs}, (l.map (·.1)).Nodup →
    ((putAttr k v l).map (·.1)).Nodup := by
  intro l
  induction l with
  | nil => intro _; exact List.nodup_cons.mpr ⟨by simp, List.nodup_nil⟩
  | cons q r ih =>
    obtain ⟨k', v'⟩ := q
    intro h
    rw [List.map_cons, List.nodup_cons] at h
    rw [putAttr]
    split
    case isTrue e => subst e; exact List.nodup_cons.mpr h
    case isFalse e =>
      refine List.nodup_cons.mpr ⟨?_, ih h.2⟩
      intro hm
      obtain ⟨p, hp, e'⟩ := List.mem_map.mp hm
      rcases putAttr_mem hp with rfl | hp
      · exact e e'.symm
      · exact h.1 (List.mem_map.mpr ⟨p, hp, e'⟩)

theorem tokenAttrs_spec (as : List Attr) : ((tokenAttrs as).map (·.1)).Nodup ∧
    ∀ p ∈ tokenAttrs as, ∃ a ∈ as, p = (⟨false, a.name⟩, a.value) := by
  have key : ∀ (bs : List Attr) (l : Attrs), (∀ b ∈ bs, b ∈ as) → (l.map (·.1)).Nodup →
      (∀ p ∈ l, ∃ a ∈ as, p = (⟨false, a.name⟩, a.value)) →
      ((bs.foldl (fun l a => putAttr ⟨false, a.name⟩ a.value l) l).map (·.1)).Nodup ∧
      ∀ p ∈ bs.foldl (fun l a => putAttr ⟨false, a.name⟩ a.value l) l,
        ∃ a ∈ as, p = (⟨false, a.name⟩, a.value) := by
    intro bs
    induction bs with
    | nil => intro l _ h1 h2; exact ⟨h1, h2⟩
    | cons b bs ih =>
      intro l hb h1 h2
      rw [List.foldl_cons]
      refine ih _ (fun x hx => hb x (by simp [hx])) (putAttr_nodup h1) ?_
      intro p hp
      rcases putAttr_mem hp with rfl | hp
      · exact ⟨b, hb b (by simp), rfl⟩
      · exact h2 p hp
  exact key as [] (fun _ h => h) List.nodup_nil (by intro p h; cases h)

/-! ### What the tokens allow -/

def Attested (ts : List Tok) (n : Str) : Prop :=
  (∃ t bs, Opens ts t bs ∧ Names t n) ∨ ∃ t ∈ unwritten, Alike t n

def srcOf (ts : List Tok) : Src where
  tag n as := Attested ts n ∧ ∀ a ∈ as, ∃ t bs b, Opens ts t bs ∧ b ∈ bs ∧ Alike b.name a.name ∧
    b.value = a.value ∧ Names t n
  elem q as := From ts (.elem q.ns q.name as [])
  char c := Tok.char c ∈ ts ∨ (c = '�' ∧ Tok.char '\x00' ∈ ts)
  comment d := From ts (.comment d)
  doctype a b c := From ts (.doctype a b c)
  known := False

theorem Attested.alike {ts : List Tok} {n n' : Str} (h : Attested ts n) (h' : Alike n n') :
    Attested ts n' := by
  rcases h with ⟨t, bs, h1, h2⟩ | ⟨t, h1, h2⟩
  · exact Or.inl ⟨t, bs, h1, h2.alike h'⟩
  · exact Or.inr ⟨t, h1, h2.trans h'⟩

theorem not_image {t : Str} (h : Names t (nm! "image")) : Alike t (nm! "image") := by
  rcases h with h | ⟨_, h⟩
  · exact h
  · exact absurd h (by unfold Alike; decide)

theorem root_alike {t n : Str} (h : Names t n) (hn : n = nm! "html" ∨ n = nm! "body") :
    Alike t (nm! "html") ∨ Alike t (nm! "body") := by
  rcases h with h | ⟨_, h⟩
  · rcases hn with rfl | rfl
    · exact Or.inl h
    · exact Or.inr h
  · rcases hn with rfl | rfl
    · exact absurd h (by unfold Alike; decide)
    · exact absurd h (by unfold Alike; decide)

theorem casedAttrs_mem {as : List Attr} {a : Attr} (h : a ∈ casedAttrs as) :
    ∃ b ∈ as, Alike b.name a.name ∧ b.value = a.value := by
  obtain ⟨b, hb, rfl⟩ := List.mem_map.mp h
  exact ⟨b, hb, cased_alike _ _, rfl⟩

theorem srcOf_closed (ts : List Tok) : (srcOf ts).Closed where
  implied n hn := ⟨Or.inr ⟨n, hn, .refl n⟩, by intro a h; cases h⟩
  img as h := by
    obtain ⟨h1, h2⟩ := h
    have hi : ∀ {t}, Names t (nm! "image") → Names t (nm! "img") := fun h =>
      Or.inr ⟨not_image h, .refl _⟩
    refine ⟨?_, ?_⟩
    · rcases h1 with ⟨t, bs, h1, h2⟩ | ⟨t, h1, h2⟩
      · exact Or.inl ⟨t, bs, h1, hi h2⟩
      · have : ∀ t ∈ unwritten, ¬ Alike t (nm! "image") := by unfold Alike; decide
        exact absurd h2 (this t h1)
    · intro a ha
      obtain ⟨t, bs, b, g1, g2, g3, g4, g5⟩ := h2 a ha
      exact ⟨t, bs, b, g1, g2, g3, g4, hi g5⟩
  bare n as h := ⟨h.1, by intro a h; cases h⟩
  cased n as h := by
    refine ⟨h.1.alike (cased_alike _ _), ?_⟩
    intro a ha
    obtain ⟨c, hc, e1, e2⟩ := casedAttrs_mem ha
    obtain ⟨t, bs, b, g1, g2, g3, g4, g5⟩ := h.2 c hc
    exact ⟨t, bs, b, g1, g2, g3.trans e1, g4.trans e2, g5.alike (cased_alike _ _)⟩
  keys n as h := by
    refine ⟨h.1, ?_⟩
    intro a ha
    obtain ⟨c, hc, e1, e2⟩ := casedAttrs_mem ha
    obtain ⟨t, bs, b, g1, g2, g3, g4, g5⟩ := h.2 c hc
    exact ⟨t, bs, b, g1, g2, g3.trans e1, g4.trans e2, g5⟩
  made ns n as h := by
    obtain ⟨h1, h2⟩ := tokenAttrs_spec as
    refine ⟨h.1, h1, ?_⟩
    intro p hp
    obtain ⟨a, ha, rfl⟩ := h2 p hp
    obtain ⟨t, bs, b, g1, g2, g3, g4, g5⟩ := h.2 a ha
    exact ⟨t, bs, b, g1, g2, g3, g4, Or.inl g5⟩
  merged n bs b q as h hn hb he := by
    refine ⟨he.1, putAttr_nodup he.2.1, ?_⟩
    intro p hp
    rcases putAttr_mem hp with rfl | hp
    · obtain ⟨t, cs, c, g1, g2, g3, g4, g5⟩ := h.2 b hb
      exact ⟨t, cs, c, g1, g2, g3, g4, Or.inr (root_alike g5 hn)⟩
    · exact he.2.2 p hp
  nul h := by
    rcases h with h | ⟨h, _⟩
    · exact Or.inr ⟨rfl, h⟩
    · exact absurd h (by decide)

theorem srcOf_tok {ts : List Tok} {t : Tok} (ht : t ∈ ts) : (srcOf ts).tok t := by
  have htag : ∀ n as, Opens ts n as → (srcOf ts).tag n as := fun n as h =>
    ⟨Or.inl ⟨n, as, h, Or.inl (.refl n)⟩, fun a ha =>
      ⟨n, as, a, h, ha, .refl _, rfl, Or.inl (.refl n)⟩⟩
  cases t with
  | opens n as f => exact htag n as ⟨f, Or.inl ht⟩
  | closes n as f =>
    intro e
    exact htag n as ⟨f, Or.inr ⟨e, ht⟩⟩
  | comment d => exact ht
  | char c => exact Or.inl ht
  | doctype a b c => exact ⟨a, b, c, ht, rfl, rfl, rfl⟩
  | eof => trivial

/-! ### The tree -/

theorem view_from {ts : List Tok} {s : St} (hs : Sound (srcOf ts) s) {l : List Nat} {n k : Nat}
    (hw : Way s l n) : From ts (view s (k + 1) n) := by
  have := hs.1.1.src n (Way.lt hs.1.1.heap hw)
  rw [view]
  revert this
  cases s.data n with
  | document => exact fun _ => trivial
  | doctype a b c => exact id
  | element q as => exact id
  | text d => exact fun h => h.2
  | comment d => exact id

/-- Below the children of the document there is no document type, no document, no empty text. -/
theorem view_inner {P : Src} {s : St} (hs : Sound P s) {l : List Nat} {n k : Nat}
    (hw : Way s l n) (hl : 1 < l.length) : (view s (k + 1) n).inner := by
  have hh := hs.1.1.heap
  obtain ⟨l', p, hp, hn, hl'⟩ : ∃ l' p, Way s l' p ∧ n ∈ s.kids p ∧ 0 < l'.length := by
    cases hw with
    | root => simp at hl
    | @step l p _ h hn =>
      refine ⟨l, p, h, hn, ?_⟩
      rw [List.length_append, List.length_singleton] at hl
      omega
  have hp0 : p ≠ 0 := by
    intro e
    subst e
    have := Way.unique hh hp .root
    subst this
    simp at hl'
  have hn0 : n ≠ 0 := by
    intro e
    subst e
    have := hh.up _ _ hn
    rw [hh.root] at this
    cases this
  have hlt := Way.lt hh hw
  have hsrc := hs.1.1.src n hlt
  rw [view]
  cases hd : s.data n with
  | document => exact absurd ((hh.doc n hlt).mp hd) hn0
  | doctype a b c => exact absurd (hh.dtype n p (hh.up _ _ hn) (by rw [hd]; trivial)) hp0
  | element q as => trivial
  | text d => rw [hd] at hsrc; exact hsrc.1
  | comment d => trivial

theorem comments_view {s : St} {k : Nat} : ∀ (l : List Nat), (∀ n ∈ l, (s.data n).isComment) →
    ∃ cs : List Str, l.map (view s (k + 1)) = cs.map .comment
  | [], _ => ⟨[], rfl⟩
  | n :: l, h => by
    obtain ⟨cs, e⟩ := comments_view (k := k) l fun x hx => h x (by simp [hx])
    have hc := h n (by simp)
    cases hd : s.data n with
    | comment d =>
      refine ⟨d :: cs, ?_⟩
      rw [List.map_cons, List.map_cons, e, view, hd]
    | _ => rw [hd] at hc; exact hc.elim

theorem shape_top {s : St} (hd : s.data 0 = .document) (hsh : Shape s.data s.quirks (s.kids 0)) (k : Nat) :
    Top s.quirks (view s (k + 2) 0) := by
  obtain ⟨a, d, b, r, as, e, h1, h2, h3, h4⟩ := hsh
  obtain ⟨ca, ea⟩ := comments_view (k := k) a h1
  obtain ⟨cb, eb⟩ := comments_view (k := k) b h2
  refine ⟨ca, d.map (view s (k + 1)), cb, as, (s.kids r).map (view s k), ?_, ?_⟩
  · rw [view, hd]
    dsimp only
    rw [e, List.map_append, List.map_append, List.map_append, ea, eb, List.map_singleton]
    congr 2
    rw [view, h4]
    rfl
  · rcases h3 with ⟨rfl, h3⟩ | ⟨n, rfl, h3, h5⟩
    · exact Or.inl ⟨rfl, h3⟩
    · cases hn : s.data n with
      | doctype x y z => exact Or.inr ⟨x, y, z, by rw [List.map_singleton, view, hn], h5⟩
      | _ => rw [hn] at h3; exact h3.elim

theorem two_nodes {P : Src} {s : St} (hs : Sound P s) : 2 ≤ s.next := by
  obtain ⟨a, d, b, r, as, e, -, -, -, -⟩ := hs.1.2
  have hr : r ∈ s.kids 0 := by rw [e]; simp
  have := Way.length hs.1.1.heap (.step .root hr)
  exact this

theorem sound_inside {P : Src} {s : St} (hs : Sound P s) {ks : List Tree}
    (he : tree s = .document ks) : ∀ t ∈ ks, ∀ x ∈ t.inside, x.inner := by
  have hh := hs.1.1.heap
  have h2 := two_nodes hs
  intro t ht x hx
  obtain ⟨k, hk⟩ : ∃ k, s.next = k + 2 := ⟨s.next - 2, by omega⟩
  have hd : s.data 0 = .document := (hh.doc 0 hh.pos).mpr rfl
  unfold tree at he
  rw [hk, view, hd] at he
  injection he with he
  rw [← he] at ht
  obtain ⟨n, hn, rfl⟩ := List.mem_map.mp ht
  have hw : Way s [0] n := .step .root hn
  have hin : ∀ ms : List Nat, (∀ m ∈ ms, m ∈ s.kids n) → x ∈ partsAll (ms.map (view s k)) → x.inner := by
    intro ms
    induction ms with
    | nil => intro _ h; cases h
    | cons m ms ih =>
      intro hm h
      rw [List.map_cons, partsAll, List.mem_append] at h
      rcases h with h | h
      · have hw' : Way s [0, n] m := .step hw (hm m (by simp))
        obtain ⟨l', m', k', g1, _, rfl, g4⟩ := parts_view hh k hw' (by simp; omega) x h
        refine view_inner hs g1 ?_
        rcases g4 with ⟨rfl, _⟩ | g4
        · simp
        · simp at g4; omega
      · exact ih (fun y hy => hm y (by simp [hy])) h
  rw [view] at hx
  cases hdn : s.data n with
  | document => rw [hdn] at hx; exact hin _ (fun _ h => h) hx
  | element q as => rw [hdn] at hx; exact hin _ (fun _ h => h) hx
  | doctype a b c => rw [hdn] at hx; cases hx
  | text d => rw [hdn] at hx; cases hx
  | comment d => rw [hdn] at hx; cases hx

theorem sound_from {ts : List Tok} {s : St} (hs : Sound (srcOf ts) s) : ∀ x ∈ (tree s).parts, From ts x := by
  intro x hx
  obtain ⟨l', m', k', g1, _, rfl, _⟩ := parts_view hs.1.1.heap s.next .root (by simp) x hx
  exact view_from hs g1

end Verif.Tree
