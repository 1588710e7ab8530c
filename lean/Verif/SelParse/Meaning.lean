import Verif.SelParse.Spec
import Verif.Selector.Correct
/-!
# Selectors that say the same
-/
namespace Verif.SelParse
open Verif.Dom (Kids InSubtree)
open Verif.Selector
open Spec (allOf anyOf chain)

/-- What is read, against what is meant: the same meaning in every tree, the same specificity, with
every argument in place, and no `+` that was not there. -/
structure Rel (s s' : Selector) : Prop where
  means : ∀ (k : Kids) data, (∀ c p q, c ∈ k p → c ∈ k q → p = q) → ∀ n e pe, Means k data s n e pe ↔ Means k data s' n e pe
  complete : s.Complete
  adj : s'.NoAdjacent → s.NoAdjacent
  spec : spec s = spec s'

inductive Rels : List Selector → List Selector → Prop
  | nil : Rels [] []
  | cons {s s' l l'} : Rel s s' → Rels l l' → Rels (s :: l) (s' :: l')

theorem Rel.refl {s : Selector} (h : s.Complete) : Rel s s := ⟨fun _ _ _ _ _ _ => Iff.rfl, h, id, rfl⟩

theorem Rel.trans {a b c : Selector} (h : Rel a b) (h' : Rel b c) : Rel a c :=
  ⟨fun k d hk n e pe => (h.means k d hk n e pe).trans (h'.means k d hk n e pe), h.complete, fun x => h.adj (h'.adj x),
    h.spec.trans h'.spec⟩

theorem Rels.append {a a' b b' : List Selector} (h : Rels a a') (h' : Rels b b') : Rels (a ++ b) (a' ++ b') := by
  induction h with
  | nil => exact h'
  | cons h _ ih => exact .cons h ih

theorem Rels.length {a b : List Selector} (h : Rels a b) : a.length = b.length := by
  induction h with
  | nil => rfl
  | cons _ _ ih => simp [ih]

theorem Rels.refl {l : List Selector} (h : ∀ s ∈ l, s.Complete) : Rels l l := by
  induction l with
  | nil => exact .nil
  | cons s l ih => exact .cons (.refl (h s (by simp))) (ih fun x hx => h x (by simp [hx]))

theorem Rels.left {l l' : List Selector} (h : Rels l l') : ∀ s ∈ l, s.Complete := by
  induction h with
  | nil => simp
  | cons h _ ih =>
    intro s hs
    rcases List.mem_cons.mp hs with rfl | hs
    · exact h.complete
    · exact ih s hs

theorem Rels.means {l l' : List Selector} (h : Rels l l') (k : Kids) (data) (hk : ∀ c p q, c ∈ k p → c ∈ k q → p = q) (n e pe) :
    (MeansAll k data l n e pe ↔ MeansAll k data l' n e pe) ∧ (MeansSome k data l n e pe ↔ MeansSome k data l' n e pe) := by
  induction h with
  | nil => simp [MeansAll, MeansSome]
  | cons h _ ih => simp only [MeansAll, MeansSome, h.means k data hk, ih.1, ih.2, and_self]

theorem Rels.complete {l l' : List Selector} (h : Rels l l') : AllComplete l := by
  induction h with
  | nil => simp [AllComplete]
  | cons h _ ih => simp only [AllComplete]; exact ⟨h.complete, ih⟩

theorem Rels.adj {l l' : List Selector} (h : Rels l l') (ha : AllNoAdjacent l') : AllNoAdjacent l := by
  induction h with
  | nil => simp [AllNoAdjacent]
  | cons h _ ih => simp only [AllNoAdjacent] at ha ⊢; exact ⟨h.adj ha.1, ih ha.2⟩

theorem Rels.spec {l l' : List Selector} (h : Rels l l') : specList l = specList l' := by
  induction h with
  | nil => rfl
  | cons h _ ih => simp only [specList, h.spec, ih]

theorem Rel.and {l l' : List Selector} (h : Rels l l') : Rel (.and l) (.and l') :=
  ⟨fun k d hk n e pe => by simp only [Means]; exact (h.means k d hk n e pe).1, by simp only [Selector.Complete]; exact h.complete,
    fun ha => by simp only [Selector.NoAdjacent] at ha ⊢; exact h.adj ha, by simp only [Verif.Selector.spec]; exact h.spec⟩

theorem Rel.or {l l' : List Selector} (h : Rels l l') : Rel (.or l) (.or l') :=
  ⟨fun k d hk n e pe => by simp only [Means]; exact (h.means k d hk n e pe).2, by simp only [Selector.Complete]; exact h.complete,
    fun ha => by simp only [Selector.NoAdjacent] at ha ⊢; exact h.adj ha, by simp only [Verif.Selector.spec]; exact h.spec⟩

theorem Rel.not {s s' : Selector} (h : Rel s s') : Rel (.not s) (.not s') :=
  ⟨fun k d hk n e pe => by simp only [Means, h.means k d hk], by simp only [Selector.Complete]; exact h.complete,
    fun ha => by simp only [Selector.NoAdjacent] at ha ⊢; exact h.adj ha, by simp only [Verif.Selector.spec, h.spec]⟩

theorem Rel.infix {o : Comb} {l l' r r' : Selector} (h : Rel l l') (h' : Rel r r') : Rel (.infix o l r) (.infix o l' r') :=
  ⟨fun k d hk n e pe => by cases o <;> simp only [Means, h.means k d hk, h'.means k d hk],
    by simp only [Selector.Complete]; exact ⟨h.complete, h'.complete⟩,
    fun ha => by simp only [Selector.NoAdjacent] at ha ⊢; exact ⟨ha.1, h.adj ha.2.1, h'.adj ha.2.2⟩,
    by simp only [Verif.Selector.spec, h.spec, h'.spec]⟩

theorem nth_congr {k : Kids} {rev : Bool} {a : AnB} {P Q : Nat → Prop} (h : ∀ m, P m ↔ Q m) (n : Nat) :
    Nth k rev a P n ↔ Nth k rev a Q n := by
  have : P = Q := funext fun m => propext (h m)
  rw [this]

theorem Rel.nth {rev : Bool} {a : AnB} {s s' : Selector} (h : Rel s s') :
    Rel (.nthChild rev (some (a, some s))) (.nthChild rev (some (a, some s'))) :=
  ⟨fun k d hk n e pe => by simp only [Means, h.means k d hk], by simp only [Selector.Complete]; exact h.complete,
    fun ha => by simp only [Selector.NoAdjacent] at ha ⊢; exact h.adj ha, by simp only [Verif.Selector.spec]⟩

theorem Rel.allOf {l l' : List Selector} (h : Rels l l') : Rel (allOf l) (allOf l') := by
  cases h with
  | nil => exact .and .nil
  | cons h t =>
    cases t with
    | nil => exact h
    | cons h' t => exact .and (.cons h (.cons h' t))

theorem Rel.anyOf {l l' : List Selector} (h : Rels l l') : Rel (anyOf l) (anyOf l') := by
  cases h with
  | nil => exact .or .nil
  | cons h t =>
    cases t with
    | nil => exact h
    | cons h' t => exact .or (.cons h (.cons h' t))

/-- What stands above a node stands above its siblings. -/
theorem above_sibling {k : Kids} (hk : ∀ c p q, c ∈ k p → c ∈ k q → p = q) {p m n a : Nat} (hm : m ∈ k p) (hn : n ∈ k p)
    (h : ∃ c ∈ k a, InSubtree k c m) : ∃ c ∈ k a, InSubtree k c n := by
  obtain ⟨c, hc, hs⟩ := h
  cases hs with
  | root => exact ⟨n, by rw [hk m a p hc hm]; exact hn, .root⟩
  | child hs hm' =>
    rw [hk m _ p hm' hm] at hs
    exact ⟨c, hc, .child hs hn⟩

theorem spec_assoc (x y z : Specificity) : x.add (y.add z) = (x.add y).add z := by
  simp [Specificity.add, Nat.add_assoc]

/-- Siblings have the same parent and the same nodes above them: `a (b + c)` is `a b + c`, and so for
`>` and for `~`. -/
theorem regroup {o o' : Comb} (ho : o = .descendant ∨ o = .child) (ho' : o' = .adjacent ∨ o' = .subsequent)
    {a b c : Selector} (ha : a.Complete) (hb : b.Complete) (hc : c.Complete) :
    Rel (.infix o a (.infix o' b c)) (.infix o' (.infix o a b) c) := by
  refine ⟨fun k d hk n e pe => ?_, ?_, ?_, ?_⟩
  · have hmem : ∀ {p : Nat} {pre mid post : List Nat} {m : Nat}, k p = pre ++ m :: mid ++ n :: post → m ∈ k p ∧ n ∈ k p := by
      intro p pre mid post m h
      rw [h]
      simp
    rcases ho with rfl | rfl <;> rcases ho' with rfl | rfl <;> simp only [Means] <;> constructor
    · rintro ⟨⟨hcn, p, m, em, pre, mid, post, hkp, hmid, hd, hbm⟩, x, ex, hx, hxd, hax⟩
      have := hmem hkp
      exact ⟨hcn, p, m, em, pre, mid, post, hkp, hmid, hd, hbm, x, ex, above_sibling hk this.2 this.1 hx, hxd, hax⟩
    · rintro ⟨hcn, p, m, em, pre, mid, post, hkp, hmid, hd, hbm, x, ex, hx, hxd, hax⟩
      have := hmem hkp
      exact ⟨⟨hcn, p, m, em, pre, mid, post, hkp, hmid, hd, hbm⟩, x, ex, above_sibling hk this.1 this.2 hx, hxd, hax⟩
    · rintro ⟨⟨hcn, p, m, em, pre, mid, post, hkp, hd, hbm⟩, x, ex, hx, hxd, hax⟩
      have := hmem hkp
      exact ⟨hcn, p, m, em, pre, mid, post, hkp, hd, hbm, x, ex, above_sibling hk this.2 this.1 hx, hxd, hax⟩
    · rintro ⟨hcn, p, m, em, pre, mid, post, hkp, hd, hbm, x, ex, hx, hxd, hax⟩
      have := hmem hkp
      exact ⟨⟨hcn, p, m, em, pre, mid, post, hkp, hd, hbm⟩, x, ex, above_sibling hk this.1 this.2 hx, hxd, hax⟩
    · rintro ⟨⟨hcn, p, m, em, pre, mid, post, hkp, hmid, hd, hbm⟩, x, ex, hx, hxd, hax⟩
      have := hmem hkp
      have hxp := hk n x p hx this.2
      exact ⟨hcn, p, m, em, pre, mid, post, hkp, hmid, hd, hbm, x, ex, hxp ▸ this.1, hxd, hax⟩
    · rintro ⟨hcn, p, m, em, pre, mid, post, hkp, hmid, hd, hbm, x, ex, hx, hxd, hax⟩
      have := hmem hkp
      have hxp := hk m x p hx this.1
      exact ⟨⟨hcn, p, m, em, pre, mid, post, hkp, hmid, hd, hbm⟩, x, ex, hxp ▸ this.2, hxd, hax⟩
    · rintro ⟨⟨hcn, p, m, em, pre, mid, post, hkp, hd, hbm⟩, x, ex, hx, hxd, hax⟩
      have := hmem hkp
      have hxp := hk n x p hx this.2
      exact ⟨hcn, p, m, em, pre, mid, post, hkp, hd, hbm, x, ex, hxp ▸ this.1, hxd, hax⟩
    · rintro ⟨hcn, p, m, em, pre, mid, post, hkp, hd, hbm, x, ex, hx, hxd, hax⟩
      have := hmem hkp
      have hxp := hk m x p hx this.1
      exact ⟨⟨hcn, p, m, em, pre, mid, post, hkp, hd, hbm⟩, x, ex, hxp ▸ this.2, hxd, hax⟩
  · simp only [Selector.Complete]; exact ⟨ha, hb, hc⟩
  · simp only [Selector.NoAdjacent]
    rintro ⟨h1, ⟨h2, h3, h4⟩, h5⟩
    exact ⟨h2, h3, h1, h4, h5⟩
  · simp only [Verif.Selector.spec, spec_assoc]

end Verif.SelParse
