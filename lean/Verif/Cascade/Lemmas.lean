import Verif.Cascade.Spec
namespace Verif.Cascade
open Verif.Selector (Specificity)

/-- The order of entries as a proposition. -/
def Le (x y : Entry) : Prop := Lower x.decl y.decl ∨ (weights x.decl = weights y.decl ∧ x.order ≤ y.order)

theorem place_eq (o : Origin) : place o = o.rank := by cases o <;> rfl

theorem lower_iff (x y : Decl) : Lower x y ↔
    x.important.toNat < y.important.toNat ∨ (x.important.toNat = y.important.toNat ∧
     (x.origin.rank < y.origin.rank ∨ (x.origin.rank = y.origin.rank ∧
      (x.specificity.a < y.specificity.a ∨ (x.specificity.a = y.specificity.a ∧
       (x.specificity.b < y.specificity.b ∨ (x.specificity.b = y.specificity.b ∧
         x.specificity.c < y.specificity.c))))))) := by
  have hl : ∀ a b l l', LexLt (a :: l) (b :: l') ↔ a < b ∨ (a = b ∧ LexLt l l') := by
    intro a b l l'
    constructor
    · intro h; cases h with
      | head h => exact .inl h
      | tail h => exact .inr ⟨rfl, h⟩
    · rintro (h | ⟨rfl, h⟩)
      · exact .head h
      · exact .tail h
  have hn : ∀ l, ¬ LexLt [] l := by intro l h; cases h
  unfold Lower weights
  simp only [hl, hn, and_false, or_false, place_eq]
  cases x.important <;> cases y.important <;> simp

theorem weights_iff (x y : Decl) : weights x = weights y ↔
    x.important.toNat = y.important.toNat ∧ x.origin.rank = y.origin.rank ∧
    x.specificity.a = y.specificity.a ∧ x.specificity.b = y.specificity.b ∧ x.specificity.c = y.specificity.c := by
  unfold weights
  simp only [place_eq]
  cases x.important <;> cases y.important <;> simp

theorem rank_inj {a b : Origin} : a.rank = b.rank ↔ a = b := by cases a <;> cases b <;> decide

theorem compare_nat {a b : Nat} : (compare a b ≠ .lt) ↔ b ≤ a := by
  rw [Ne, Nat.compare_eq_lt]; omega

theorem toNat_inj {a b : Bool} : a.toNat = b.toNat ↔ a = b := by cases a <;> cases b <;> decide

theorem compare_iff (x y : Entry) : y.compare x ≠ .lt ↔ Le x y := by
  unfold Entry.compare Le
  rw [lower_iff, weights_iff]
  simp only [ne_eq, ite_not]
  split
  · rename_i h1
    split
    · rename_i h2
      split
      · rename_i h3
        rw [show (¬ (compare y.order x.order) = .lt) ↔ _ from compare_nat]
        rw [h1, h2, h3]
        omega
      · rename_i h3
        unfold compareSpec
        have h3' : ¬ (y.decl.specificity.a = x.decl.specificity.a ∧ y.decl.specificity.b = x.decl.specificity.b ∧
            y.decl.specificity.c = x.decl.specificity.c) := by
          rintro ⟨ha, hb, hc⟩
          exact h3 (by cases hy : y.decl.specificity; cases hx : x.decl.specificity; simp_all)
        rw [h1, h2]
        simp only [ne_eq, ite_not, true_and]
        split
        · split
          · refine Iff.trans compare_nat ?_; omega
          · refine Iff.trans compare_nat ?_; omega
        · refine Iff.trans compare_nat ?_; omega
    · rename_i h2
      have : y.decl.origin.rank ≠ x.decl.origin.rank := fun e => h2 (rank_inj.1 e)
      rw [show (¬ (compare _ _) = .lt) ↔ _ from compare_nat]
      rw [h1]; omega
  · rename_i h1
    have : y.decl.important.toNat ≠ x.decl.important.toNat := fun e => h1 (toNat_inj.1 e)
    unfold compareBool
    rw [show (¬ (compare _ _) = .lt) ↔ _ from compare_nat]
    omega

theorem le_refl (x : Entry) : Le x x := .inr ⟨rfl, Nat.le_refl _⟩
theorem le_trans {x y z : Entry} (h : Le x y) (h' : Le y z) : Le x z := by
  unfold Le at *; rw [lower_iff, weights_iff] at *; omega
theorem le_total (x y : Entry) : Le x y ∨ Le y x := by
  unfold Le; rw [lower_iff, weights_iff, lower_iff, weights_iff]; omega
theorem lower_of_le {x y : Entry} (h : Le x y) (ho : y.order < x.order) : Lower x.decl y.decl := by
  unfold Le at h; rcases h with h | h
  · exact h
  · omega
theorem not_lower_of_le {x y : Entry} (h : Le x y) : ¬ Lower y.decl x.decl := by
  unfold Le at h; rw [weights_iff] at h; rw [lower_iff] at *; omega
theorem le_antisymm {x y : Entry} (h : Le x y) (h' : Le y x) : x.order = y.order := by
  unfold Le at *; rw [lower_iff, weights_iff] at *; omega

/-- What `putLonghand` keeps. -/
def pick (old : Option Entry) (e : Entry) : Entry :=
  match old with
  | none => e
  | some x => if e.compare x ≠ .lt then e else x

theorem lookup_put (m : Entries) (n k : Nat) (e : Entry) :
    (putLonghand m n e).lookup k = if k = n then some (pick (m.lookup n) e) else m.lookup k := by
  induction m with
  | nil =>
    by_cases h : k = n
    · subst h; simp [putLonghand, Entries.lookup, pick]
    · have : ¬ n = k := fun e => h e.symm
      simp [putLonghand, Entries.lookup, h, this]
  | cons a m ih =>
    obtain ⟨q, x⟩ := a
    unfold Entries.lookup at ih ⊢
    simp only [putLonghand]
    by_cases hq : q = n
    · subst hq
      simp only [if_true, List.find?_cons, beq_self_eq_true, Option.map_some]
      by_cases h : q = k
      · subst h; simp [pick]
      · have h' : ¬ k = q := fun e => h e.symm
        have hqk : (q == k) = false := by simpa using h
        simp [hqk, h']
    · by_cases h : q = k
      · subst h
        simp [hq]
      · have hqn : (q == n) = false := by simpa using hq
        have hqk : (q == k) = false := by simpa using h
        simp only [hq, if_false, List.find?_cons, hqn, hqk, ih]

/-- `e` is the greatest of `l`. -/
def Best (l : List Entry) (e : Entry) : Prop := e ∈ l ∧ ∀ x ∈ l, Le x e

/-- A run of `putLonghand`s from entries that hold the best of `l n` for each `n`. -/
structure Holds (m : Entries) (l : Nat → List Entry) : Prop where
  some_ : ∀ n e, m.lookup n = some e → Best (l n) e
  none_ : ∀ n, m.lookup n = none ↔ l n = []

theorem Holds.put {m l} (h : Holds m l) (n : Nat) (e : Entry) :
    Holds (putLonghand m n e) (fun k => if k = n then l k ++ [e] else l k) := by
  constructor
  · intro k x hx
    rw [lookup_put] at hx
    by_cases hk : k = n
    · subst hk
      simp only [if_true, Option.some.injEq] at hx ⊢
      subst hx
      unfold pick
      cases hm : m.lookup k with
      | none =>
        have := (h.none_ k).1 hm
        simp only [this, List.nil_append]
        exact ⟨by simp, by simp [le_refl]⟩
      | some x =>
        have hx := h.some_ k x hm
        by_cases hc : e.compare x ≠ .lt
        · show Best _ (if e.compare x ≠ .lt then e else x)
          rw [if_pos hc]
          have := (compare_iff x e).1 hc
          refine ⟨by simp, fun y hy => ?_⟩
          simp only [List.mem_append, List.mem_singleton] at hy
          rcases hy with hy | rfl
          · exact le_trans (hx.2 y hy) this
          · exact le_refl _
        · simp only [hc, if_false]
          have : Le e x := by
            rcases le_total x e with h | h
            · exact absurd ((compare_iff x e).2 h) hc
            · exact h
          refine ⟨by simp [hx.1], fun y hy => ?_⟩
          simp only [List.mem_append, List.mem_singleton] at hy
          rcases hy with hy | rfl
          · exact hx.2 y hy
          · exact this
    · simp only [hk, if_false] at hx ⊢
      exact h.some_ k x hx
  · intro k
    rw [lookup_put]
    by_cases hk : k = n
    · simp [hk]
    · simp only [hk, if_false]; exact h.none_ k

/-- Valid declarations with the order they get. -/
def numbered : List Decl → Nat → List Entry
  | [], _ => []
  | d :: ds, i => if d.bogus then numbered ds i else ⟨d, i⟩ :: numbered ds (i + 1)

def named (l : List Entry) (n : Nat) : List Entry := l.filter (·.decl.name == n)

theorem cascade_holds_aux (ds : List Decl) : ∀ (s : State) (l : List Entry), Holds s.entries (named l) →
    Holds (ds.foldl put s).entries (named (l ++ numbered ds s.next)) := by
  induction ds with
  | nil => intro s l h; simpa [numbered] using h
  | cons d ds ih =>
    intro s l h
    simp only [List.foldl_cons, numbered, put]
    cases hb : d.bogus with
    | true => simp only [if_true]; exact ih s l h
    | false =>
      simp only [Bool.false_eq_true, if_false]
      have h1 := h.put d.name ⟨d, s.next⟩
      have h2 : (fun k => if k = d.name then named l k ++ [⟨d, s.next⟩] else named l k) =
          named (l ++ [⟨d, s.next⟩]) := by
        funext k
        unfold named
        rw [List.filter_append]
        by_cases hk : k = d.name
        · subst hk; simp
        · have : ¬ d.name = k := fun e => hk e.symm
          simp [hk, this]
      rw [h2] at h1
      have := ih ⟨putLonghand s.entries d.name ⟨d, s.next⟩, s.next + 1⟩ _ h1
      simpa [List.append_assoc] using this

theorem cascade_holds (ds : List Decl) : Holds (cascade ds).entries (named (numbered ds 0)) := by
  have := cascade_holds_aux ds {} [] ⟨by intro n e h; simp [Entries.lookup] at h, by intro n; simp [Entries.lookup, named]⟩
  simpa [cascade] using this

theorem numbered_append (a b : List Decl) : ∀ i, ∃ j, i ≤ j ∧ numbered (a ++ b) i = numbered a i ++ numbered b j ∧
    ∀ e ∈ numbered a i, i ≤ e.order ∧ e.order < j := by
  induction a with
  | nil => intro i; exact ⟨i, Nat.le_refl _, by simp [numbered], by simp [numbered]⟩
  | cons d a ih =>
    intro i
    simp only [List.cons_append, numbered]
    cases d.bogus with
    | true => simpa using ih i
    | false =>
      obtain ⟨j, h1, h2, h3⟩ := ih (i + 1)
      refine ⟨j, by omega, by simp [h2], ?_⟩
      intro e he
      simp at he
      rcases he with rfl | he
      · exact ⟨Nat.le_refl _, by show i < j; omega⟩
      · have := h3 e he; omega

theorem numbered_ge (a : List Decl) (i : Nat) : ∀ e ∈ numbered a i, i ≤ e.order := by
  obtain ⟨j, _, h2, h3⟩ := numbered_append a [] i
  intro e he; exact (h3 e he).1

theorem mem_numbered (ds : List Decl) : ∀ i d, (∃ o, (⟨d, o⟩ : Entry) ∈ numbered ds i) ↔ d ∈ ds ∧ d.bogus = false := by
  induction ds with
  | nil => intro i d; simp [numbered]
  | cons x ds ih =>
    intro i d
    simp only [numbered]
    cases hb : x.bogus with
    | true =>
      simp only [if_true, ih, List.mem_cons]
      constructor
      · rintro ⟨h1, h2⟩; exact ⟨.inr h1, h2⟩
      · rintro ⟨rfl | h1, h2⟩
        · rw [hb] at h2; cases h2
        · exact ⟨h1, h2⟩
    | false =>
      simp only [Bool.false_eq_true, if_false, List.mem_cons]
      constructor
      · rintro ⟨o, h | h⟩
        · cases h; exact ⟨.inl rfl, hb⟩
        · have := (ih _ d).1 ⟨o, h⟩; exact ⟨.inr this.1, this.2⟩
      · rintro ⟨rfl | h1, h2⟩
        · exact ⟨i, .inl rfl⟩
        · obtain ⟨o, h⟩ := (ih (i+1) d).2 ⟨h1, h2⟩; exact ⟨o, .inr h⟩

/-- The best numbered entry is the winner. -/
theorem best_iff_winner (ds : List Decl) (n : Nat) (d : Decl) :
    (∃ o, Best (named (numbered ds 0) n) ⟨d, o⟩) ↔ Winner ds n d := by
  constructor
  · rintro ⟨o, hm, hb⟩
    unfold named at hm hb
    simp only [List.mem_filter, beq_iff_eq] at hm hb
    obtain ⟨hm, hn⟩ := hm
    -- locate the entry
    have split : ∀ (ds : List Decl) i, (⟨d, o⟩ : Entry) ∈ numbered ds i →
        ∃ pre post, ds = pre ++ d :: post ∧ d.bogus = false ∧
          numbered ds i = numbered pre i ++ ⟨d, o⟩ :: numbered post (o + 1) ∧ ∀ e ∈ numbered pre i, e.order < o := by
      intro ds
      induction ds with
      | nil => intro i h; simp [numbered] at h
      | cons x ds ih =>
        intro i h
        simp only [numbered] at h
        cases hx : x.bogus with
        | true =>
          simp only [hx, if_true] at h
          obtain ⟨pre, post, h1, h2, h3, h4⟩ := ih i h
          exact ⟨x :: pre, post, by simp [h1], h2, by simp [numbered, hx, h3], by simpa [numbered, hx] using h4⟩
        | false =>
          simp only [hx, Bool.false_eq_true, if_false, List.mem_cons] at h
          rcases h with h | h
          · cases h
            exact ⟨[], ds, rfl, hx, by simp [numbered, hx], by simp [numbered]⟩
          · have hge := numbered_ge ds (i+1) _ h
            obtain ⟨pre, post, h1, h2, h3, h4⟩ := ih (i + 1) h
            refine ⟨x :: pre, post, by simp [h1], h2, by simp [numbered, hx, h3], ?_⟩
            intro e he
            simp [numbered, hx] at he
            rcases he with rfl | he
            · exact hge
            · exact h4 e he
    obtain ⟨pre, post, h1, h2, h3, h4⟩ := split ds 0 hm
    refine ⟨pre, post, h1, hn, h2, ?_, ?_⟩
    · intro x hx hxn hxb
      obtain ⟨ox, hox⟩ := (mem_numbered pre 0 x).2 ⟨hx, hxb⟩
      have := hb ⟨x, ox⟩ ⟨by rw [h3]; simp [hox], hxn⟩
      exact not_lower_of_le this
    · intro x hx hxn hxb
      obtain ⟨ox, hox⟩ := (mem_numbered post (o+1) x).2 ⟨hx, hxb⟩
      have := hb ⟨x, ox⟩ ⟨by rw [h3]; simp [hox], hxn⟩
      exact lower_of_le this (numbered_ge post (o+1) _ hox)
  · rintro ⟨pre, post, rfl, hn, hb, h1, h2⟩
    obtain ⟨j, _, e1, h3⟩ := numbered_append pre (d :: post) 0
    have e2 : numbered (d :: post) j = ⟨d, j⟩ :: numbered post (j + 1) := by simp [numbered, hb]
    refine ⟨j, ?_⟩
    unfold named
    rw [e1, e2]
    refine ⟨by simp [hn], ?_⟩
    intro x hx
    simp only [List.mem_filter, List.mem_append, List.mem_cons, beq_iff_eq] at hx
    obtain ⟨hx, hxn⟩ := hx
    rcases hx with hx | rfl | hx
    · have hxd := (mem_numbered pre 0 x.decl).1 ⟨x.order, hx⟩
      have hnl := h1 x.decl hxd.1 hxn hxd.2
      have ho := h3 x hx
      unfold Le
      rw [lower_iff] at hnl
      rw [lower_iff, weights_iff]
      simp only
      omega
    · exact le_refl _
    · have hxd := (mem_numbered post (j+1) x.decl).1 ⟨x.order, hx⟩
      exact .inl (h2 x.decl hxd.1 hxn hxd.2)

theorem lookup_iff_winner (ds : List Decl) (n : Nat) (d : Decl) :
    ((cascade ds).entries.lookup n).map (·.decl) = some d ↔ Winner ds n d := by
  have h := cascade_holds ds
  rw [← best_iff_winner]
  constructor
  · intro e
    rw [Option.map_eq_some_iff] at e
    obtain ⟨x, hx, rfl⟩ := e
    exact ⟨x.order, h.some_ n x hx⟩
  · rintro ⟨o, hb⟩
    cases hl : (cascade ds).entries.lookup n with
    | none =>
      have := (h.none_ n).1 hl
      rw [this] at hb
      exact absurd hb.1 (by simp)
    | some x =>
      have hx := h.some_ n x hl
      have : (⟨d, o⟩ : Entry) = x := by
        have h1 := le_antisymm (hx.2 _ hb.1) (hb.2 _ hx.1)
        -- orders are distinct in `numbered`
        have inj : ∀ ds i, ∀ x ∈ numbered ds i, ∀ y ∈ numbered ds i, x.order = y.order → x = y := by
          intro ds
          induction ds with
          | nil => intro i x hx; simp [numbered] at hx
          | cons a ds ih =>
            intro i x hx y hy e
            simp only [numbered] at hx hy
            cases ha : a.bogus with
            | true => simp only [ha, if_true] at hx hy; exact ih i x hx y hy e
            | false =>
              simp only [ha, Bool.false_eq_true, if_false, List.mem_cons] at hx hy
              rcases hx with rfl | hx <;> rcases hy with rfl | hy
              · rfl
              · have := numbered_ge ds (i+1) _ hy; simp at e; omega
              · have := numbered_ge ds (i+1) _ hx; simp at e; omega
              · exact ih _ x hx y hy e
        exact inj ds 0 _ (List.mem_filter.1 hb.1).1 _ (List.mem_filter.1 hx.1).1 h1
      rw [Option.map_some, ← this]

end Verif.Cascade
