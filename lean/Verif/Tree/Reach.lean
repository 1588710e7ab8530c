import Verif.Tree.Start
import Verif.Tree.AllSpec
/-
From the invariant to what is said of the tree.
-/
namespace Verif.Tree
open Verif.Html (Str Attr Content)
open Spec

/-! ### Lists -/

theorem nodup_length : ∀ (n : Nat) (l : List Nat), l.Nodup → (∀ x ∈ l, x < n) → l.length ≤ n
  | 0, l, _, h => by
    cases l with
    | nil => exact Nat.le_refl _
    | cons x xs => exact absurd (h x (by simp)) (Nat.not_lt_zero _)
  | n + 1, l, hn, h => by
    have h1 := nodup_length n (l.filter (· ≠ n)) (hn.filter _) (by
      intro x hx
      rw [List.mem_filter] at hx
      have := h x hx.1
      have h2 : x ≠ n := by simpa using hx.2
      omega)
    have h2 : l.length ≤ (l.filter (· ≠ n)).length + 1 := by
      have h3 := List.length_eq_countP_add_countP (fun x => decide (x ≠ n)) (l := l)
      have h4 : l.countP (fun x => decide ¬ (decide (x ≠ n) = true)) = l.count n := by
        unfold List.count
        congr 1
        funext x
        by_cases e : x = n <;> simp [e]
      have h5 : l.count n ≤ 1 := List.nodup_iff_count.mp hn n
      have h6 : (l.filter (· ≠ n)).length = l.countP (fun x => decide (x ≠ n)) :=
        List.countP_eq_length_filter.symm
      omega
    omega

/-! ### Paths -/

section
variable {s : St} (hh : Heap s.data s.kids s.parent s.next)
include hh

theorem Way.lt {l : List Nat} {n : Nat} (h : Way s l n) : n < s.next := by
  cases h with
  | root => exact hh.pos
  | step h hn => exact (hh.bound _ _ (hh.up _ _ hn)).1

theorem Way.unique {l l' : List Nat} {n : Nat} (h : Way s l n) (h' : Way s l' n) : l = l' := by
  induction h generalizing l' with
  | root =>
    generalize hz : 0 = z at h'
    cases h' with
    | root => rfl
    | step h' hn =>
      subst hz
      have := hh.up _ _ hn
      rw [hh.root] at this
      cases this
  | @step l p n h hn ih =>
    have hp := hh.up _ _ hn
    cases h' with
    | root => rw [hh.root] at hp; cases hp
    | @step l2 p2 _ h2 hn2 =>
      have hp2 := hh.up _ _ hn2
      rw [hp] at hp2
      injection hp2 with e
      subst e
      rw [ih h2]

theorem Way.split {l : List Nat} {n : Nat} (h : Way s l n) : ∀ m ∈ l, ∃ k, k.length < l.length ∧ Way s k m := by
  induction h with
  | root => intro m hm; cases hm
  | @step l p n h hn ih =>
    intro m hm
    rw [List.mem_append, List.mem_singleton] at hm
    rw [List.length_append, List.length_singleton]
    rcases hm with hm | rfl
    · obtain ⟨k, h1, h2⟩ := ih m hm
      exact ⟨k, by omega, h2⟩
    · exact ⟨l, by omega, h⟩

theorem Way.notin {l : List Nat} {n : Nat} (h : Way s l n) : n ∉ l := by
  intro hm
  obtain ⟨k, h1, h2⟩ := Way.split hh h n hm
  rw [Way.unique hh h h2] at h1
  exact absurd h1 (Nat.lt_irrefl _)

theorem Way.nodup {l : List Nat} {n : Nat} (h : Way s l n) : (l ++ [n]).Nodup := by
  induction h with
  | root => exact List.nodup_cons.mpr ⟨by simp, List.nodup_nil⟩
  | @step l p n h hn ih =>
    rw [List.nodup_append]
    refine ⟨ih, List.nodup_cons.mpr ⟨by simp, List.nodup_nil⟩, ?_⟩
    intro a ha b hb e
    rw [List.mem_singleton] at hb
    subst e; subst hb
    exact Way.notin hh (.step h hn) ha

theorem Way.length {l : List Nat} {n : Nat} (h : Way s l n) : l.length < s.next := by
  have := nodup_length s.next (l ++ [n]) (Way.nodup hh h) (by
    intro x hx
    rw [List.mem_append, List.mem_singleton] at hx
    rcases hx with hx | rfl
    · obtain ⟨k, _, h2⟩ := Way.split hh h x hx
      exact Way.lt hh h2
    · exact Way.lt hh h)
  rw [List.length_append, List.length_singleton] at this
  exact this

theorem heap_isTree : IsTree s where
  unique _ _ _ := Way.unique hh
  once := hh.once
  parent _ _ _ _ hn := hh.up _ _ hn
  root := hh.root
  inner l n _ hk := by
    cases hl : s.kids n with
    | nil => exact absurd hl hk
    | cons x xs =>
      refine (hh.inner x n (hh.up x n (by rw [hl]; simp))).imp id ?_
      intro he
      cases hd : s.data n with
      | element q as => exact ⟨q, as, rfl⟩
      | _ => rw [hd] at he; exact he.elim
  deep _ _ h := Way.length hh h

/-! ### Views -/

theorem view_stays {l : List Nat} {n : Nat} (h : Way s l n) :
    ∀ {k k' : Nat}, s.next ≤ k + l.length → s.next ≤ k' + l.length → view s k n = view s k' n := by
  have key : ∀ (j : Nat) {l : List Nat} {n : Nat}, Way s l n → s.next ≤ j + l.length →
      ∀ {k k' : Nat}, s.next ≤ k + l.length → s.next ≤ k' + l.length → view s k n = view s k' n := by
    intro j
    induction j with
    | zero =>
      intro l n h hj
      have := Way.length hh h
      omega
    | succ j ih =>
      intro l n h hj k k' hk hk'
      have hl := Way.length hh h
      obtain ⟨k, rfl⟩ : ∃ a, k = a + 1 := ⟨k - 1, by omega⟩
      obtain ⟨k', rfl⟩ : ∃ a, k' = a + 1 := ⟨k' - 1, by omega⟩
      have hmap : (s.kids n).map (view s k) = (s.kids n).map (view s k') := by
        apply List.map_congr_left
        intro m hm
        have hlen : (l ++ [n]).length = l.length + 1 := by simp
        exact ih (.step h hm) (by omega) (by omega) (by omega)
      rw [view, view, hmap]
  intro k k' hk hk'
  exact key s.next h (by omega) hk hk'

/-- What is in the tree is what is there. -/
theorem parts_view (k : Nat) : ∀ {l : List Nat} {n : Nat}, Way s l n → s.next ≤ k + l.length →
    ∀ x ∈ (view s k n).parts, ∃ l' m k', Way s l' m ∧ s.next ≤ k' + 1 + l'.length ∧
      x = view s (k' + 1) m ∧ (l' = l ∧ m = n ∨ l.length < l'.length) := by
  induction k with
  | zero =>
    intro l n h hj
    have := Way.length hh h
    omega
  | succ k ih =>
    intro l n h hj x hx
    have hlen : (l ++ [n]).length = l.length + 1 := by simp
    have hkids : ∀ ns : List Nat, (∀ m ∈ ns, m ∈ s.kids n) → x ∈ partsAll (ns.map (view s k)) →
        ∃ l' m k', Way s l' m ∧ s.next ≤ k' + 1 + l'.length ∧ x = view s (k' + 1) m ∧
          (l' = l ∧ m = n ∨ l.length < l'.length) := by
      intro ns
      induction ns with
      | nil => intro _ hx; cases hx
      | cons m ns ih2 =>
        intro hm hx
        rw [List.map_cons, partsAll, List.mem_append] at hx
        rcases hx with hx | hx
        · obtain ⟨l', m', k', h1, h2, h3, h4⟩ :=
            ih (.step h (hm m (by simp))) (by omega) x hx
          refine ⟨l', m', k', h1, h2, h3, Or.inr ?_⟩
          rcases h4 with ⟨rfl, _⟩ | h4
          · omega
          · omega
        · exact ih2 (fun y hy => hm y (by simp [hy])) hx
    have hself : x = view s (k + 1) n → ∃ l' m k', Way s l' m ∧ s.next ≤ k' + 1 + l'.length ∧
        x = view s (k' + 1) m ∧ (l' = l ∧ m = n ∨ l.length < l'.length) :=
      fun e => ⟨l, n, k, h, hj, e, Or.inl ⟨rfl, rfl⟩⟩
    rw [view] at hx hself
    cases hd : s.data n with
    | document =>
      rw [hd] at hx hself
      dsimp only at hx hself
      rw [Spec.Tree.parts, List.mem_cons] at hx
      exact hx.elim hself (hkids _ fun _ h => h)
    | element q as =>
      rw [hd] at hx hself
      dsimp only at hx hself
      rw [Spec.Tree.parts, List.mem_cons] at hx
      exact hx.elim hself (hkids _ fun _ h => h)
    | doctype a b c =>
      rw [hd] at hx hself
      dsimp only at hx hself
      rw [Spec.Tree.parts, List.mem_singleton] at hx
      exact hself hx
    | text d =>
      rw [hd] at hx hself
      dsimp only at hx hself
      rw [Spec.Tree.parts, List.mem_singleton] at hx
      exact hself hx
    | comment d =>
      rw [hd] at hx hself
      dsimp only at hx hself
      rw [Spec.Tree.parts, List.mem_singleton] at hx
      exact hself hx

end

end Verif.Tree
