import Verif.RuleIndex.Model
namespace Verif.RuleIndex
open Verif.Selector

theorem bestIdx_spec (cs : List (List Nat)) (h : cs ≠ []) :
    bestIdx cs < cs.length ∧ ∀ i, i < cs.length → front (cs.getD (bestIdx cs) []) ≤ front (cs.getD i []) := by
  have hl : 0 < cs.length := List.length_pos_iff.2 h
  have key : ∀ n, n ≤ cs.length → 
      let b := (List.range n).foldl (fun b i => if front (cs.getD i []) < front (cs.getD b []) then i else b) 0
      b < cs.length ∧ (∀ i, i < n → front (cs.getD b []) ≤ front (cs.getD i [])) ∧ front (cs.getD b []) ≤ front (cs.getD 0 []) := by
    intro n
    induction n with
    | zero => intro _; exact ⟨hl, by intro i hi; omega, Nat.le_refl _⟩
    | succ n ih =>
      intro hn
      obtain ⟨h1, h2, h3⟩ := ih (by omega)
      rw [List.range_succ, List.foldl_append]
      simp only [List.foldl_cons, List.foldl_nil]
      generalize (List.range n).foldl (fun b i => if front (cs.getD i []) < front (cs.getD b []) then i else b) 0 = b at *
      split
      · rename_i hlt
        refine ⟨by omega, fun i hi => ?_, by omega⟩
        by_cases hin : i < n
        · have := h2 i hin; omega
        · have : i = n := by omega
          subst this; exact Nat.le_refl _
      · rename_i hlt
        refine ⟨h1, fun i hi => ?_, h3⟩
        by_cases hin : i < n
        · exact h2 i hin
        · have : i = n := by omega
          subst this; omega
  have := key cs.length (Nat.le_refl _)
  exact ⟨this.1, this.2.1⟩

theorem advance_split {pre post : List (List Nat)} {x : Nat} {t : List Nat} :
    ∃ pre' post', (advance (pre ++ (x :: t) :: post) pre.length).Perm (pre' ++ post') ∧ 
      (pre' ++ post').Perm (pre ++ (if t = [] then [] else [t]) ++ post) := by
  refine ⟨_, [], by rw [List.append_nil], ?_⟩
  rw [List.append_nil]
  unfold advance
  have hg : (pre ++ (x :: t) :: post).getD pre.length [] = x :: t := by simp [List.getD]
  simp only [hg, List.tail_cons]
  by_cases ht : t = []
  · subst ht
    simp only [List.isEmpty_nil, if_true, List.append_nil]
    have hs : ∀ l, (pre ++ [x] :: post).set pre.length l = pre ++ l :: post := by intro l; simp
    rw [hs]
    rcases List.eq_nil_or_concat post with hp | ⟨q, l, hp⟩
    · subst hp; simp
    · subst hp
      rw [List.concat_eq_append]
      have hlast : (pre ++ [x] :: (q ++ [l])).getLastD [] = l := by
        rw [show pre ++ [x] :: (q ++ [l]) = (pre ++ [x] :: q) ++ [l] by simp, List.getLastD_concat]
      rw [hlast, show pre ++ l :: (q ++ [l]) = (pre ++ l :: q) ++ [l] by simp, List.dropLast_concat]
      refine List.Perm.append_left pre ?_
      exact (List.perm_append_singleton l q).symm
  · have : t.isEmpty = false := by simpa using ht
    simp [this, ht]

/-- The merge loop processes the entries in increasing order. -/
theorem merge_spec (f : Merge → Nat → Merge) : ∀ (n : Nat) (cs : List (List Nat)) (m : Merge),
    (cs.map List.length).sum = n → (∀ c ∈ cs, c ≠ [] ∧ c.Pairwise (· ≤ ·)) →
    ∃ o : List Nat, mergeLoop f n cs m = o.foldl f m ∧ o.Pairwise (· ≤ ·) ∧ o.Perm cs.flatten := by
  intro n
  induction n with
  | zero =>
    intro cs m hn hc
    cases cs with
    | nil => exact ⟨[], rfl, by simp, by simp⟩
    | cons c cs =>
      have := (hc c (by simp)).1
      have : 0 < c.length := List.length_pos_iff.2 this
      simp only [List.map_cons, List.sum_cons] at hn; omega
  | succ n ih =>
    intro cs m hn hc
    cases cs with
    | nil => simp at hn
    | cons c0 cs0 =>
      simp only [mergeLoop]
      generalize hcs : c0 :: cs0 = cs at *
      have hne : cs ≠ [] := by rw [← hcs]; simp
      obtain ⟨hb, hmin⟩ := bestIdx_spec cs hne
      generalize bestIdx cs = b at *
      obtain ⟨pre, c, post, hsplit, hlen⟩ : ∃ pre c post, cs = pre ++ c :: post ∧ pre.length = b :=
        ⟨cs.take b, cs[b], cs.drop (b+1), by simp, by simp; omega⟩
      have hcm : c ∈ cs := by rw [hsplit]; simp
      obtain ⟨x, t, rfl⟩ : ∃ x t, c = x :: t := by
        cases c with
        | nil => exact absurd rfl (hc _ hcm).1
        | cons x t => exact ⟨x, t, rfl⟩
      have hg : cs.getD b [] = x :: t := by rw [hsplit, ← hlen]; simp [List.getD]
      rw [hg] at hmin ⊢
      simp only [front, List.headD_cons] at hmin ⊢
      obtain ⟨pre', post', hp1, hp2⟩ := @advance_split pre post x t
      have hp := hp1.trans hp2
      rw [← hsplit, hlen] at hp
      have hsum : ((advance cs b).map List.length).sum = n := by
        rw [(hp.map List.length).sum_nat]
        rw [hsplit] at hn
        simp only [List.map_append, List.map_cons, List.sum_append, List.sum_cons, List.length_cons] at hn ⊢
        split
        · rename_i ht; subst ht; simp at hn ⊢; omega
        · simp; omega
      have hsub : ∀ c ∈ advance cs b, c ∈ cs ∨ (c = t ∧ t ≠ []) := by
        intro c hc
        have := hp.mem_iff.1 hc
        rw [hsplit]
        simp only [List.mem_append, List.mem_cons] at this ⊢
        rcases this with (h | h) | h
        · exact .inl (.inl h)
        · split at h
          · simp at h
          · rename_i ht; simp at h; exact .inr ⟨h, ht⟩
        · exact .inl (.inr (.inr h))
      obtain ⟨o, ho1, ho2, ho3⟩ := ih (advance cs b) (f m x) hsum (by
        intro c h
        rcases hsub c h with h | ⟨rfl, h⟩
        · exact hc c h
        · exact ⟨h, (List.pairwise_cons.1 (hc _ hcm).2).2⟩)
      have hflat : (advance cs b).flatten.Perm (pre.flatten ++ t ++ post.flatten) := by
        refine hp.flatten.trans ?_
        split
        · rename_i ht; subst ht; simp
        · simp
      have hperm : (x :: o).Perm cs.flatten := by
        rw [hsplit]
        simp only [List.flatten_append, List.flatten_cons]
        refine List.Perm.trans (List.Perm.cons x (ho3.trans hflat)) ?_
        rw [List.append_assoc]
        exact (@List.perm_middle _ x pre.flatten (t ++ post.flatten)).symm.trans (by simp)
      refine ⟨x :: o, by simpa using ho1, ?_, hperm⟩
      rw [List.pairwise_cons]
      refine ⟨fun y hy => ?_, ho2⟩
      have hy' : y ∈ cs.flatten := hperm.mem_iff.1 (by simp [hy])
      obtain ⟨c, hcc, hyc⟩ := List.mem_flatten.1 hy'
      obtain ⟨i, hi, rfl⟩ := List.mem_iff_getElem.1 hcc
      have h1 := hmin i hi
      rw [show cs.getD i [] = cs[i] by simp [List.getD, hi]] at h1
      have h2 := (hc _ hcc).2
      cases hci : cs[i] with
      | nil => rw [hci] at hyc; simp at hyc
      | cons a l =>
        rw [hci] at h1 hyc h2
        simp at h1
        rcases List.mem_cons.1 hyc with rfl | hyl
        · exact h1
        · have := (List.pairwise_cons.1 h2).1 y hyl; omega

/-- Sorted lists of numbers are determined by their elements. -/
theorem eq_of_sorted_perm {a b : List Nat} (ha : a.Pairwise (· ≤ ·)) (hb : b.Pairwise (· ≤ ·)) (h : a.Perm b) : a = b := by
  induction a generalizing b with
  | nil => exact (List.nil_perm.1 h).symm
  | cons x a ih =>
    cases b with
    | nil => exact absurd (List.perm_nil.1 h) (by simp)
    | cons y b =>
      have h1 : y ≤ x := by
        have : x ∈ y :: b := h.mem_iff.1 (by simp)
        rcases List.mem_cons.1 this with h | h
        · omega
        · exact (List.pairwise_cons.1 hb).1 x h
      have h2 : x ≤ y := by
        have : y ∈ x :: a := h.mem_iff.2 (by simp)
        rcases List.mem_cons.1 this with h | h
        · omega
        · exact (List.pairwise_cons.1 ha).1 y h
      have : x = y := by omega
      subst this
      rw [ih (List.pairwise_cons.1 ha).2 (List.pairwise_cons.1 hb).2 (List.perm_cons x |>.1 h)]

end Verif.RuleIndex
