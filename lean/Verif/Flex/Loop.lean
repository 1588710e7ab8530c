import Verif.Flex.Model
import Mathlib.Algebra.BigOperators.Group.List.Basic
import Mathlib.Tactic.Linarith
/-!
# Flexible boxes: the loop that resolves lengths
-/
namespace Verif.Flex

/-! ## Taking items out of the unfrozen ones -/

theorem swapRemove_split (pre suf : List Nat) (y : Nat) :
    ∃ suf', swapRemove (pre ++ y :: suf) pre.length = pre ++ suf' ∧ suf'.Perm suf := by
  rcases List.eq_nil_or_concat suf with rfl | ⟨m, z, rfl⟩
  · refine ⟨[], ?_, .refl _⟩
    simp [swapRemove]
  · refine ⟨z :: m, ?_, ?_⟩
    · have h : (pre ++ y :: m.concat z).getLastD 0 = z := by
        rw [List.concat_eq_append, ← List.cons_append, ← List.append_assoc, List.getLastD_eq_getLast?,
          List.getLast?_concat]
        rfl
      unfold swapRemove
      rw [h]
      simp only [List.set_append, Nat.lt_irrefl, if_false, Nat.sub_self, List.set_cons_zero]
      rw [List.concat_eq_append, ← List.cons_append, ← List.append_assoc, List.dropLast_concat]
    · rw [List.concat_eq_append]
      exact (List.perm_append_comm (l₁ := [z]) (l₂ := m))

theorem freeze_all (j : Job) (p : Nat → Bool) (n : Nat) :
    ∀ (pre suf : List Nat) (s : St), pre.length = n → s.unfrozen = pre ++ suf →
    (∀ x ∈ suf, p x = false) →
    ∃ t, ((List.range pre.length).filter fun k => p (pre.getD k 0)).reverse.foldl j.freeze s = t ∧
      t.unfrozen.Perm (s.unfrozen.filter fun x => !p x) ∧
      t.frozen.Perm (s.frozen ++ s.unfrozen.filter p) ∧
      t.sumFrozen = s.sumFrozen + ((s.unfrozen.filter p).map fun i => s.used i + (j.it i).margins).sum ∧
      t.used = s.used := by
  induction n with
  | zero =>
    intro pre suf s hn hs hp
    obtain rfl : pre = [] := List.length_eq_zero_iff.1 hn
    simp only [List.nil_append] at hs
    refine ⟨s, rfl, ?_, ?_, ?_, rfl⟩
    · rw [hs, List.filter_eq_self.2 (by intro x hx; simp [hp x hx])]
    · rw [hs, List.filter_eq_nil_iff.2 (by intro x hx; simp [hp x hx])]
      simp
    · rw [hs, List.filter_eq_nil_iff.2 (by intro x hx; simp [hp x hx])]
      simp
  | succ n ih =>
    intro pre suf s hn hs hp
    rcases List.eq_nil_or_concat pre with rfl | ⟨q, y, rfl⟩
    · simp at hn
    rw [List.concat_eq_append] at hn hs ⊢
    have hq : q.length = n := by simpa using hn
    have hf : (List.range (q ++ [y]).length).filter (fun k => p ((q ++ [y]).getD k 0)) =
        ((List.range q.length).filter fun k => p (q.getD k 0)) ++ if p y then [q.length] else [] := by
      rw [List.length_append, List.length_singleton, List.range_succ, List.filter_append]
      congr 1
      · apply List.filter_congr
        intro k hk
        rw [List.mem_range] at hk
        simp [List.getElem?_append_left hk]
      · simp only [List.filter_cons, List.filter_nil]
        simp
    rw [hf]
    by_cases hy : p y
    · rw [if_pos hy, List.reverse_append, List.reverse_singleton, List.foldl_append]
      obtain ⟨suf', he, hsuf⟩ := swapRemove_split q suf y
      have hgd : s.unfrozen.getD q.length 0 = y := by rw [hs]; simp
      have hfz : (List.foldl j.freeze s [q.length]) =
          { s with sumFrozen := s.sumFrozen + (s.used y + (j.it y).margins), frozen := s.frozen ++ [y],
                   unfrozen := q ++ suf' } := by
        simp only [List.foldl_cons, List.foldl_nil, Job.freeze, hgd]
        rw [hs, List.append_assoc, List.singleton_append, he]
      rw [hfz]
      obtain ⟨t, ht, h1, h2, h3, h4⟩ := ih q suf'
        { s with sumFrozen := s.sumFrozen + (s.used y + (j.it y).margins), frozen := s.frozen ++ [y],
                 unfrozen := q ++ suf' } hq rfl (fun x hx => hp x (hsuf.mem_iff.1 hx))
      have hpm : s.unfrozen.Perm (y :: (q ++ suf')) := by
        rw [hs, List.append_assoc, List.singleton_append]
        refine List.perm_middle.trans (List.Perm.cons y ?_)
        exact List.Perm.append_left q hsuf.symm
      refine ⟨t, ht, ?_, ?_, ?_, h4⟩
      · refine h1.trans ?_
        refine List.Perm.trans ?_ (hpm.filter _).symm
        simp [hy]
      · refine h2.trans ?_
        rw [List.append_assoc]
        refine List.Perm.append_left _ ?_
        refine List.Perm.trans ?_ (hpm.filter _).symm
        simp [hy]
      · rw [h3]
        have := ((hpm.filter p).map fun i => s.used i + (j.it i).margins).sum_eq
        rw [this]
        simp [hy, add_assoc]
    · rw [if_neg hy, List.append_nil]
      refine ih q (y :: suf) s hq (by rw [hs]; simp) ?_
      intro x hx
      rcases List.mem_cons.1 hx with rfl | hx
      · simpa using hy
      · exact hp x hx

/-! ## The beginning -/

theorem init_aux (j : Job) (n : Nat) :
    ∃ t, (List.range n).foldl j.sort ⟨[], [], 0, fun _ => 0⟩ = t ∧
      t.unfrozen = (List.range n).filter (fun i => !j.still i) ∧
      t.frozen = (List.range n).filter (fun i => j.still i) ∧
      t.sumFrozen = (((List.range n).filter (fun i => j.still i)).map fun i => t.used i + (j.it i).margins).sum ∧
      ∀ i, i < n → t.used i = if j.still i then (j.it i).hypo else (j.it i).base := by
  induction n with
  | zero => exact ⟨_, rfl, by simp, by simp, by simp, by omega⟩
  | succ n ih =>
    obtain ⟨t, ht, h1, h2, h3, h4⟩ := ih
    rw [List.range_succ, List.foldl_append, ht]
    refine ⟨_, rfl, ?_, ?_, ?_, ?_⟩
    all_goals simp only [List.foldl_cons, List.foldl_nil, Job.sort, List.filter_append, List.filter_cons,
      List.filter_nil]
    · by_cases hb : j.still n <;> simp [hb, h1]
    · by_cases hb : j.still n <;> simp [hb, h2]
    · have hne : ∀ i ∈ (List.range n).filter (fun i => j.still i), i ≠ n := by
        intro i hi
        have := List.mem_range.1 (List.mem_filter.1 hi).1
        omega
      by_cases hb : j.still n
      · simp only [hb, if_true, List.map_append, List.sum_append, List.map_cons, List.map_nil, List.sum_cons,
          List.sum_nil, add_zero]
        rw [h3]
        congr 2
        apply List.map_congr_left
        intro i hi
        rw [if_neg (hne i hi)]
      · simp only [hb, List.map_append, List.sum_append]
        simp only [Bool.false_eq_true, if_false, List.map_nil, List.sum_nil, add_zero]
        rw [h3]
        congr 1
        apply List.map_congr_left
        intro i hi
        rw [if_neg (hne i hi)]
    · intro i hi
      by_cases he : i = n
      · subst he
        by_cases hb : j.still i <;> simp [hb]
      · have hlt : i < n := by omega
        by_cases hb : j.still n <;> simp [hb, he, h4 i hlt]

theorem init_spec (j : Job) :
    j.init.unfrozen = (List.range j.count).filter (fun i => !j.still i) ∧
    j.init.frozen = (List.range j.count).filter (fun i => j.still i) ∧
    j.init.sumFrozen = (j.init.frozen.map fun i => j.init.used i + (j.it i).margins).sum ∧
    ∀ i, i < j.count → j.init.used i = if j.still i then (j.it i).hypo else (j.it i).base := by
  obtain ⟨t, ht, h1, h2, h3, h4⟩ := init_aux j j.count
  have : j.init = t := ht
  rw [this]
  exact ⟨h1, h2, by rw [h2]; exact h3, h4⟩

/-! ## One turn -/

/-- Every item is in one of the two lists, and only once; what is summed up is right. -/
structure Inv (j : Job) (s : St) : Prop where
  perm : (s.unfrozen ++ s.frozen).Perm (List.range j.count)
  sum : s.unfrozen ≠ [] → s.sumFrozen = (s.frozen.map fun i => s.used i + (j.it i).margins).sum

theorem Inv.nodup {j : Job} {s : St} (h : Inv j s) : (s.unfrozen ++ s.frozen).Nodup :=
  h.perm.nodup_iff.2 List.nodup_range

theorem Inv.not_frozen {j : Job} {s : St} (h : Inv j s) {i : Nat} (hi : i ∈ s.unfrozen) : i ∉ s.frozen := by
  have := List.nodup_append.1 h.nodup
  intro hf
  exact this.2.2 i hi i hf rfl

theorem Inv.lt {j : Job} {s : St} (h : Inv j s) {i : Nat} (hi : i ∈ s.unfrozen ∨ i ∈ s.frozen) : i < j.count := by
  have := h.perm.mem_iff.1 (List.mem_append.2 hi)
  exact List.mem_range.1 this

theorem Inv.mem {j : Job} {s : St} (h : Inv j s) {i : Nat} (hi : i < j.count) : i ∈ s.unfrozen ∨ i ∈ s.frozen :=
  List.mem_append.1 (h.perm.mem_iff.2 (List.mem_range.2 hi))

theorem filter_split (p : Nat → Bool) (l : List Nat) :
    (l.filter (fun x => !p x) ++ l.filter p).Perm l :=
  List.perm_append_comm.trans (List.filter_append_perm p l)

theorem Inv.init (j : Job) : Inv j j.init := by
  obtain ⟨h1, h2, h3, _⟩ := init_spec j
  refine ⟨?_, fun _ => h3⟩
  rw [h1, h2]
  exact filter_split j.still _

/-- What one turn does, in terms of the violations. -/
theorem step_spec (au : Rat → Rat) (j : Job) (free : Rat) (s : St) (h : Inv j s) :
    ∃ t, j.step au free s = t ∧ Inv j t ∧
      (∀ i, t.used i = if i ∈ s.unfrozen then (j.it i).fit (j.target au free s i) else s.used i) ∧
      ∃ p : Nat → Bool,
        (t.unfrozen.Perm (s.unfrozen.filter fun x => !p x)) ∧
        (t.frozen.Perm (s.frozen ++ s.unfrozen.filter p)) ∧
        (∀ i, p i = if j.violation (j.aim au free s) = 0 then true
          else if j.violation (j.aim au free s) < 0 then
            decide ((j.it i).fit ((j.aim au free s).used i) - (j.aim au free s).used i < 0)
          else decide (0 < (j.it i).fit ((j.aim au free s).used i) - (j.aim au free s).used i)) := by
  obtain ⟨a, ha⟩ : ∃ a, j.aim au free s = a := ⟨_, rfl⟩
  have hau : a.unfrozen = s.unfrozen := by rw [← ha]; rfl
  have haf : a.frozen = s.frozen := by rw [← ha]; rfl
  have has : a.sumFrozen = s.sumFrozen := by rw [← ha]; rfl
  have hus : ∀ i, a.used i = if i ∈ s.unfrozen then j.target au free s i else s.used i := by
    intro i; rw [← ha]; rfl
  have hset : ∀ i, (j.settle a).used i =
      if i ∈ s.unfrozen then (j.it i).fit (j.target au free s i) else s.used i := by
    intro i
    simp only [Job.settle, hau]
    by_cases hi : i ∈ s.unfrozen
    · rw [if_pos hi, if_pos hi, hus, if_pos hi]
    · rw [if_neg hi, if_neg hi, hus, if_neg hi]
  have hkeep : ∀ i ∈ s.frozen, (j.settle a).used i = s.used i := by
    intro i hi
    rw [hset, if_neg]
    intro hu
    exact h.not_frozen hu hi
  unfold Job.step
  rw [ha]
  unfold Job.thaw
  by_cases hv : j.violation a = 0
  · simp only [hv, if_true]
    refine ⟨_, rfl, ⟨?_, ?_⟩, hset, fun _ => true, ?_, ?_, fun _ => rfl⟩
    · simp only [List.nil_append, hau, haf]
      exact List.perm_append_comm.trans h.perm
    · exact fun hn => absurd rfl hn
    · simp
    · simp [hau, haf]
  · simp only [hv, if_false]
    obtain ⟨t, ht, h1, h2, h3, h4⟩ := freeze_all j
      (fun i => if j.violation a < 0 then decide (j.off a i < 0) else decide (0 < j.off a i))
      s.unfrozen.length s.unfrozen [] (j.settle a) rfl (by simp [Job.settle, hau]) (by simp)
    have hsu : (j.settle a).unfrozen = s.unfrozen := hau
    have hsf : (j.settle a).frozen = s.frozen := haf
    rw [hsu] at h1 h2 h3
    rw [hsf] at h2
    have hss : (j.settle a).sumFrozen = s.sumFrozen := has
    have hix : j.indexes a = (List.range s.unfrozen.length).filter fun k =>
        if j.violation a < 0 then decide (j.off a (s.unfrozen.getD k 0) < 0)
        else decide (0 < j.off a (s.unfrozen.getD k 0)) := by
      rw [← hau]; rfl
    refine ⟨t, ?_, ⟨?_, ?_⟩, ?_, _, h1, h2, ?_⟩
    · rw [hix]
      exact ht
    · refine (h1.append h2).trans ?_
      refine List.Perm.trans ?_ h.perm
      refine List.Perm.trans (List.Perm.append_left _ List.perm_append_comm) ?_
      rw [← List.append_assoc]
      exact List.Perm.append_right _ (filter_split _ _)
    · intro hne
      have hsne : s.unfrozen ≠ [] := by
        intro h0
        rw [h0] at h1
        exact hne (List.perm_nil.1 h1)
      rw [h3, hss, h4, h.sum hsne, (h2.map _).sum_eq, List.map_append, List.sum_append]
      congr 2
      apply List.map_congr_left
      intro i hi
      rw [hkeep i hi]
    · rw [h4]
      exact hset
    · intro i
      rfl

/-- The loop comes to an end as soon as every turn freezes something. -/
theorem loop_ends (au : Rat → Rat) (j : Job) (free : Rat) (P : St → Prop)
    (hP : ∀ s, P s → s.unfrozen ≠ [] →
      P (j.step au free s) ∧ (j.step au free s).unfrozen.length < s.unfrozen.length) :
    ∀ (fuel : Nat) (s : St), P s → s.unfrozen.length ≤ fuel →
      ∃ t, P t ∧ t.unfrozen = [] ∧ j.loop au free fuel s = some t.used := by
  intro fuel
  induction fuel with
  | zero =>
    intro s hs hl
    have : s.unfrozen = [] := List.length_eq_zero_iff.1 (by omega)
    exact ⟨s, hs, this, by rw [Job.loop, if_pos this]⟩
  | succ n ih =>
    intro s hs hl
    by_cases h : s.unfrozen = []
    · exact ⟨s, hs, h, by rw [Job.loop, if_pos h]⟩
    · obtain ⟨h1, h2⟩ := hP s hs h
      obtain ⟨t, h3, h4, h5⟩ := ih _ h1 (by omega)
      exact ⟨t, h3, h4, by rw [Job.loop, if_neg h]; exact h5⟩

/-- What every turn keeps holds in the end. -/
theorem loop_keeps (au : Rat → Rat) (j : Job) (free : Rat) (P : St → Prop)
    (hP : ∀ s, P s → s.unfrozen ≠ [] → P (j.step au free s)) :
    ∀ (fuel : Nat) (s : St) (used : Nat → Rat), P s → j.loop au free fuel s = some used →
      ∃ t, P t ∧ t.unfrozen = [] ∧ t.used = used := by
  intro fuel
  induction fuel with
  | zero =>
    intro s used hs h
    rw [Job.loop] at h
    by_cases h0 : s.unfrozen = []
    · rw [if_pos h0] at h
      exact ⟨s, hs, h0, Option.some.inj h⟩
    · rw [if_neg h0] at h
      cases h
  | succ n ih =>
    intro s used hs h
    rw [Job.loop] at h
    by_cases h0 : s.unfrozen = []
    · rw [if_pos h0] at h
      exact ⟨s, hs, h0, Option.some.inj h⟩
    · rw [if_neg h0] at h
      exact ih _ used (hP s hs h0) h

/-! ## Allowed sizes -/

theorem clamp_clamp (x lo hi : Rat) : clamp (clamp x lo hi) lo hi = clamp x lo hi := by
  unfold clamp
  rcases le_total x hi with h1 | h1 <;> rcases le_total lo hi with h2 | h2 <;>
    rcases le_total lo x with h3 | h3 <;> simp [*]

theorem fit_fit (x : Item) (v : Rat) : x.fit (x.fit v) = x.fit v := by
  unfold Item.fit clamp
  simp only [max_def, min_def]
  grind

theorem fit_hypo (x : Item) (h : 0 ≤ x.hypo) : x.fit x.hypo = x.hypo := by
  unfold Item.fit
  have : clamp x.hypo x.lo x.hi = x.hypo := clamp_clamp _ _ _
  rw [this, max_eq_left h]

theorem fit_base (x : Item) (h : 0 ≤ x.hypo) : x.fit x.base = x.hypo := max_eq_left h

theorem sum_pos_mem (l : List Nat) (f : Nat → Rat) (h : 0 < (l.map f).sum) : ∃ i ∈ l, 0 < f i := by
  induction l with
  | nil => simp at h
  | cons a l ih =>
    by_cases ha : 0 < f a
    · exact ⟨a, List.mem_cons_self, ha⟩
    · have : 0 < (l.map f).sum := by
        simp only [List.map_cons, List.sum_cons] at h
        linarith
      obtain ⟨i, hi, hf⟩ := ih this
      exact ⟨i, List.mem_cons_of_mem _ hi, hf⟩

theorem sum_neg_mem (l : List Nat) (f : Nat → Rat) (h : (l.map f).sum < 0) : ∃ i ∈ l, f i < 0 := by
  induction l with
  | nil => simp at h
  | cons a l ih =>
    by_cases ha : f a < 0
    · exact ⟨a, List.mem_cons_self, ha⟩
    · have : (l.map f).sum < 0 := by
        simp only [List.map_cons, List.sum_cons] at h
        linarith
      obtain ⟨i, hi, hf⟩ := ih this
      exact ⟨i, List.mem_cons_of_mem _ hi, hf⟩

theorem sum_zero (l : List Nat) (f : Nat → Rat) (h : ∀ i ∈ l, f i = 0) : (l.map f).sum = 0 := by
  induction l with
  | nil => rfl
  | cons a l ih =>
    simp only [List.map_cons, List.sum_cons, h a List.mem_cons_self,
      ih fun i hi => h i (List.mem_cons_of_mem _ hi), add_zero]

/-- Frozen items have sizes that are allowed. -/
structure Tidy (j : Job) (s : St) : Prop extends Inv j s where
  fits : ∀ i ∈ s.frozen, (j.it i).fit (s.used i) = s.used i

theorem Tidy.init (j : Job) (h : ∀ i, i < j.count → 0 ≤ (j.it i).hypo) : Tidy j j.init := by
  refine ⟨Inv.init j, ?_⟩
  obtain ⟨_, h2, _, h4⟩ := init_spec j
  intro i hi
  rw [h2, List.mem_filter, List.mem_range] at hi
  rw [h4 i hi.1, if_pos hi.2]
  exact fit_hypo _ (h i hi.1)

theorem Tidy.violation {j : Job} {s : St} (h : Tidy j s) (au : Rat → Rat) (free : Rat) :
    j.violation (j.aim au free s) =
      (s.unfrozen.map fun i => (j.it i).fit (j.target au free s i) - j.target au free s i).sum := by
  unfold Job.violation
  have h1 : ((j.aim au free s).frozen.map (j.off (j.aim au free s))).sum = 0 := by
    apply sum_zero
    intro i hi
    have hi : i ∈ s.frozen := hi
    have hu : i ∉ s.unfrozen := fun hu => h.not_frozen hu hi
    simp only [Job.off, Job.aim, hu, if_false, h.fits i hi, sub_self]
  rw [h1, add_zero]
  congr 1
  apply List.map_congr_left
  intro i hi
  have hi : i ∈ s.unfrozen := hi
  simp only [Job.off, Job.aim, hi, if_true]

theorem Tidy.step {j : Job} {s : St} (h : Tidy j s) (au : Rat → Rat) (free : Rat) (hne : s.unfrozen ≠ []) :
    Tidy j (j.step au free s) ∧ (j.step au free s).unfrozen.length < s.unfrozen.length := by
  obtain ⟨t, ht, hi, hu, p, h1, h2, hp⟩ := step_spec au j free s h.toInv
  rw [ht]
  have haim : ∀ i ∈ s.unfrozen, (j.aim au free s).used i = j.target au free s i := by
    intro i hi
    simp only [Job.aim, hi, if_true]
  refine ⟨⟨hi, ?_⟩, ?_⟩
  · intro i hif
    have := h2.mem_iff.1 hif
    rw [hu]
    by_cases hiu : i ∈ s.unfrozen
    · rw [if_pos hiu, fit_fit]
    · rw [if_neg hiu]
      rcases List.mem_append.1 this with hf | hf
      · exact h.fits i hf
      · exact absurd (List.mem_filter.1 hf).1 hiu
  · rw [h1.length_eq]
    suffices ∃ i ∈ s.unfrozen, p i = true by
      obtain ⟨i, hi, hpi⟩ := this
      exact List.length_filter_lt_length_iff_exists.2 ⟨i, hi, by simp [hpi]⟩
    have hv := h.violation au free
    by_cases hv0 : j.violation (j.aim au free s) = 0
    · obtain ⟨i, hi⟩ := List.exists_mem_of_ne_nil _ hne
      exact ⟨i, hi, by rw [hp, if_pos hv0]⟩
    · by_cases hvn : j.violation (j.aim au free s) < 0
      · obtain ⟨i, hi, hneg⟩ := sum_neg_mem _ _ (hv ▸ hvn)
        refine ⟨i, hi, ?_⟩
        rw [hp, if_neg hv0, if_pos hvn, haim i hi]
        exact decide_eq_true hneg
      · have hvp : 0 < j.violation (j.aim au free s) := lt_of_le_of_ne (not_lt.1 hvn) (Ne.symm hv0)
        obtain ⟨i, hi, hpos⟩ := sum_pos_mem _ _ (hv ▸ hvp)
        refine ⟨i, hi, ?_⟩
        rw [hp, if_neg hv0, if_neg hvn, haim i hi]
        exact decide_eq_true hpos

end Verif.Flex
