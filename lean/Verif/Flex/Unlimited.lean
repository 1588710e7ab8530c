import Verif.Flex.Share
import Verif.Flex.Spec
/-!
# Flexible boxes: lines in which no limit matters
-/
namespace Verif.Flex

/-- Factors that are zero may be left out. -/
theorem sum_filter (l : List Nat) (p : Nat → Bool) (f : Nat → Rat) (h : ∀ i ∈ l, p i = false → f i = 0) :
    ((l.filter p).map f).sum = (l.map f).sum := by
  induction l with
  | nil => rfl
  | cons a l ih =>
    have ih := ih fun i hi => h i (List.mem_cons_of_mem _ hi)
    rw [List.filter_cons]
    cases hp : p a
    · simp only [Bool.false_eq_true, if_false, List.map_cons, List.sum_cons, ih, h a List.mem_cons_self hp, zero_add]
    · simp only [if_true, List.map_cons, List.sum_cons, ih]

theorem abs_of_nonneg {x : Rat} (h : 0 ≤ x) : abs x = x := by
  unfold abs
  rw [if_neg (not_lt.2 h)]

/-- What the items of a line would get if no limit mattered. -/
def Job.portion (au : Rat → Rat) (j : Job) (i : Nat) : Rat :=
  let left := j.main - j.outer (List.range j.count)
  if 0 < left then
    (j.it i).base + au ((j.it i).grow / ((List.range j.count).map fun k => (j.it k).grow).sum *
      (left * min 1 ((List.range j.count).map fun k => (j.it k).grow).sum))
  else
    (j.it i).base - au (au ((j.it i).base * (j.it i).shrink) /
      ((List.range j.count).map fun k => au ((j.it k).base * (j.it k).shrink)).sum *
      (-left * min 1 ((List.range j.count).map fun k => (j.it k).shrink).sum))

theorem loop_unlimited (au : Rat → Rat) (h0 : au 0 = 0) (j : Job)
    (hb : ∀ i, i < j.count → 0 ≤ (j.it i).lo ∧ (j.it i).lo ≤ (j.it i).base ∧ (j.it i).base ≤ (j.it i).hi)
    (hg : ∀ i, i < j.count → 0 ≤ (j.it i).grow) (hs : ∀ i, i < j.count → 0 ≤ (j.it i).shrink)
    (hp : ∀ i, i < j.count → (j.it i).lo ≤ j.portion au i ∧ j.portion au i ≤ (j.it i).hi) (fuel : Nat) :
    ∃ used, j.loop au (j.free j.init) (fuel + 1) j.init = some used ∧ ∀ i, i < j.count → used i = j.portion au i := by
  have hh : ∀ i, i < j.count → (j.it i).hypo = (j.it i).base := by
    intro i hi
    obtain ⟨h1, h2, h3⟩ := hb i hi
    unfold Item.hypo clamp
    rw [min_eq_left h3, max_eq_right h2]
  have hfit : ∀ i, i < j.count → (j.it i).fit (j.portion au i) = j.portion au i := by
    intro i hi
    obtain ⟨h1, h2⟩ := hp i hi
    unfold Item.fit clamp
    rw [min_eq_left h2, max_eq_right h1, max_eq_left (le_trans (hb i hi).1 h1)]
  obtain ⟨i1, i2, i3, i4⟩ := init_spec j
  have inv := Inv.init j
  have tidy : Tidy j j.init := Tidy.init j fun i hi => by rw [hh i hi]; exact le_trans (hb i hi).1 (hb i hi).2.1
  have hsum : j.sumHypo = j.outer (List.range j.count) := by
    unfold Job.sumHypo Job.outer
    congr 1
    apply List.map_congr_left
    intro i hi
    rw [hh i (List.mem_range.1 hi)]
  have hbase : ∀ i, i < j.count → j.init.used i = (j.it i).base := by
    intro i hi
    rw [i4 i hi, hh i hi, ite_self]
  have hfree : j.free j.init = j.main - j.outer (List.range j.count) := by
    unfold Job.free
    congr 1
    rw [i3]
    unfold Job.outer
    rw [inv.total]
    congr 2
    apply List.map_congr_left
    intro i hi
    rw [hbase i (inv.lt (.inr hi))]
  have hgrow : j.growing = decide (0 < j.main - j.outer (List.range j.count)) := by
    unfold Job.growing
    rw [hsum]
    apply decide_eq_decide.2
    constructor <;> intro h <;> linarith
  generalize hleft : j.main - j.outer (List.range j.count) = left at *
  -- items at rest have nothing to gain
  have hrest : ∀ i, i < j.count → j.still i = true → j.portion au i = (j.it i).base := by
    intro i hi hst
    unfold Job.portion
    rw [hleft]
    dsimp only
    have hnl : ¬(j.it i).base < (j.it i).base := lt_irrefl _
    unfold Job.still at hst
    rw [hh i hi] at hst
    simp only [hnl, decide_false, Bool.and_false, Bool.or_false, Bool.or_eq_true, Bool.and_eq_true,
      decide_eq_true_iff, Bool.not_eq_true'] at hst
    split
    · rename_i hpos
      have hgt : j.growing = true := by rw [hgrow]; exact decide_eq_true hpos
      have hnm : j.matched = false := by
        unfold Job.matched
        apply decide_eq_false
        rw [hsum]
        linarith
      rw [hgt, hnm] at hst
      simp only [Bool.false_eq_true, false_or, and_true, Bool.true_eq_false, and_false, or_false] at hst
      rw [hst]
      simp [h0]
    · rename_i hneg
      have hgf : j.growing = false := by rw [hgrow]; exact decide_eq_false hneg
      rw [hgf] at hst
      simp only [Bool.false_eq_true, and_false, or_false, and_true] at hst
      rcases hst with hst | hst
      · unfold Job.matched at hst
        have := of_decide_eq_true hst
        have : left = 0 := by rw [hsum] at this; linarith
        rw [this]
        simp [h0]
      · rw [hst]
        simp [h0]
  by_cases hnil : j.init.unfrozen = []
  · refine ⟨j.init.used, by rw [Job.loop, if_pos hnil], ?_⟩
    intro i hi
    have hst : j.still i = true := by
      have := List.filter_eq_nil_iff.1 (i1 ▸ hnil) i (List.mem_range.2 hi)
      simpa using this
    rw [hbase i hi, hrest i hi hst]
  · have hfac : ∀ k, k < j.count → 0 ≤ j.factor k := by
      intro k hk
      unfold Job.factor
      split
      · exact hg k hk
      · exact hs k hk
    have hstill0 : ∀ k ∈ List.range j.count, (!j.still k) = false → j.factor k = 0 := by
      intro k hk hst
      have hst : j.still k = true := by simpa using hst
      have hnm : j.matched = false := by
        cases hm : j.matched
        · rfl
        · exfalso
          apply hnil
          rw [i1]
          apply List.filter_eq_nil_iff.2
          intro x _
          simp [Job.still, hm]
      have hnl : ¬(j.it k).base < (j.it k).base := lt_irrefl _
      unfold Job.still at hst
      rw [hh k (List.mem_range.1 hk)] at hst
      simp only [hnm, hnl, decide_false, Bool.and_false, Bool.or_false, Bool.or_eq_true, Bool.and_eq_true,
        decide_eq_true_iff, Bool.not_eq_true', Bool.false_eq_true, false_or] at hst
      unfold Job.factor
      rcases hst with ⟨h1, h2⟩ | ⟨h1, h2⟩
      · rw [if_pos h2, h1]
      · rw [h2]; simpa using h1
    have hfactors : j.factors j.init.unfrozen = ((List.range j.count).map j.factor).sum := by
      unfold Job.factors
      rw [i1]
      exact sum_filter _ _ _ hstill0
    have hF0 : 0 ≤ ((List.range j.count).map j.factor).sum :=
      sum_nonneg _ _ fun k hk => hfac k (List.mem_range.1 hk)
    have hshare : j.toShare (j.free j.init) j.init = left * min 1 ((List.range j.count).map j.factor).sum := by
      unfold Job.toShare
      rw [hfree, hfactors]
      by_cases hlt : ((List.range j.count).map j.factor).sum < 1
      · rw [min_eq_right (le_of_lt hlt)]
        by_cases hz : left = 0
        · rw [hz]; simp
        · rw [if_pos]
          refine ⟨hlt, ?_⟩
          rcases lt_or_gt_of_ne hz with hn | hp'
          · rw [abs_of_nonpos (le_of_lt hn), abs_of_nonpos (by nlinarith)]
            nlinarith
          · rw [abs_of_nonneg (le_of_lt hp'), abs_of_nonneg (by nlinarith)]
            nlinarith
      · rw [if_neg (fun h => hlt h.1), min_eq_left (not_lt.1 hlt), mul_one]
    have htarget : ∀ i ∈ j.init.unfrozen, j.target au (j.free j.init) j.init i = j.portion au i := by
      intro i hi
      unfold Job.target Job.portion
      rw [hshare, hfactors, hleft]
      dsimp only
      by_cases hpos : 0 < left
      · have hgt : j.growing = true := by rw [hgrow]; exact decide_eq_true hpos
        have hf : ∀ k, j.factor k = (j.it k).grow := by intro k; unfold Job.factor; rw [if_pos hgt]
        have hgm : (List.range j.count).map j.factor = (List.range j.count).map fun k => (j.it k).grow :=
          List.map_congr_left fun k _ => hf k
        rw [if_pos hgt, if_pos hpos, hgm]
      · have hgf : j.growing = false := by rw [hgrow]; exact decide_eq_false hpos
        have hf : ∀ k, j.factor k = (j.it k).shrink := by intro k; unfold Job.factor; rw [hgf]; simp
        have hsc : (j.init.unfrozen.map (j.scaled au)).sum =
            ((List.range j.count).map fun k => au ((j.it k).base * (j.it k).shrink)).sum := by
          rw [i1]
          refine sum_filter _ _ _ ?_
          intro k hk hst
          have := hstill0 k hk hst
          rw [hf] at this
          unfold Job.scaled
          rw [this, mul_zero, h0]
        have habs : abs (left * min 1 ((List.range j.count).map j.factor).sum) =
            -left * min 1 ((List.range j.count).map j.factor).sum := by
          have h1 : 0 ≤ min 1 ((List.range j.count).map j.factor).sum := le_min zero_le_one hF0
          rw [abs_of_nonpos (by nlinarith [not_lt.1 hpos])]
          ring
        rw [hsc, habs, hgf, if_neg hpos]
        simp only [Bool.false_eq_true, if_false]
        have hsh : (List.range j.count).map j.factor = (List.range j.count).map fun k => (j.it k).shrink :=
          List.map_congr_left fun k _ => hf k
        rw [hsh]
        by_cases hz : ((List.range j.count).map fun k => au ((j.it k).base * (j.it k).shrink)).sum = 0
        · rw [if_pos hz, hz, div_zero, zero_mul, h0, sub_zero]
        · rw [if_neg hz]
          rfl
    have hv : j.violation (j.aim au (j.free j.init) j.init) = 0 := by
      rw [tidy.violation]
      apply sum_zero
      intro i hi
      rw [htarget i hi, hfit i (inv.lt (.inl hi)), sub_self]
    obtain ⟨t, ht, hinv, hus, p, h1, h2, hpp⟩ := step_spec au j (j.free j.init) j.init inv
    have hall : ∀ i, p i = true := by intro i; rw [hpp, if_pos hv]
    have htn : t.unfrozen = [] := by
      have : j.init.unfrozen.filter (fun x => !p x) = [] := List.filter_eq_nil_iff.2 fun x _ => by simp [hall x]
      rw [this] at h1
      exact List.perm_nil.1 h1
    refine ⟨t.used, ?_, ?_⟩
    · rw [Job.loop, if_neg hnil, ht]
      cases fuel <;> rw [Job.loop, if_pos htn]
    · intro i hi
      rw [hus]
      by_cases hiu : i ∈ j.init.unfrozen
      · rw [if_pos hiu, htarget i hiu, hfit i hi]
      · rw [if_neg hiu, hbase i hi]
        have hst : j.still i = true := by
          by_contra hst
          apply hiu
          rw [i1]
          exact List.mem_filter.2 ⟨List.mem_range.2 hi, by simpa using hst⟩
        rw [hrest i hi hst]

end Verif.Flex
