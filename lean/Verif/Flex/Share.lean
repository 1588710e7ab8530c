import Verif.Flex.Loop
import Mathlib.Tactic.FieldSimp
import Mathlib.Tactic.Ring
/-!
# Flexible boxes: who gets what

In exact arithmetic. A level is a number that says how far items are stretched: at level `l` an item is to have its
base size and `l` times its weight, as far as its limits allow. All items end up at the same level.
-/
namespace Verif.Flex

/-! ## Sums -/

theorem sum_le (l : List Nat) (f g : Nat → Rat) (h : ∀ i ∈ l, f i ≤ g i) : (l.map f).sum ≤ (l.map g).sum := by
  induction l with
  | nil => simp
  | cons a l ih =>
    simp only [List.map_cons, List.sum_cons]
    have h1 := h a List.mem_cons_self
    have h2 := ih fun i hi => h i (List.mem_cons_of_mem _ hi)
    linarith

theorem sum_add (l : List Nat) (f g : Nat → Rat) : (l.map fun i => f i + g i).sum = (l.map f).sum + (l.map g).sum := by
  induction l with
  | nil => simp
  | cons a l ih => simp only [List.map_cons, List.sum_cons, ih]; ring

theorem sum_sub (l : List Nat) (f g : Nat → Rat) : (l.map fun i => f i - g i).sum = (l.map f).sum - (l.map g).sum := by
  induction l with
  | nil => simp
  | cons a l ih => simp only [List.map_cons, List.sum_cons, ih]; ring

theorem sum_mul (l : List Nat) (f : Nat → Rat) (c : Rat) : (l.map fun i => f i * c).sum = (l.map f).sum * c := by
  induction l with
  | nil => simp
  | cons a l ih => simp only [List.map_cons, List.sum_cons, ih]; ring

theorem sum_nonneg (l : List Nat) (f : Nat → Rat) (h : ∀ i ∈ l, 0 ≤ f i) : 0 ≤ (l.map f).sum := by
  have := sum_le l (fun _ => 0) f h
  rw [sum_zero l (fun _ => 0) fun _ _ => rfl] at this
  exact this

theorem le_sum (l : List Nat) (f : Nat → Rat) (h : ∀ i ∈ l, 0 ≤ f i) {i : Nat} (hi : i ∈ l) : f i ≤ (l.map f).sum := by
  induction l with
  | nil => cases hi
  | cons a l ih =>
    simp only [List.map_cons, List.sum_cons]
    have h1 := h a List.mem_cons_self
    have h2 := sum_nonneg l f fun i hi => h i (List.mem_cons_of_mem _ hi)
    rcases List.mem_cons.1 hi with rfl | hi
    · linarith
    · have := ih (fun i hi => h i (List.mem_cons_of_mem _ hi)) hi
      linarith

/-! ## Allowed sizes -/

theorem fit_mono (x : Item) {u v : Rat} (h : u ≤ v) : x.fit u ≤ x.fit v :=
  max_le_max (max_le_max le_rfl (min_le_min h le_rfl)) le_rfl

theorem fit_top (x : Item) {u v : Rat} (h : u ≤ v) (hu : x.fit u < u) : x.fit v = x.fit u := by
  revert hu
  unfold Item.fit clamp
  simp only [max_def, min_def]
  grind

theorem fit_bot (x : Item) {u v : Rat} (h : v ≤ u) (hu : u < x.fit u) : x.fit v = x.fit u := by
  revert hu
  unfold Item.fit clamp
  simp only [max_def, min_def]
  grind

/-! ## Levels -/

/-- How strongly an item takes part. -/
def Job.weight (j : Job) (i : Nat) : Rat := if j.growing then (j.it i).grow else (j.it i).base * (j.it i).shrink

/-- The size at a level, limits aside. -/
def Job.at (j : Job) (i : Nat) (l : Rat) : Rat := (j.it i).base + j.weight i * l

/-- The size at a level. -/
def Job.want (j : Job) (i : Nat) (l : Rat) : Rat := (j.it i).fit (j.at i l)

/-- What all items take at a level. -/
def Job.total (j : Job) (l : Rat) : Rat :=
  ((List.range j.count).map fun i => j.want i l + (j.it i).margins).sum

/-- No negative lengths, and no factors between zero and one. -/
structure Plain (j : Job) : Prop where
  lo : ∀ i, i < j.count → 0 ≤ (j.it i).lo
  base : ∀ i, i < j.count → 0 ≤ (j.it i).base
  grow : ∀ i, i < j.count → (j.it i).grow = 0 ∨ 1 ≤ (j.it i).grow
  shrink : ∀ i, i < j.count → (j.it i).shrink = 0 ∨ 1 ≤ (j.it i).shrink

theorem Plain.hypo {j : Job} (h : Plain j) {i : Nat} (hi : i < j.count) : 0 ≤ (j.it i).hypo :=
  le_trans (h.lo i hi) (le_max_left _ _)

theorem Plain.weight {j : Job} (h : Plain j) {i : Nat} (hi : i < j.count) : 0 ≤ j.weight i := by
  unfold Job.weight
  split
  · rcases h.grow i hi with h | h <;> linarith
  · refine mul_nonneg (h.base i hi) ?_
    rcases h.shrink i hi with h | h <;> linarith

theorem Plain.at_mono {j : Job} (h : Plain j) {i : Nat} (hi : i < j.count) {l m : Rat} (hl : l ≤ m) :
    j.at i l ≤ j.at i m := by
  unfold Job.at
  have := mul_le_mul_of_nonneg_left hl (h.weight hi)
  linarith

theorem Plain.want_mono {j : Job} (h : Plain j) {i : Nat} (hi : i < j.count) {l m : Rat} (hl : l ≤ m) :
    j.want i l ≤ j.want i m := fit_mono _ (h.at_mono hi hl)

theorem Plain.total_mono {j : Job} (h : Plain j) {l m : Rat} (hl : l ≤ m) : j.total l ≤ j.total m := by
  apply sum_le
  intro i hi
  have := h.want_mono (List.mem_range.1 hi) hl
  linarith

/-- What is known in the middle of the loop. `lo`: a level at which too little is taken; `hi`: one at which too much
is. -/
structure Shared (j : Job) (s : St) (lo hi : Option Rat) : Prop extends Tidy j s where
  frozen : ∀ i ∈ s.frozen, (∃ h ∈ hi, j.at i h < s.used i ∧ s.used i = j.want i h) ∨
    (∃ l ∈ lo, s.used i < j.at i l ∧ s.used i = j.want i l) ∨ (j.weight i = 0 ∧ s.used i = j.want i 0)
  low : ∀ l ∈ lo, j.total l < j.main ∧ ∀ i ∈ s.unfrozen, j.at i l ≤ j.want i l
  high : ∀ h ∈ hi, j.main < j.total h ∧ ∀ i ∈ s.unfrozen, j.want i h ≤ j.at i h
  up : j.growing = true → ∃ l ∈ lo, 0 ≤ l
  down : j.growing = false → ∃ h ∈ hi, h ≤ 0
  free : ∀ i ∈ s.unfrozen, j.still i = false

theorem Shared.lt {j : Job} {s : St} {lo hi : Option Rat} (p : Plain j) (h : Shared j s lo hi) {l u : Rat}
    (hl : l ∈ lo) (hu : u ∈ hi) : l < u := by
  by_contra hn
  have := p.total_mono (not_lt.1 hn)
  have h1 := (h.low l hl).1
  have h2 := (h.high u hu).1
  linarith

/-- `m` lies between the two levels. -/
def Amid (lo hi : Option Rat) (m : Rat) : Prop := (∀ l ∈ lo, l ≤ m) ∧ ∀ h ∈ hi, m ≤ h

theorem Shared.still {j : Job} {s : St} {lo hi : Option Rat} (p : Plain j) (h : Shared j s lo hi) {m : Rat}
    (hm : Amid lo hi m) {i : Nat} (hi : i ∈ s.frozen) : j.want i m = s.used i := by
  have hlt := h.toInv.lt (.inr hi)
  rcases h.frozen i hi with ⟨u, hu, h1, h2⟩ | ⟨l, hl, h1, h2⟩ | ⟨h1, h2⟩
  · rw [h2]
    exact fit_bot _ (p.at_mono hlt (hm.2 u hu)) (by rw [h2] at h1; exact h1)
  · rw [h2]
    exact fit_top _ (p.at_mono hlt (hm.1 l hl)) (by rw [h2] at h1; exact h1)
  · rw [h2]
    simp only [Job.want, Job.at, h1, zero_mul]

theorem Inv.total {j : Job} {s : St} (h : Inv j s) (f : Nat → Rat) :
    ((List.range j.count).map f).sum = (s.unfrozen.map f).sum + (s.frozen.map f).sum := by
  rw [← (h.perm.map f).sum_eq, List.map_append, List.sum_append]

theorem Shared.total {j : Job} {s : St} {lo hi : Option Rat} (p : Plain j) (h : Shared j s lo hi) {m : Rat}
    (hm : Amid lo hi m) :
    j.total m = (s.unfrozen.map fun i => j.want i m + (j.it i).margins).sum +
      (s.frozen.map fun i => s.used i + (j.it i).margins).sum := by
  unfold Job.total
  rw [h.toInv.total]
  congr 2
  apply List.map_congr_left
  intro i hi
  rw [h.still p hm hi]

theorem Shared.amid_lo {j : Job} {s : St} {lo hi : Option Rat} (p : Plain j) (h : Shared j s lo hi) {l : Rat}
    (hl : l ∈ lo) : Amid lo hi l := by
  refine ⟨?_, fun u hu => le_of_lt (h.lt p hl hu)⟩
  intro l' hl'
  rw [Option.mem_def] at hl hl'
  rw [hl] at hl'
  rw [Option.some.inj hl']

theorem Shared.amid_hi {j : Job} {s : St} {lo hi : Option Rat} (p : Plain j) (h : Shared j s lo hi) {u : Rat}
    (hu : u ∈ hi) : Amid lo hi u := by
  refine ⟨fun l hl => le_of_lt (h.lt p hl hu), ?_⟩
  intro l' hl'
  rw [Option.mem_def] at hu hl'
  rw [hu] at hl'
  rw [Option.some.inj hl']

/-! ## The level of a turn -/

/-- All weights still in play. -/
def Job.weights (j : Job) (u : List Nat) : Rat := (u.map j.weight).sum

theorem Shared.free_eq {j : Job} {s : St} {lo hi : Option Rat} (h : Shared j s lo hi) (hne : s.unfrozen ≠ [])
    {m : Rat} (hm : j.weights s.unfrozen * m = j.free s) :
    (s.unfrozen.map fun i => j.at i m + (j.it i).margins).sum +
      (s.frozen.map fun i => s.used i + (j.it i).margins).sum = j.main := by
  have h1 : (s.unfrozen.map fun i => j.at i m + (j.it i).margins).sum =
      j.outer s.unfrozen + j.weights s.unfrozen * m := by
    unfold Job.outer Job.weights
    rw [← sum_mul, ← sum_add]
    congr 1
    apply List.map_congr_left
    intro i _
    unfold Job.at
    ring
  rw [h1, hm]
  unfold Job.free
  rw [h.sum hne]
  ring

/-- The level lies strictly between what is too low and what is too high. -/
theorem Shared.between {j : Job} {s : St} {lo hi : Option Rat} (p : Plain j) (h : Shared j s lo hi)
    (hne : s.unfrozen ≠ []) (hw : 0 < j.weights s.unfrozen) {m : Rat} (hm : j.weights s.unfrozen * m = j.free s) :
    (∀ l ∈ lo, l < m) ∧ ∀ u ∈ hi, m < u := by
  have hf := h.free_eq hne hm
  have hat : ∀ x, (s.unfrozen.map fun i => j.at i x + (j.it i).margins).sum =
      j.outer s.unfrozen + j.weights s.unfrozen * x := by
    intro x
    unfold Job.outer Job.weights
    rw [← sum_mul, ← sum_add]
    congr 1
    apply List.map_congr_left
    intro i _
    unfold Job.at
    ring
  rw [hat] at hf
  constructor
  · intro l hl
    have h1 := (h.low l hl).1
    rw [h.total p (h.amid_lo p hl)] at h1
    have h2 : (s.unfrozen.map fun i => j.at i l + (j.it i).margins).sum ≤
        (s.unfrozen.map fun i => j.want i l + (j.it i).margins).sum := by
      apply sum_le
      intro i hi
      have := (h.low l hl).2 i hi
      linarith
    rw [hat] at h2
    have h3 : j.weights s.unfrozen * l < j.weights s.unfrozen * m := by linarith
    exact lt_of_mul_lt_mul_left h3 (le_of_lt hw)
  · intro u hu
    have h1 := (h.high u hu).1
    rw [h.total p (h.amid_hi p hu)] at h1
    have h2 : (s.unfrozen.map fun i => j.want i u + (j.it i).margins).sum ≤
        (s.unfrozen.map fun i => j.at i u + (j.it i).margins).sum := by
      apply sum_le
      intro i hi
      have := (h.high u hu).2 i hi
      linarith
    rw [hat] at h2
    have h3 : j.weights s.unfrozen * m < j.weights s.unfrozen * u := by linarith
    exact lt_of_mul_lt_mul_left h3 (le_of_lt hw)

/-! ## What the code aims at -/

theorem abs_of_nonpos {x : Rat} (h : x ≤ 0) : abs x = -x := by
  unfold abs
  split
  · rfl
  · have : x = 0 := le_antisymm h (not_lt.1 ‹_›)
    rw [this]; simp

theorem Shared.toShare {j : Job} {s : St} {lo hi : Option Rat} (p : Plain j) (h : Shared j s lo hi)
    (hne : s.unfrozen ≠ []) (init : Rat) : j.toShare init s = j.free s := by
  unfold Job.toShare
  rw [if_neg]
  rintro ⟨h1, -⟩
  have hge : ∀ i ∈ s.unfrozen, 1 ≤ j.factor i := by
    intro i hi
    have hlt := h.toInv.lt (.inl hi)
    have hst := h.free i hi
    unfold Job.still at hst
    simp only [Bool.or_eq_false_iff] at hst
    unfold Job.factor
    cases hg : j.growing
    · rw [hg] at hst
      simp only [Bool.not_false, Bool.and_true, decide_eq_false_iff_not] at hst
      simpa using (p.shrink i hlt).resolve_left hst.2
    · rw [hg] at hst
      simp only [Bool.and_true, decide_eq_false_iff_not] at hst
      simpa using (p.grow i hlt).resolve_left hst.1.2
  obtain ⟨i, hi⟩ := List.exists_mem_of_ne_nil _ hne
  have h2 := le_sum s.unfrozen j.factor (fun i hi => le_trans zero_le_one (hge i hi)) hi
  have h3 := hge i hi
  unfold Job.factors at h1
  linarith

theorem Shared.target {j : Job} {s : St} {lo hi : Option Rat} (p : Plain j) (h : Shared j s lo hi)
    (hne : s.unfrozen ≠ []) (hw : 0 < j.weights s.unfrozen) (init : Rat) {m : Rat}
    (hm : j.weights s.unfrozen * m = j.free s) (i : Nat) : j.target id init s i = j.at i m := by
  unfold Job.target
  rw [h.toShare p hne]
  cases hg : j.growing
  · have hb := (h.between p hne hw hm).2
    obtain ⟨u, hu, hu0⟩ := h.down hg
    have hm0 : m < 0 := lt_of_lt_of_le (hb u hu) hu0
    have hf : j.free s ≤ 0 := by rw [← hm]; nlinarith
    have hs : (s.unfrozen.map (j.scaled id)).sum = j.weights s.unfrozen := by
      unfold Job.weights
      congr 1
      apply List.map_congr_left
      intro k _
      simp [Job.scaled, Job.weight, hg]
    have hsc : j.scaled id i = j.weight i := by simp [Job.scaled, Job.weight, hg]
    rw [hs, hsc, abs_of_nonpos hf, ← hm]
    simp only [Bool.false_eq_true, if_false, id]
    rw [if_neg (ne_of_gt hw)]
    unfold Job.at
    have : j.weight i / j.weights s.unfrozen * -(j.weights s.unfrozen * m) = -(j.weight i * m) := by
      field_simp
    rw [this]
    ring
  · have hs : j.factors s.unfrozen = j.weights s.unfrozen := by
      unfold Job.weights Job.factors
      congr 1
      apply List.map_congr_left
      intro k _
      simp [Job.factor, Job.weight, hg]
    simp only [if_true, id]
    rw [hs, ← hm]
    unfold Job.at
    have : j.weight i = (j.it i).grow := by simp [Job.weight, hg]
    rw [this]
    field_simp

/-! ## One turn -/

/-- The level has been found: the line is full. -/
def Full (j : Job) (s : St) : Prop :=
  s.unfrozen = [] ∧ ∃ m, (j.growing = true → 0 ≤ m) ∧ (j.growing = false → m ≤ 0) ∧
    (∀ i, i < j.count → s.used i = j.want i m) ∧ j.total m = j.main

theorem Shared.step_weighty {j : Job} {s : St} {lo hi : Option Rat} (p : Plain j) (h : Shared j s lo hi)
    (hne : s.unfrozen ≠ []) (hw : 0 < j.weights s.unfrozen) (init : Rat) :
    (∃ lo' hi', Shared j (j.step id init s) lo' hi') ∨ Full j (j.step id init s) := by
  obtain ⟨m, hm⟩ : ∃ m, j.weights s.unfrozen * m = j.free s :=
    ⟨j.free s / j.weights s.unfrozen, mul_div_cancel₀ _ (ne_of_gt hw)⟩
  have hb := h.between p hne hw hm
  have htg := h.target p hne hw init hm
  have ham : Amid lo hi m := ⟨fun l hl => le_of_lt (hb.1 l hl), fun u hu => le_of_lt (hb.2 u hu)⟩
  have htidy := (h.toTidy.step id init hne).1
  obtain ⟨t, ht, hinv, hused, q, h1, h2, hq⟩ := step_spec id j init s h.toInv
  rw [ht] at htidy ⊢
  have hv : j.violation (j.aim id init s) = j.total m - j.main := by
    rw [h.toTidy.violation, ← h.free_eq hne hm, h.total p ham]
    have : (s.unfrozen.map fun i => (j.it i).fit (j.target id init s i) - j.target id init s i) =
        s.unfrozen.map fun i => (j.want i m + (j.it i).margins) - (j.at i m + (j.it i).margins) := by
      apply List.map_congr_left
      intro i _
      rw [htg]
      unfold Job.want
      ring
    rw [this, sum_sub]
    ring
  have haim : ∀ i ∈ s.unfrozen, (j.aim id init s).used i = j.at i m := by
    intro i hi
    simp only [Job.aim, hi, if_true, htg]
  have hus : ∀ i ∈ s.unfrozen, t.used i = j.want i m := by
    intro i hi
    rw [hused, if_pos hi, htg]
    rfl
  have hfz : ∀ i ∈ s.frozen, t.used i = s.used i := by
    intro i hi
    rw [hused, if_neg]
    intro hu
    exact h.toInv.not_frozen hu hi
  have hsub : ∀ i ∈ t.unfrozen, i ∈ s.unfrozen ∧ q i = false := by
    intro i hi
    have := List.mem_filter.1 (h1.mem_iff.1 hi)
    exact ⟨this.1, by simpa using this.2⟩
  have hfr : ∀ i ∈ t.frozen, i ∈ s.frozen ∨ (i ∈ s.unfrozen ∧ q i = true) := by
    intro i hi
    rcases List.mem_append.1 (h2.mem_iff.1 hi) with hi | hi
    · exact .inl hi
    · exact .inr (List.mem_filter.1 hi)
  have hup : j.growing = true → 0 ≤ m := by
    intro hg
    obtain ⟨l, hl, h0⟩ := h.up hg
    exact le_trans h0 (le_of_lt (hb.1 l hl))
  have hdown : j.growing = false → m ≤ 0 := by
    intro hg
    obtain ⟨l, hl, h0⟩ := h.down hg
    exact le_trans (le_of_lt (hb.2 l hl)) h0
  by_cases hv0 : j.violation (j.aim id init s) = 0
  · right
    have hall : ∀ i, q i = true := by intro i; rw [hq, if_pos hv0]
    have hnil : t.unfrozen = [] := by
      refine List.eq_nil_iff_forall_not_mem.2 ?_
      intro i hi
      have := (hsub i hi).2
      rw [hall i] at this
      cases this
    refine ⟨hnil, m, hup, hdown, ?_, by rw [hv] at hv0; linarith⟩
    intro i hi
    rcases h.toInv.mem hi with hi | hi
    · exact hus i hi
    · rw [hfz i hi, h.still p ham hi]
  · left
    by_cases hvn : j.violation (j.aim id init s) < 0
    · refine ⟨some m, hi, htidy, ?_, ?_, ?_, ?_, h.down, ?_⟩
      · intro i hif
        rcases hfr i hif with hi | ⟨hi, hqi⟩
        · rw [hfz i hi]
          rcases h.frozen i hi with h3 | ⟨l, hl, h3, h4⟩ | h3
          · exact .inl h3
          · refine .inr (.inl ⟨m, rfl, ?_, (h.still p ham hi).symm⟩)
            exact lt_of_lt_of_le h3 (p.at_mono (h.toInv.lt (.inr hi)) (le_of_lt (hb.1 l hl)))
          · exact .inr (.inr h3)
        · rw [hus i hi]
          rw [hq, if_neg hv0, if_pos hvn, haim i hi] at hqi
          have := of_decide_eq_true hqi
          refine .inr (.inl ⟨m, rfl, ?_, rfl⟩)
          unfold Job.want
          linarith
      · intro l hl
        obtain rfl := Option.some.inj hl
        refine ⟨by rw [hv] at hvn; linarith, ?_⟩
        intro i hi
        obtain ⟨hi, hqi⟩ := hsub i hi
        rw [hq, if_neg hv0, if_pos hvn, haim i hi] at hqi
        have := of_decide_eq_false hqi
        unfold Job.want
        linarith
      · intro u hu
        exact ⟨(h.high u hu).1, fun i hi => (h.high u hu).2 i (hsub i hi).1⟩
      · exact fun hg => ⟨m, rfl, hup hg⟩
      · exact fun i hi => h.free i (hsub i hi).1
    · have hvp : 0 < j.violation (j.aim id init s) := lt_of_le_of_ne (not_lt.1 hvn) (Ne.symm hv0)
      refine ⟨lo, some m, htidy, ?_, ?_, ?_, h.up, ?_, ?_⟩
      · intro i hif
        rcases hfr i hif with hi | ⟨hi, hqi⟩
        · rw [hfz i hi]
          rcases h.frozen i hi with ⟨l, hl, h3, h4⟩ | h3 | h3
          · refine .inl ⟨m, rfl, ?_, (h.still p ham hi).symm⟩
            exact lt_of_le_of_lt (p.at_mono (h.toInv.lt (.inr hi)) (le_of_lt (hb.2 l hl))) h3
          · exact .inr (.inl h3)
          · exact .inr (.inr h3)
        · rw [hus i hi]
          rw [hq, if_neg hv0, if_neg hvn, haim i hi] at hqi
          have := of_decide_eq_true hqi
          refine .inl ⟨m, rfl, ?_, rfl⟩
          unfold Job.want
          linarith
      · intro u hu
        exact ⟨(h.low u hu).1, fun i hi => (h.low u hu).2 i (hsub i hi).1⟩
      · intro l hl
        obtain rfl := Option.some.inj hl
        refine ⟨by rw [hv] at hvp; linarith, ?_⟩
        intro i hi
        obtain ⟨hi, hqi⟩ := hsub i hi
        rw [hq, if_neg hv0, if_neg hvn, haim i hi] at hqi
        have := of_decide_eq_false hqi
        unfold Job.want
        linarith
      · exact fun hg => ⟨m, rfl, hdown hg⟩
      · exact fun i hi => h.free i (hsub i hi).1

theorem Shared.step_light {j : Job} {s : St} {lo hi : Option Rat} (p : Plain j) (h : Shared j s lo hi)
    (hne : s.unfrozen ≠ []) (hw : ¬0 < j.weights s.unfrozen) (init : Rat) :
    ∃ lo' hi', Shared j (j.step id init s) lo' hi' := by
  have hwn : ∀ i ∈ s.unfrozen, 0 ≤ j.weight i := fun i hi => p.weight (h.toInv.lt (.inl hi))
  have hw0 : ∀ i ∈ s.unfrozen, j.weight i = 0 := by
    intro i hi
    have h1 := le_sum s.unfrozen j.weight hwn hi
    have h2 := hwn i hi
    unfold Job.weights at hw
    linarith
  have hwz : j.weights s.unfrozen = 0 := sum_zero _ _ hw0
  have hg : j.growing = false := by
    cases hg : j.growing
    · rfl
    · obtain ⟨i, hi⟩ := List.exists_mem_of_ne_nil _ hne
      have h1 := hw0 i hi
      have hst := h.free i hi
      unfold Job.still at hst
      rw [hg] at hst
      simp only [Bool.or_eq_false_iff, Bool.and_true, decide_eq_false_iff_not] at hst
      simp only [Job.weight, hg, if_true] at h1
      exact absurd h1 hst.1.2
  have htidy := (h.toTidy.step id init hne).1
  obtain ⟨t, ht, hinv, hused, q, h1, h2, hq⟩ := step_spec id j init s h.toInv
  rw [ht] at htidy ⊢
  have hs : (s.unfrozen.map (j.scaled id)).sum = 0 := by
    rw [← hwz]
    unfold Job.weights
    congr 1
    apply List.map_congr_left
    intro k _
    simp [Job.scaled, Job.weight, hg]
  have htg : ∀ i, j.target id init s i = (j.it i).base := by
    intro i
    unfold Job.target
    rw [hg, hs]
    simp
  have hus : ∀ i ∈ s.unfrozen, t.used i = j.want i 0 := by
    intro i hi
    rw [hused, if_pos hi, htg]
    unfold Job.want Job.at
    simp
  have hfz : ∀ i ∈ s.frozen, t.used i = s.used i := by
    intro i hi
    rw [hused, if_neg]
    intro hu
    exact h.toInv.not_frozen hu hi
  have hsub : ∀ i ∈ t.unfrozen, i ∈ s.unfrozen := by
    intro i hi
    exact (List.mem_filter.1 (h1.mem_iff.1 hi)).1
  refine ⟨lo, hi, htidy, ?_, ?_, ?_, h.up, h.down, ?_⟩
  · intro i hif
    rcases List.mem_append.1 (h2.mem_iff.1 hif) with hi | hi
    · rw [hfz i hi]
      exact h.frozen i hi
    · have hi := (List.mem_filter.1 hi).1
      exact .inr (.inr ⟨hw0 i hi, hus i hi⟩)
  · exact fun l hl => ⟨(h.low l hl).1, fun i hi => (h.low l hl).2 i (hsub i hi)⟩
  · exact fun l hl => ⟨(h.high l hl).1, fun i hi => (h.high l hl).2 i (hsub i hi)⟩
  · exact fun i hi => h.free i (hsub i hi)

/-! ## The beginning and the end -/

theorem want_zero {j : Job} (p : Plain j) {i : Nat} (hi : i < j.count) : j.want i 0 = (j.it i).hypo := by
  unfold Job.want Job.at
  rw [mul_zero, add_zero, fit_base _ (p.hypo hi)]

theorem total_zero {j : Job} (p : Plain j) : j.total 0 = j.sumHypo := by
  unfold Job.total Job.sumHypo
  congr 1
  apply List.map_congr_left
  intro i hi
  rw [want_zero p (List.mem_range.1 hi)]

theorem Shared.init {j : Job} (p : Plain j) :
    (∃ lo hi, Shared j j.init lo hi) ∨ Full j j.init := by
  obtain ⟨h1, h2, _, h4⟩ := init_spec j
  have htidy : Tidy j j.init := Tidy.init j fun i hi => p.hypo hi
  by_cases hm : j.sumHypo = j.main
  · right
    have hst : ∀ i, j.still i = true := by
      intro i
      simp [Job.still, Job.matched, hm]
    refine ⟨?_, 0, fun _ => le_rfl, fun _ => le_rfl, ?_, by rw [total_zero p, hm]⟩
    · rw [h1]
      simp [hst]
    · intro i hi
      rw [h4 i hi, if_pos (hst i), want_zero p hi]
  · left
    have hmt : j.matched = false := by simp [Job.matched, hm]
    have hat : ∀ i, j.at i 0 = (j.it i).base := by intro i; simp [Job.at]
    have hopen : ∀ i ∈ j.init.unfrozen, i < j.count ∧ j.still i = false := by
      intro i hi
      rw [h1, List.mem_filter, List.mem_range] at hi
      exact ⟨hi.1, by simpa using hi.2⟩
    by_cases hg : j.sumHypo < j.main
    · have hgr : j.growing = true := by simp [Job.growing, hg]
      refine ⟨some 0, none, htidy, ?_, ?_, fun _ h => (by cases h), fun _ => ⟨0, rfl, le_rfl⟩,
        fun h => by (rw [hgr] at h; cases h), fun i hi => (hopen i hi).2⟩
      · intro i hi
        rw [h2, List.mem_filter, List.mem_range] at hi
        rw [h4 i hi.1, if_pos hi.2]
        have hs := hi.2
        simp only [Job.still, hmt, hgr, Bool.false_or, Bool.true_and, Bool.not_true, Bool.false_and, Bool.or_false,
          Bool.and_true, Bool.and_false, Bool.or_eq_true, decide_eq_true_iff] at hs
        rcases hs with hs | hs
        · exact .inr (.inl ⟨0, rfl, by rw [hat]; exact hs, (want_zero p hi.1).symm⟩)
        · exact .inr (.inr ⟨by simp [Job.weight, hgr, hs], (want_zero p hi.1).symm⟩)
      · intro l hl
        obtain rfl := Option.some.inj hl
        refine ⟨by rw [total_zero p]; exact hg, ?_⟩
        intro i hi
        obtain ⟨hi, hs⟩ := hopen i hi
        simp only [Job.still, hmt, hgr, Bool.false_or, Bool.true_and, Bool.not_true, Bool.false_and, Bool.or_false,
          Bool.and_true, Bool.and_false, Bool.or_eq_false_iff, decide_eq_false_iff_not] at hs
        rw [hat, want_zero p hi]
        exact not_lt.1 hs.1
    · have hgr : j.growing = false := by simp [Job.growing, hg]
      refine ⟨none, some 0, htidy, ?_, fun _ h => (by cases h), ?_, fun h => by (rw [hgr] at h; cases h),
        fun _ => ⟨0, rfl, le_rfl⟩, fun i hi => (hopen i hi).2⟩
      · intro i hi
        rw [h2, List.mem_filter, List.mem_range] at hi
        rw [h4 i hi.1, if_pos hi.2]
        have hs := hi.2
        simp only [Job.still, hmt, hgr, Bool.false_or, Bool.true_and, Bool.not_false, Bool.false_and, Bool.or_false,
          Bool.and_true, Bool.and_false, Bool.or_eq_true, decide_eq_true_iff] at hs
        rcases hs with hs | hs
        · exact .inl ⟨0, rfl, by rw [hat]; exact hs, (want_zero p hi.1).symm⟩
        · exact .inr (.inr ⟨by simp [Job.weight, hgr, hs], (want_zero p hi.1).symm⟩)
      · intro l hl
        obtain rfl := Option.some.inj hl
        refine ⟨by rw [total_zero p]; exact lt_of_le_of_ne (not_lt.1 hg) (Ne.symm hm), ?_⟩
        intro i hi
        obtain ⟨hi, hs⟩ := hopen i hi
        simp only [Job.still, hmt, hgr, Bool.false_or, Bool.true_and, Bool.not_false, Bool.false_and, Bool.or_false,
          Bool.and_true, Bool.and_false, Bool.or_eq_false_iff, decide_eq_false_iff_not] at hs
        rw [hat, want_zero p hi]
        exact not_lt.1 hs.1

/-- All items are at one level, and the line is full, or no higher level would fill it better, or no lower one. -/
def Levelled (j : Job) (used : Nat → Rat) : Prop :=
  ∃ m, (j.growing = true → 0 ≤ m) ∧ (j.growing = false → m ≤ 0) ∧
    (∀ i, i < j.count → used i = j.want i m) ∧
    (j.total m = j.main ∨
      (j.total m < j.main ∧ ∀ m', m ≤ m' → ∀ i, i < j.count → j.want i m' = used i) ∨
      (j.main < j.total m ∧ ∀ m', m' ≤ m → ∀ i, i < j.count → j.want i m' = used i))

theorem Shared.done {j : Job} {s : St} {lo hi : Option Rat} (p : Plain j) (h : Shared j s lo hi)
    (hnil : s.unfrozen = []) : Levelled j s.used := by
  have hmem : ∀ i, i < j.count → i ∈ s.frozen := by
    intro i hi
    rcases h.toInv.mem hi with h0 | h0
    · rw [hnil] at h0; cases h0
    · exact h0
  have hnot : ∀ l ∈ lo, ∀ u ∈ hi, False := by
    intro l hl u hu
    have h1 := (h.low l hl).1
    have h2 := (h.high u hu).1
    rw [h.total p (h.amid_lo p hl), hnil] at h1
    rw [h.total p (h.amid_hi p hu), hnil] at h2
    simp only [List.map_nil, List.sum_nil] at h1 h2
    linarith
  cases hg : j.growing
  · obtain ⟨u, hu, h0⟩ := h.down hg
    have ham := h.amid_hi p hu
    refine ⟨u, fun hn => (by rw [hg] at hn; cases hn), fun _ => h0, ?_, .inr (.inr ⟨(h.high u hu).1, ?_⟩)⟩
    · intro i hi
      exact (h.still p ham (hmem i hi)).symm
    · intro m' hm' i hi
      refine h.still p ⟨?_, ?_⟩ (hmem i hi)
      · intro l hl
        exact (hnot l hl u hu).elim
      · intro u' hu'
        have := ham.2 u' hu'
        exact le_trans hm' this
  · obtain ⟨l, hl, h0⟩ := h.up hg
    have ham := h.amid_lo p hl
    refine ⟨l, fun _ => h0, fun hn => (by rw [hg] at hn; cases hn), ?_, .inr (.inl ⟨(h.low l hl).1, ?_⟩)⟩
    · intro i hi
      exact (h.still p ham (hmem i hi)).symm
    · intro m' hm' i hi
      refine h.still p ⟨?_, ?_⟩ (hmem i hi)
      · intro l' hl'
        exact le_trans (ham.1 l' hl') hm'
      · intro u hu
        exact (hnot l hl u hu).elim

/-- The sizes the loop ends with. -/
theorem loop_levelled (j : Job) (p : Plain j) (init : Rat) (fuel : Nat) (used : Nat → Rat)
    (h : j.loop id init fuel j.init = some used) : Levelled j used := by
  obtain ⟨t, ht, hnil, rfl⟩ := loop_keeps id j init
    (fun s => (∃ lo hi, Shared j s lo hi) ∨ Full j s)
    (by
      rintro s (⟨lo, hi, hs⟩ | hs) hne
      · by_cases hw : 0 < j.weights s.unfrozen
        · exact hs.step_weighty p hne hw init
        · exact .inl (hs.step_light p hne hw init)
      · exact absurd hs.1 hne)
    fuel j.init used (Shared.init p) h
  rcases ht with ⟨lo, hi, hs⟩ | hs
  · exact hs.done p hnil
  · obtain ⟨_, m, h1, h2, h3, h4⟩ := hs
    exact ⟨m, h1, h2, h3, .inl h4⟩

end Verif.Flex
