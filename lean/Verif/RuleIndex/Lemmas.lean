import Verif.RuleIndex.Merge
namespace Verif.RuleIndex
open Verif.Selector

/-- Rule number `i`, counted from 1. -/
abbrev ruleAt (rules : List Selector) (i : Nat) : Selector := rules.getD (i - 1) .empty

/-- How many entries of rule `s` an element with keys `pr` meets. -/
def hits (pr : List Key) (s : Selector) : Nat := (pr.map (fun k => (addKeys s).count k)).sum

theorem snoc_ind {α} {P : List α → Prop} (h0 : P []) (h1 : ∀ l a, P l → P (l ++ [a])) (l : List α) : P l := by
  rw [← List.reverse_reverse l]
  induction l.reverse with
  | nil => exact h0
  | cons a l ih => rw [List.reverse_cons]; exact h1 _ _ ih

theorem build_append (rules : List Selector) (s : Selector) : build (rules ++ [s]) = (build rules).add s := by
  simp [build, List.foldl_append]

theorem pushAll (i : Nat) (k : Key) (ks : List Key) : ∀ t : Key → List Nat,
    (ks.foldl (fun t k => pushAt t i k) t) k = t k ++ List.replicate (ks.count k) i := by
  induction ks with
  | nil => intro t; simp
  | cons a ks ih =>
    intro t
    simp only [List.foldl_cons, ih, pushAt]
    by_cases h : k = a
    · subst h; simp [List.replicate_succ]
    · have h' : ¬ a = k := fun e => h e.symm
      simp [h, h']

theorem build_count (rules : List Selector) : (build rules).count = rules.length := by
  induction rules using snoc_ind with
  | h0 => rfl
  | h1 rules s ih => rw [build_append]; simp [Index.add, ih]

theorem ruleAt_append {rules : List Selector} {s i} (h : i < rules.length + 1) (h1 : 1 ≤ i) : ruleAt (rules ++ [s]) i = ruleAt rules i := by
  have : i - 1 < rules.length := by omega
  simp [List.getD, List.getElem?_append_left this]

theorem ruleAt_last {rules : List Selector} {s} : ruleAt (rules ++ [s]) (rules.length + 1) = s := by
  simp [List.getD]

theorem flatMap_congr_mem {α β} {l : List α} {f g : α → List β} (h : ∀ a ∈ l, f a = g a) : l.flatMap f = l.flatMap g := by
  induction l with
  | nil => rfl
  | cons a l ih => simp only [List.flatMap_cons]; rw [h a (by simp), ih (fun x hx => h x (by simp [hx]))]

theorem build_table (rules : List Selector) (k : Key) : 
    (build rules).table k = (List.range' 1 rules.length).flatMap (fun i => List.replicate ((addKeys (ruleAt rules i)).count k) i) := by
  induction rules using snoc_ind with
  | h0 => rfl
  | h1 rules s ih =>
    rw [build_append]
    simp only [Index.add, pushAll, build_count, ih, List.length_append, List.length_singleton]
    rw [List.range'_concat, List.flatMap_append]
    congr 1
    · apply flatMap_congr_mem
      intro i hi
      rw [List.mem_range'_1] at hi
      rw [ruleAt_append (by omega) (by omega)]
    · simp only [Nat.one_mul, List.flatMap_cons, List.flatMap_nil, List.append_nil]
      rw [Nat.add_comm 1, ruleAt_last]

theorem build_needed (rules : List Selector) (i : Nat) (h1 : 1 ≤ i) (h2 : i ≤ rules.length) :
    (build rules).needed i = neededCount (ruleAt rules i) := by
  induction rules using snoc_ind with
  | h0 => simp at h2; omega
  | h1 rules s ih =>
    rw [build_append]
    simp only [Index.add, build_count]
    simp only [List.length_append, List.length_singleton] at h2
    by_cases h : i = rules.length + 1
    · subst h; simp [ruleAt_last]
    · rw [if_neg h, ruleAt_append (by omega) h1]; exact ih (by omega)

theorem sorted_reps (h : Nat → Nat) : ∀ (n s : Nat), ((List.range' s n).flatMap (fun i => List.replicate (h i) i)).Pairwise (· ≤ ·) ∧
    ∀ x ∈ (List.range' s n).flatMap (fun i => List.replicate (h i) i), s ≤ x := by
  intro n
  induction n with
  | zero => intro s; simp
  | succ n ih =>
    intro s
    obtain ⟨h1, h2⟩ := ih (s + 1)
    rw [List.range'_succ, List.flatMap_cons]
    constructor
    · rw [List.pairwise_append]
      refine ⟨List.pairwise_replicate.2 (.inr (Nat.le_refl _)), h1, ?_⟩
      intro a ha b hb
      rw [List.mem_replicate] at ha
      have := h2 b hb; omega
    · intro x hx
      rw [List.mem_append, List.mem_replicate] at hx
      rcases hx with hx | hx
      · omega
      · have := h2 x hx; omega

theorem count_reps (h : Nat → Nat) (x : Nat) : ∀ (n s : Nat),
    ((List.range' s n).flatMap (fun i => List.replicate (h i) i)).count x = if s ≤ x ∧ x < s + n then h x else 0 := by
  intro n
  induction n with
  | zero => intro s; rw [if_neg (by omega)]; rfl
  | succ n ih =>
    intro s
    rw [List.range'_succ, List.flatMap_cons, List.count_append, ih, List.count_replicate]
    by_cases hx : s = x
    · subst hx
      rw [if_neg (by omega : ¬ (s + 1 ≤ s ∧ s < s + 1 + n)), if_pos (by omega : s ≤ s ∧ s < s + (n + 1))]
      simp
    · have : (s == x) = false := by simpa using hx
      simp only [this, Bool.false_eq_true, if_false, Nat.zero_add]
      by_cases hc : s + 1 ≤ x ∧ x < s + 1 + n
      · rw [if_pos hc, if_pos (by omega)]
      · rw [if_neg hc, if_neg (by omega)]

theorem cursors_flatten (x : Index) (e : Element) (pe : Option Str) :
    (cursors x e pe).flatten = (probe e pe).flatMap x.table := by
  unfold cursors
  induction probe e pe with
  | nil => rfl
  | cons k ks ih =>
    simp only [List.filterMap_cons, List.flatMap_cons]
    by_cases hk : (x.table k).isEmpty
    · have : x.table k = [] := by simpa using hk
      simp only [hk, if_true, ih]
      rw [this, List.nil_append]
    · simp only [hk, if_false, Bool.false_eq_true, List.flatten_cons, ih]

theorem count_flatMap_sum {α} (l : List α) (f : α → List Nat) (x : Nat) :
    (l.flatMap f).count x = (l.map (fun a => (f a).count x)).sum := by
  induction l with
  | nil => rfl
  | cons a l ih => simp [ih]

/-- The processed sequence: every rule, in order, as often as it was met. -/
def visits (rules : List Selector) (pr : List Key) : List Nat :=
  (List.range' 1 rules.length).flatMap (fun i => List.replicate (hits pr (ruleAt rules i)) i)

theorem loop_visits (f : Merge → Nat → Merge) (rules : List Selector) (e : Element) (pe : Option Str) (m : Merge) :
    let cs := cursors (build rules) e pe
    mergeLoop f (cs.map List.length).sum cs m = (visits rules (probe e pe)).foldl f m := by
  intro cs
  have hc : ∀ c ∈ cs, c ≠ [] ∧ c.Pairwise (· ≤ ·) := by
    intro c hc
    obtain ⟨k, _, hk⟩ := List.mem_filterMap.1 hc
    split at hk
    · cases hk
    · rename_i hne
      cases hk
      refine ⟨by simpa using hne, ?_⟩
      rw [build_table]
      exact (sorted_reps _ _ _).1
  obtain ⟨o, h1, h2, h3⟩ := merge_spec f _ cs m rfl hc
  rw [h1]
  congr 1
  apply eq_of_sorted_perm h2 (sorted_reps _ _ _).1
  refine h3.trans ?_
  rw [cursors_flatten, List.perm_iff_count]
  intro x
  rw [count_flatMap_sum, count_reps]
  simp only [build_table, count_reps]
  by_cases hx : 1 ≤ x ∧ x < 1 + rules.length
  · simp only [hx, and_self, if_true]; rfl
  · simp only [hx, if_false]
    induction probe e pe with
    | nil => rfl
    | cons k ks ih => simpa using ih

/-! ## Processing -/

section
variable (eval : Selector → Option Specificity) (needed : Nat → Option Nat) (rule : Nat → Selector)

theorem evalRule_append (i s out) : evalRule eval i s out = out ++ evalRule eval i s [] := by
  unfold evalRule; cases eval s <;> simp

theorem evaluate_append (i s c out) : evaluate eval needed i s c out = out ++ evaluate eval needed i s c [] := by
  unfold evaluate
  split
  · simp
  · split
    · simp
    · split
      · rw [evalRule_append]
      · split
        · simp
        · split
          · rw [evalRule_append]
          · simp
    · rw [evalRule_append]

/-- What the finalisation adds for a list rule met `h` times. -/
def fin (h i : Nat) (s : Selector) : List (Nat × Specificity) :=
  match s with
  | .or l => if h = 1 then evalRule eval i (.or l) [] else [(i, spec (.or l))]
  | _ => []

theorem finalize_eq (m : Merge) (s) (h : m.last = some s) : finalize eval m = m.out ++ fin eval m.count m.lastId s := by
  unfold finalize fin
  rw [h]
  cases s <;> simp only [List.append_nil]
  split
  · rw [evalRule_append]
  · rfl

/-- All that a rule met `h` times contributes. -/
def contrib (h i : Nat) : List (Nat × Specificity) :=
  if h = 0 then [] else
    (List.range' 1 h).flatMap (fun c => evaluate eval needed i (rule i) c []) ++ fin eval h i (rule i)

theorem run_more (i : Nat) : ∀ (k : Nat) (m : Merge), m.lastId = i → m.last = some (rule i) →
    let m' := (List.replicate k i).foldl (round eval needed rule) m
    m'.lastId = i ∧ m'.last = some (rule i) ∧ m'.count = m.count + k ∧
      m'.out = m.out ++ (List.range' (m.count + 1) k).flatMap (fun c => evaluate eval needed i (rule i) c []) := by
  intro k
  induction k with
  | zero => intro m h1 h2; simp [h1, h2]
  | succ k ih =>
    intro m h1 h2
    simp only [List.replicate_succ, List.foldl_cons]
    have hr : round eval needed rule m i = ⟨m.count + 1, i, some (rule i), evaluate eval needed i (rule i) (m.count + 1) m.out⟩ := by
      simp [round, h1]
    obtain ⟨a, b, c, d⟩ := ih (round eval needed rule m i) (by rw [hr]) (by rw [hr])
    refine ⟨a, b, ?_, ?_⟩
    · rw [c, hr]; simp; omega
    · rw [d, hr, List.range'_succ, List.flatMap_cons, evaluate_append]; simp

theorem run_rule (i h : Nat) (m : Merge) (hm : m.lastId ≠ i) :
    let m' := (List.replicate h i).foldl (round eval needed rule) m
    (h = 0 ∨ m'.lastId = i) ∧ (h = 0 → m' = m) ∧
      finalize eval m' = finalize eval m ++ contrib eval needed rule h i := by
  cases h with
  | zero => simp [contrib]
  | succ k =>
    simp only [List.replicate_succ, List.foldl_cons]
    have hr : round eval needed rule m i = ⟨1, i, some (rule i), evaluate eval needed i (rule i) 1 (finalize eval m)⟩ := by
      simp [round, hm]
    obtain ⟨a, b, c, d⟩ := run_more eval needed rule i k (round eval needed rule m i) (by rw [hr]) (by rw [hr])
    refine ⟨.inr a, by omega, ?_⟩
    rw [finalize_eq eval _ _ b, a, c, d, hr, evaluate_append]
    unfold contrib
    rw [if_neg (by omega), List.range'_succ, List.flatMap_cons]
    simp [Nat.add_comm]

theorem run_all (h : Nat → Nat) : ∀ (n s : Nat) (m : Merge), m.lastId < s →
    finalize eval (((List.range' s n).flatMap (fun i => List.replicate (h i) i)).foldl (round eval needed rule) m) =
      finalize eval m ++ (List.range' s n).flatMap (fun i => contrib eval needed rule (h i) i) := by
  intro n
  induction n with
  | zero => intro s m _; simp
  | succ n ih =>
    intro s m hm
    rw [List.range'_succ, List.flatMap_cons, List.foldl_append, List.flatMap_cons]
    obtain ⟨a, b, c⟩ := run_rule eval needed rule s (h s) m (by omega)
    rw [ih, c, List.append_assoc]
    rcases a with a | a
    · rw [b a]; omega
    · rw [a]; omega
end

/-- `match` is the concatenation of what each rule contributes. -/
theorem matchRules_eq (eval : Selector → Option Specificity) (rules : List Selector) (e : Element) (pe : Option Str) :
    matchRules eval rules e pe = (List.range' 1 rules.length).flatMap (fun i =>
      contrib eval (build rules).needed (ruleAt rules) (hits (probe e pe) (ruleAt rules i)) i) := by
  unfold matchRules
  simp only [loop_visits]
  unfold visits
  rw [run_all eval (build rules).needed (fun i => rules.getD (i - 1) .empty)
    (fun i => hits (probe e pe) (ruleAt rules i)) _ _ _ (by decide)]
  rfl

end Verif.RuleIndex
