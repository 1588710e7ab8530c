import Verif.RuleIndex.Correct
namespace Verif.RuleIndex
open Verif.Selector

theorem matchSelector_not_or {d : Doc} {fuel n : Nat} {e : Element} {pe : Option Str} {s : Selector} {r}
    (hs : ∀ l, s ≠ .or l) (h : matchSelector d fuel s n e pe = .ok r) :
    ∃ b, matchSel d fuel s n e pe = .ok b ∧ r = if b then some (spec s) else none := by
  have : matchSelector d fuel s n e pe = (matchSel d fuel s n e pe).bind fun b => .ok (if b then some (spec s) else none) := by
    cases s <;> first | rfl | exact absurd rfl (hs _)
  rw [this] at h
  cases hm : matchSel d fuel s n e pe with
  | error f => rw [hm] at h; cases h
  | ok b => rw [hm] at h; exact ⟨b, rfl, by simpa [Except.bind] using h.symm⟩

theorem flatMap_only {β} (f : Nat → List β) (k : Nat) : ∀ (n s : Nat), (∀ c, c ≠ k → f c = []) →
    (List.range' s n).flatMap f = if s ≤ k ∧ k < s + n then f k else [] := by
  intro n
  induction n with
  | zero => intro s _; rw [if_neg (by omega)]; rfl
  | succ n ih =>
    intro s hf
    rw [List.range'_succ, List.flatMap_cons, ih _ hf]
    by_cases hs : s = k
    · subst hs; rw [if_neg (by omega), if_pos (by omega), List.append_nil]
    · rw [hf s hs, List.nil_append]
      by_cases hc : s + 1 ≤ k ∧ k < s + 1 + n
      · rw [if_pos hc, if_pos (by omega)]
      · rw [if_neg hc, if_neg (by omega)]

theorem flatMap_const {β} (x : β) : ∀ (n s : Nat), (List.range' s n).flatMap (fun _ => [x]) = List.replicate n x := by
  intro n
  induction n with
  | zero => intro s; rfl
  | succ n ih => intro s; rw [List.range'_succ, List.flatMap_cons, ih, List.replicate_succ]; rfl

theorem flatMap_nil {α β} (l : List α) : l.flatMap (fun _ => ([] : List β)) = [] := by
  induction l with
  | nil => rfl
  | cons a l ih => simpa using ih

variable {e : Element} (hD : Distinct e) (d : Doc) (fuel n : Nat) (pe : Option Str)
  (eval : Selector → Option Specificity) (needed : Nat → Option Nat) (rule : Nat → Selector)

/-- How a rule's contribution relates to testing it directly. -/
structure Faithful (h i : Nat) (s : Selector) : Prop where
  none_ : eval s = none → contrib eval needed rule h i = []
  some_ : ∀ sp, eval s = some sp → ∃ m sp', contrib eval needed rule h i = List.replicate (m + 1) (i, sp') ∧
    ((∀ l, s = .or l → h ≤ 1) → sp' = sp) ∧ ((∀ c a b, s ≠ .infix c a b) → m = 0) ∧ (∀ c a b, s = .infix c a b → m + 1 = h)

/-- Rules evaluated at every visit. -/
theorem faithful_eval {h i : Nat} {s : Selector} (hr : rule i = s) (hor : ∀ l, s ≠ .or l)
    (hE : ∀ c out, evaluate eval needed i s c out = evalRule eval i s out)
    (h0 : h = 0 → eval s = none) (h1 : (∀ c a b, s ≠ .infix c a b) → h = 1) :
    Faithful eval needed rule h i s := by
  have hf : fin eval h i s = [] := by cases s <;> first | rfl | exact absurd rfl (hor _)
  constructor
  · intro hn
    unfold contrib
    split
    · rfl
    · rw [hr, hf, List.append_nil]
      have : (fun c => evaluate eval needed i s c []) = fun _ => [] := by
        funext c; rw [hE]; simp [evalRule, hn]
      rw [this, flatMap_nil]
  · intro sp hs
    have hne : h ≠ 0 := by intro e; rw [h0 e] at hs; cases hs
    refine ⟨h - 1, sp, ?_, fun _ => rfl, ?_, ?_⟩
    · unfold contrib
      rw [if_neg hne, hr, hf, List.append_nil]
      have : (fun c => evaluate eval needed i s c []) = fun _ => [(i, sp)] := by
        funext c; rw [hE]; simp [evalRule, hs]
      rw [this, flatMap_const]; congr 1; omega
    · intro hx; have := h1 hx; omega
    · intros; omega

include hD

theorem faithful (i : Nat) (s : Selector) (hr : rule i = s) (hn : needed i = neededCount s)
    (hev : matchSelector d fuel s n e pe = .ok (eval s)) (ho : CaseOk s) :
    Faithful eval needed rule (hits (probe e pe) s) i s := by
  have hmiss := miss hD d fuel n pe s ho
  -- rules filed only under `rest` and evaluated at each visit
  have hrest : addKeys s = [.rest] → lookup s = none → (∀ l, s ≠ .or l) →
      (∀ c out, evaluate eval needed i s c out = evalRule eval i s out) →
      Faithful eval needed rule (hits (probe e pe) s) i s := by
    intro hk _ hor hE
    have h1 : hits (probe e pe) s = 1 := by rw [hits_eq hD, hk]; simp [rest_mem]
    exact faithful_eval eval needed rule hr hor hE (by omega) (fun _ => h1)
  -- rules that are a key
  have hkey : ∀ k, lookup s = some k → addKeys s = [k] → (∀ l, s ≠ .or l) → (∀ c a b, s ≠ .infix c a b) → AttrOk s →
      Faithful eval needed rule (hits (probe e pe) s) i s := by
    intro k hk hks hor hinf hao
    obtain ⟨b, hb, hbe⟩ := matchSelector_not_or hor hev
    rw [lookup_sound hD d fuel n pe hk hao] at hb
    have hf : ∀ h, fin eval h i s = [] := by intro h; cases s <;> first | rfl | exact absurd rfl (hor _)
    rw [hits_eq hD, hks]
    have hE : ∀ c, evaluate eval needed i s c [] = [(i, spec s)] := by
      intro c; simp [evaluate, hk]
    by_cases hm : k ∈ probe e pe
    · have hb' : b = true := by simpa [hm] using hb.symm
      rw [hb', if_pos rfl] at hbe
      simp only [List.countP_cons, List.countP_nil, hm, decide_true, if_true]
      constructor
      · intro h; rw [h] at hbe; cases hbe
      · intro sp hsp
        rw [hsp] at hbe; cases hbe
        exact ⟨0, _, by simp [contrib, hr, hE, hf], fun _ => rfl, fun _ => rfl, fun c a b h => absurd h (hinf c a b)⟩
    · have hb' : b = false := by simpa [hm] using hb.symm
      rw [hb'] at hbe
      simp only [List.countP_cons, List.countP_nil, hm, decide_false]
      constructor
      · intro _; rfl
      · intro sp hsp; rw [hsp] at hbe; cases hbe
  match s, hr, hn, hev, ho, hmiss, hrest, hkey with
  | .infix c lhs rhs, hr, hn, hev, ho, hmiss, hrest, hkey =>
    refine faithful_eval eval needed rule hr (by simp) (by intros; simp [evaluate, lookup]) ?_ (fun h => absurd rfl (h c lhs rhs))
    intro h0
    obtain ⟨b, hb, hbe⟩ := matchSelector_not_or (by simp) hev
    cases b with
    | true => exact absurd hb (hmiss h0)
    | false => exact hbe
  | .and l, hr, hn, hev, ho, hmiss, hrest, hkey =>
    obtain ⟨b, hb, hbe⟩ := matchSelector_not_or (by simp) hev
    by_cases hks : (l.filterMap lookup).length = 0
    · have hn' : needed i = none := by rw [hn]; simp [neededCount, hks]
      exact hrest (by simp [addKeys, hks]) rfl (by simp) (by intros; simp [evaluate, lookup, hn'])
    · have hn' : needed i = some (l.filterMap lookup).length := by rw [hn]; simp only [neededCount, hks, if_false]
      have hh : hits (probe e pe) (.and l) = (l.filterMap lookup).countP (fun k => decide (k ∈ probe e pe)) := by
        rw [hits_eq hD]; simp only [addKeys, hks, if_false]
      have hle : hits (probe e pe) (.and l) ≤ (l.filterMap lookup).length := by rw [hh]; exact List.countP_le_length
      have hE : ∀ c, c ≠ (l.filterMap lookup).length → evaluate eval needed i (.and l) c [] = [] := by
        intro c hc; simp [evaluate, lookup, hn', hc]
      have hE' : evaluate eval needed i (.and l) (l.filterMap lookup).length [] =
          if l.length ≠ (l.filterMap lookup).length then evalRule eval i (.and l) [] else [(i, spec (.and l))] := by
        simp [evaluate, lookup, hn']
      have hC : contrib eval needed rule (hits (probe e pe) (.and l)) i =
          if hits (probe e pe) (.and l) = (l.filterMap lookup).length then
            (if l.length ≠ (l.filterMap lookup).length then evalRule eval i (.and l) [] else [(i, spec (.and l))])
          else [] := by
        unfold contrib
        rw [hr, show fin eval (hits (probe e pe) (.and l)) i (.and l) = [] from rfl, List.append_nil, flatMap_only _ _ _ _ hE, hE']
        by_cases h1 : hits (probe e pe) (.and l) = (l.filterMap lookup).length
        · rw [if_pos h1, if_neg (by omega), if_pos (by omega)]
        · rw [if_neg h1]
          by_cases h2 : hits (probe e pe) (.and l) = 0
          · rw [if_pos h2]
          · rw [if_neg h2, if_neg (by omega)]
      by_cases h1 : hits (probe e pe) (.and l) = (l.filterMap lookup).length
      · rw [if_pos h1] at hC
        by_cases h2 : l.length = (l.filterMap lookup).length
        · -- every member is a key that is met
          rw [if_neg (by simpa using h2)] at hC
          have hall : ∀ s ∈ l, matchSel d fuel s n e pe = .ok true := by
            intro s hs
            have hsome : ∀ l : List Selector, l.length = (l.filterMap lookup).length → ∀ s ∈ l, (lookup s).isSome = true := by
              intro l
              induction l with
              | nil => simp
              | cons a l ih =>
                intro hl
                cases ha : lookup a with
                | none =>
                  rw [List.filterMap_cons_none ha] at hl
                  have := List.length_filterMap_le lookup l
                  simp at hl; omega
                | some k =>
                  rw [List.filterMap_cons_some ha] at hl
                  simp at hl
                  intro s hs
                  rcases List.mem_cons.1 hs with rfl | hs
                  · simp [ha]
                  · exact ih hl s hs
            obtain ⟨k, hk⟩ := Option.isSome_iff_exists.1 (hsome l h2 s hs)
            rw [lookup_sound hD d fuel n pe hk (ho s hs)]
            rw [hh] at h1
            have := List.countP_eq_length.1 h1 k (List.mem_filterMap.2 ⟨s, hs, hk⟩)
            simp at this; simp [this]
          simp only [matchSel] at hb
          rw [matchAll_of_all d fuel n pe hall] at hb
          cases hb
          rw [if_pos rfl] at hbe
          constructor
          · intro h; rw [h] at hbe; cases hbe
          · intro sp hsp
            rw [hsp] at hbe; cases hbe
            exact ⟨0, _, by simpa using hC, fun _ => rfl, fun _ => rfl, by simp⟩
        · rw [if_pos h2] at hC
          constructor
          · intro h; rw [hC]; simp [evalRule, h]
          · intro sp hsp
            exact ⟨0, sp, by rw [hC]; simp [evalRule, hsp], fun _ => rfl, fun _ => rfl, by simp⟩
      · rw [if_neg h1] at hC
        have hfalse : b = false := by
          cases b with
          | false => rfl
          | true =>
            exfalso
            have : ¬ ∀ k ∈ l.filterMap lookup, decide (k ∈ probe e pe) = true := fun hall =>
              h1 (by rw [hh]; exact List.countP_eq_length.2 hall)
            apply this
            intro k hk
            by_cases hp : k ∈ probe e pe
            · simp [hp]
            · simp only [matchSel] at hb
              exact absurd hb (and_false hD d fuel n pe ho hk hp)
        rw [hfalse] at hbe
        constructor
        · intro _; exact hC
        · intro sp hsp; rw [hsp] at hbe; cases hbe
  | .or l, hr, hn, hev, ho, hmiss, hrest, hkey =>
    have hlist := C10_list_takes_best_match d fuel l n e pe _ hev
    have hE : (fun c => evaluate eval needed i (.or l) c []) = fun _ => [] := by
      funext c; simp [evaluate, lookup]
    have hC : contrib eval needed rule (hits (probe e pe) (.or l)) i =
        if hits (probe e pe) (.or l) = 0 then [] else
        if hits (probe e pe) (.or l) = 1 then evalRule eval i (.or l) [] else [(i, spec (.or l))] := by
      unfold contrib; rw [hr, hE, flatMap_nil]; rfl
    have hsome2 : 2 ≤ hits (probe e pe) (.or l) → eval (.or l) ≠ none := by
      intro h2 hnone
      have hall := hlist.1.1 hnone
      rw [hits_eq hD] at h2
      simp only [addKeys, List.countP_append] at h2
      have hz : (l.filterMap lookup).countP (fun k => decide (k ∈ probe e pe)) = 0 := by
        rw [List.countP_eq_zero]
        intro k hk
        obtain ⟨s, hs, hsk⟩ := List.mem_filterMap.1 hk
        have := hall s hs
        rw [lookup_sound hD d fuel n pe hsk (ho s hs)] at this
        simpa using this
      rw [hz] at h2
      have : (if l.any (fun s => (lookup s).isNone) then [Key.rest] else []).countP (fun k => decide (k ∈ probe e pe)) ≤ 1 := by
        refine Nat.le_trans List.countP_le_length ?_
        split <;> simp
      omega
    constructor
    · intro h
      rw [hC]
      split
      · rfl
      · split
        · simp [evalRule, h]
        · exact absurd h (hsome2 (by omega))
    · intro sp hsp
      have hne : hits (probe e pe) (.or l) ≠ 0 := by
        intro h0
        have hall : ∀ s ∈ l, matchSel d fuel s n e pe = .ok false := by
          intro s hs
          rw [hits_eq hD, List.countP_eq_zero] at h0
          simp only [addKeys, List.mem_append] at h0
          cases hk : lookup s with
          | none =>
            have : l.any (fun s => (lookup s).isNone) = true := List.any_eq_true.2 ⟨s, hs, by simp [hk]⟩
            have := h0 .rest (.inr (by simp [this]))
            simp [rest_mem] at this
          | some k =>
            rw [lookup_sound hD d fuel n pe hk (ho s hs)]
            have := h0 k (.inl (List.mem_filterMap.2 ⟨s, hs, hk⟩))
            simpa using this
        rw [hlist.1.2 hall] at hsp; cases hsp
      rw [if_neg hne] at hC
      by_cases h1 : hits (probe e pe) (.or l) = 1
      · rw [if_pos h1] at hC
        exact ⟨0, sp, by rw [hC]; simp [evalRule, hsp], fun _ => rfl, fun _ => rfl, by simp⟩
      · rw [if_neg h1] at hC
        exact ⟨0, _, by simpa using hC, fun h => absurd (h l rfl) (by omega), fun _ => rfl, by simp⟩
  | .not _, hr, hn, hev, ho, hmiss, hrest, hkey | .where_ _, hr, hn, hev, ho, hmiss, hrest, hkey
  | .empty, hr, hn, hev, ho, hmiss, hrest, hkey
  | .link, hr, hn, hev, ho, hmiss, hrest, hkey | .root, hr, hn, hev, ho, hmiss, hrest, hkey
  | .nthChild _ _, hr, hn, hev, ho, hmiss, hrest, hkey | .nthOfType _ _, hr, hn, hev, ho, hmiss, hrest, hkey
  | .firstOfType, hr, hn, hev, ho, hmiss, hrest, hkey | .lastOfType, hr, hn, hev, ho, hmiss, hrest, hkey
  | .firstChild, hr, hn, hev, ho, hmiss, hrest, hkey | .lastChild, hr, hn, hev, ho, hmiss, hrest, hkey
  | .otherPseudo, hr, hn, hev, ho, hmiss, hrest, hkey =>
    exact hrest rfl rfl (by simp) (by intros; rfl)
  | .id _, hr, hn, hev, ho, hmiss, hrest, hkey | .class_ _, hr, hn, hev, ho, hmiss, hrest, hkey
  | .pseudoElement _, hr, hn, hev, ho, hmiss, hrest, hkey =>
    exact hkey _ rfl rfl (by simp) (by simp) trivial
  | .type q, hr, hn, hev, ho, hmiss, hrest, hkey =>
    cases hk : lookup (.type q) with
    | none => exact hrest (by simp [addKeys, hk]) hk (by simp) (by intros; simp [evaluate, hk])
    | some k => exact hkey k hk (by simp [addKeys, hk]) (by simp) (by simp) trivial
  | .attr a, hr, hn, hev, ho, hmiss, hrest, hkey =>
    cases hk : lookup (.attr a) with
    | none => exact hrest (by simp [addKeys, hk]) hk (by simp) (by intros; simp [evaluate, hk])
    | some k => exact hkey k hk (by simp [addKeys, hk]) (by simp) (by simp) ho

end Verif.RuleIndex
