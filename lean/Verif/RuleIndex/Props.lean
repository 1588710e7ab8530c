import Verif.RuleIndex.Contrib
import Verif.Cascade.Props
/-!
# Properties C11 and C52: which rules apply

`brute` tests the selectors one after the other.
-/
namespace Verif.RuleIndex
open Verif.Selector
open Verif.Cascade (Decl held Winner Lower)

/-- Every rule in turn, with its number and specificity when it matches. -/
def brute (eval : Selector → Option Specificity) (rules : List Selector) : List (Nat × Specificity) :=
  (rules.zipIdx 1).filterMap fun (s, i) => (eval s).map (i, ·)

theorem brute_range (eval : Selector → Option Specificity) (rules : List Selector) :
    brute eval rules = (List.range' 1 rules.length).flatMap (fun i => ((eval (ruleAt rules i)).map (i, ·)).toList) := by
  unfold brute
  induction rules using snoc_ind with
  | h0 => rfl
  | h1 rules s ih =>
    rw [List.zipIdx_append, List.filterMap_append, ih, List.length_append, List.length_singleton, List.range'_concat,
      List.flatMap_append]
    congr 1
    · apply flatMap_congr_mem
      intro i hi
      rw [List.mem_range'_1] at hi
      rw [ruleAt_append (by omega) (by omega)]
    · simp only [List.zipIdx_cons, List.zipIdx_nil, List.filterMap_cons, List.filterMap_nil, Nat.one_mul,
        List.flatMap_cons, List.flatMap_nil, List.append_nil]
      rw [Nat.add_comm 1 rules.length, ruleAt_last]
      cases eval s <;> rfl

/-- `eval` is what the matcher answers on this element, for all rules. -/
def Evaluates (d : Doc) (fuel n : Nat) (e : Element) (pe : Option Str) (rules : List Selector)
    (eval : Selector → Option Specificity) : Prop :=
  ∀ s ∈ rules, matchSelector d fuel s n e pe = .ok (eval s)

theorem rule_mem {rules : List Selector} {i} (h1 : 1 ≤ i) (h2 : i < 1 + rules.length) : ruleAt rules i ∈ rules := by
  have : i - 1 < rules.length := by omega
  simp [List.getD, this]

/-- **C11** (which rules, in what order), for elements without two attributes of one local
name and rules without `[a="v" i]`: the index reports the rules that match, in order; only
rules with a combinator may be reported several times in a row.

Missing from the full claim: see `C11_attribute_fails`, `C11_case_fails`, and for the
specificity of selector lists `C11_list_fails`. -/
theorem C11_same_rules_partial (d : Doc) (fuel n : Nat) (e : Element) (pe : Option Str) (rules : List Selector)
    (eval : Selector → Option Specificity) (he : Evaluates d fuel n e pe rules eval) (hD : Distinct e)
    (hc : ∀ s ∈ rules, CaseOk s) :
    ∃ m : Nat → Nat, (∀ i, 1 ≤ m i) ∧
      (matchRules eval rules e pe).map (·.1) = ((brute eval rules).map (·.1)).flatMap (fun i => List.replicate (m i) i) ∧
      ∀ i, (∀ c a b, ruleAt rules i ≠ .infix c a b) → m i = 1 := by
  refine ⟨fun i => (match ruleAt rules i with | .infix .. => hits (probe e pe) (ruleAt rules i) - 1 | _ => 0) + 1,
    fun i => Nat.le_add_left _ _, ?_, ?_⟩
  · rw [matchRules_eq, brute_range, List.map_flatMap, List.map_flatMap, List.flatMap_assoc]
    apply flatMap_congr_mem
    intro i hi
    rw [List.mem_range'_1] at hi
    have hm := rule_mem hi.1 hi.2
    have hf := faithful hD d fuel n pe eval (build rules).needed (ruleAt rules) i (ruleAt rules i) rfl
      (build_needed rules i hi.1 (by omega)) (he _ hm) (hc _ hm)
    cases hev : eval (ruleAt rules i) with
    | none => rw [hf.none_ hev]; rfl
    | some sp =>
      obtain ⟨m, sp', h1, _, h2, h3⟩ := hf.some_ sp hev
      rw [h1]
      simp only [List.map_replicate, Option.map_some, Option.toList_some, List.map_cons, List.map_nil,
        List.flatMap_cons, List.flatMap_nil, List.append_nil]
      congr 1
      split
      · rename_i heq; have h4 := h3 _ _ _ heq; show m + 1 = Nat.sub (hits (probe e pe) (ruleAt rules i)) 1 + 1; rw [← h4]; rfl
      · rename_i hne; rw [h2 (fun c a b h => hne c a b h)]
  · intro i hi
    dsimp only
    split
    · rename_i heq; exact absurd heq (hi _ _ _)
    · rfl

/-- **C11** (with specificities), when moreover each selector list is met at most once for
this element: the index reports what testing every rule reports, up to repeats in a row of
rules with a combinator. -/
theorem C11_same_result_partial (d : Doc) (fuel n : Nat) (e : Element) (pe : Option Str) (rules : List Selector)
    (eval : Selector → Option Specificity) (he : Evaluates d fuel n e pe rules eval) (hD : Distinct e)
    (hc : ∀ s ∈ rules, CaseOk s) (hor : ∀ l, Selector.or l ∈ rules → hits (probe e pe) (.or l) ≤ 1) :
    ∃ m : Nat → Nat, (∀ i, 1 ≤ m i) ∧
      matchRules eval rules e pe = (brute eval rules).flatMap (fun x => List.replicate (m x.1) x) ∧
      ∀ i, (∀ c a b, ruleAt rules i ≠ .infix c a b) → m i = 1 := by
  refine ⟨fun i => (match ruleAt rules i with | .infix .. => hits (probe e pe) (ruleAt rules i) - 1 | _ => 0) + 1,
    fun i => Nat.le_add_left _ _, ?_, ?_⟩
  · rw [matchRules_eq, brute_range, List.flatMap_assoc]
    apply flatMap_congr_mem
    intro i hi
    rw [List.mem_range'_1] at hi
    have hm := rule_mem hi.1 hi.2
    have hf := faithful hD d fuel n pe eval (build rules).needed (ruleAt rules) i (ruleAt rules i) rfl
      (build_needed rules i hi.1 (by omega)) (he _ hm) (hc _ hm)
    cases hev : eval (ruleAt rules i) with
    | none => rw [hf.none_ hev]; rfl
    | some sp =>
      obtain ⟨m, sp', h1, h0, h2, h3⟩ := hf.some_ sp hev
      have : sp' = sp := h0 (fun l hl => by rw [hl]; exact hor l (hl ▸ hm))
      rw [h1, this]
      simp only [Option.map_some, Option.toList_some, List.flatMap_cons, List.flatMap_nil, List.append_nil]
      congr 1
      split
      · rename_i heq; have h4 := h3 _ _ _ heq; show m + 1 = Nat.sub (hits (probe e pe) (ruleAt rules i)) 1 + 1; rw [← h4]; rfl
      · rename_i hne; rw [h2 (fun c a b h => hne c a b h)]
  · intro i hi
    dsimp only
    split
    · rename_i heq; exact absurd heq (hi _ _ _)
    · rfl

/-- **C11** exactly, when in addition each rule with a combinator is met at most once. -/
theorem C11_equal_partial (d : Doc) (fuel n : Nat) (e : Element) (pe : Option Str) (rules : List Selector)
    (eval : Selector → Option Specificity) (he : Evaluates d fuel n e pe rules eval) (hD : Distinct e)
    (hc : ∀ s ∈ rules, CaseOk s) (hor : ∀ l, Selector.or l ∈ rules → hits (probe e pe) (.or l) ≤ 1)
    (hinf : ∀ c a b, Selector.infix c a b ∈ rules → hits (probe e pe) (.infix c a b) ≤ 1) :
    matchRules eval rules e pe = brute eval rules := by
  rw [matchRules_eq, brute_range]
  apply flatMap_congr_mem
  intro i hi
  rw [List.mem_range'_1] at hi
  have hm := rule_mem hi.1 hi.2
  have hf := faithful hD d fuel n pe eval (build rules).needed (ruleAt rules) i (ruleAt rules i) rfl
    (build_needed rules i hi.1 (by omega)) (he _ hm) (hc _ hm)
  cases hev : eval (ruleAt rules i) with
  | none => rw [hf.none_ hev]; rfl
  | some sp =>
    obtain ⟨m, sp', h1, h0, h2, h3⟩ := hf.some_ sp hev
    have : sp' = sp := h0 (fun l hl => by rw [hl]; exact hor l (hl ▸ hm))
    have hm0 : m = 0 := by
      by_cases hx : ∃ c a b, ruleAt rules i = .infix c a b
      · obtain ⟨c, a, b, hx⟩ := hx
        have := h3 c a b hx
        have := hinf c a b (hx ▸ hm)
        rw [← hx] at this; omega
      · exact h2 (fun c a b h => hx ⟨c, a, b, h⟩)
    rw [h1, this, hm0]; rfl

/-- Repeating a block of declarations right after itself does not change what wins. -/
theorem C11_repeats_harmless (pre block post : List Decl) (n : Nat) :
    held (pre ++ block ++ block ++ post) n = held (pre ++ block ++ post) n := by
  have key : ∀ d, Winner (pre ++ block ++ post) n d → Winner (pre ++ block ++ block ++ post) n d := by
    intro d hw
    -- the block's declarations never outrank the winner
    have hblock : ∀ x ∈ block, x.name = n → x.bogus = false → ¬ Lower d x := by
      intro x hx hxn hxb
      obtain ⟨a, b, hab, _, _, h1, h2⟩ := hw
      have : x ∈ a ++ d :: b := by rw [← hab]; simp [hx]
      simp only [List.mem_append, List.mem_cons] at this
      rcases this with h | rfl | h
      · exact h1 x h hxn hxb
      · rw [Cascade.lower_iff]; omega
      · have := h2 x h hxn hxb
        rw [Cascade.lower_iff] at this ⊢; omega
    obtain ⟨a, b, hab, hn, hb, h1, h2⟩ := hw
    -- where the winner stands
    rw [List.append_assoc] at hab
    rcases List.append_eq_append_iff.1 hab with ⟨t, rfl, ht⟩ | ⟨t, rfl, ht⟩
    · -- after `pre`
      rcases List.append_eq_append_iff.1 ht with ⟨u, rfl, hu⟩ | ⟨u, rfl, hu⟩
      · -- in `post`
        refine ⟨pre ++ block ++ block ++ u, b, by simp [hu], hn, hb, ?_, h2⟩
        intro x hx hxn hxb
        simp only [List.mem_append] at hx h1
        rcases hx with ((hx | hx) | hx) | hx
        · exact h1 x (.inl hx) hxn hxb
        · exact hblock x hx hxn hxb
        · exact hblock x hx hxn hxb
        · exact h1 x (.inr (.inr hx)) hxn hxb
      · cases u with
        | nil =>
          simp only [List.append_nil, List.nil_append] at hu hblock ⊢
          refine ⟨pre ++ t ++ t, b, by simp [hu], hn, hb, ?_, h2⟩
          intro x hx hxn hxb
          simp only [List.mem_append] at hx h1
          rcases hx with (hx | hx) | hx
          · exact h1 x (.inl hx) hxn hxb
          · exact hblock x hx hxn hxb
          · exact hblock x hx hxn hxb
        | cons d' u =>
          simp only [List.cons_append, List.cons.injEq] at hu
          obtain ⟨rfl, rfl⟩ := hu
          refine ⟨pre ++ (t ++ d :: u) ++ t, u ++ post, by simp, hn, hb, ?_, h2⟩
          intro x hx hxn hxb
          simp only [List.mem_append] at hx h1
          rcases hx with (hx | hx) | hx
          · exact h1 x (.inl hx) hxn hxb
          · exact hblock x (by simpa using hx) hxn hxb
          · exact h1 x (.inr hx) hxn hxb
    · cases t with
      | nil =>
        simp only [List.nil_append, List.append_nil] at ht ⊢
        cases block with
        | nil => exact ⟨a, b, by simpa using ht.symm, hn, hb, h1, h2⟩
        | cons d' block =>
          simp only [List.cons_append, List.cons.injEq] at ht
          obtain ⟨rfl, rfl⟩ := ht
          refine ⟨a ++ d :: block, block ++ post, by simp, hn, hb, ?_, h2⟩
          intro x hx hxn hxb
          rcases List.mem_append.1 hx with hx | hx
          · exact h1 x hx hxn hxb
          · exact hblock x hx hxn hxb
      | cons d' t =>
        simp only [List.cons_append, List.cons.injEq] at ht
        obtain ⟨rfl, rfl⟩ := ht
        refine ⟨a, t ++ (block ++ block ++ post), by simp, hn, hb, h1, ?_⟩
        intro x hx hxn hxb
        apply h2 x _ hxn hxb
        simp only [List.mem_append] at hx ⊢
        rcases hx with h | (h | h) | h
        · exact .inl h
        · exact .inr (.inl h)
        · exact .inr (.inl h)
        · exact .inr (.inr h)
  cases h : held (pre ++ block ++ post) n with
  | some d => exact (Cascade.C12_held_iff_winner _ _ _).2 (key d ((Cascade.C12_held_iff_winner _ _ _).1 h))
  | none =>
    rw [Cascade.C12_held_none_iff] at h ⊢
    intro d hd
    apply h d
    simp only [List.mem_append] at hd ⊢
    rcases hd with ((h | h) | h) | h
    · exact .inl (.inl h)
    · exact .inl (.inr h)
    · exact .inl (.inr h)
    · exact .inr h

/-! ## Non-vacuity and failures -/

/-- The matcher's answer on node 1 of the sample document, contents given. -/
def sampleEval (e : Element) (s : Selector) : Option Specificity :=
  match matchSelector sampleDoc 5 s 1 e none with
  | .ok r => r
  | .error _ => none

def a12 : Element := elem "a" [(⟨none, "id".toList⟩, "i".toList)] ["x".toList, "y".toList]
def sampleRules : List Selector :=
  [.class_ "x".toList, .type (name "b"), .and [.type (name "a"), .class_ "y".toList, .not (.class_ "z".toList)],
   .or [.id "i".toList, .type (name "b")], .infix .descendant (.type (name "p")) (.class_ "y".toList),
   .attr ⟨name "id", false, .exact, "i".toList⟩, .firstChild]

/-- The hypotheses of `C11_equal_partial` hold here, and five rules match. -/
example : (∀ s ∈ sampleRules, CaseOk s) ∧ Distinct a12 ∧
    (∀ l, Selector.or l ∈ sampleRules → hits (probe a12 none) (.or l) ≤ 1) ∧
    (∀ c a b, Selector.infix c a b ∈ sampleRules → hits (probe a12 none) (.infix c a b) ≤ 1) := by
  refine ⟨?_, ⟨by decide, by decide⟩, ?_, ?_⟩
  · intro s hs
    simp only [sampleRules, List.mem_cons, List.not_mem_nil, or_false] at hs
    rcases hs with rfl | rfl | rfl | rfl | rfl | rfl | rfl <;> simp [CaseOk, AttrOk]
  · intro l hl
    simp only [sampleRules, List.mem_cons, List.not_mem_nil, or_false, Selector.or.injEq, reduceCtorEq, false_or] at hl
    subst hl; decide
  · intro c a b hl
    simp only [sampleRules, List.mem_cons, List.not_mem_nil, or_false, Selector.infix.injEq, reduceCtorEq, false_or] at hl
    obtain ⟨rfl, rfl, rfl⟩ := hl; decide

/-- **C11 is false** for selector lists: `a, .x` on `<a class=x>` is reported with the
specificities added up. -/
theorem C11_list_fails :
    ∃ (rules : List Selector) (e : Element) (eval : Selector → Option Specificity),
      Evaluates sampleDoc 5 1 e none rules eval ∧ Distinct e ∧
      brute eval rules = [(1, ⟨0, 1, 0⟩)] ∧ matchRules eval rules e none = [(1, ⟨0, 1, 1⟩)] := by
  refine ⟨[.or [.type (name "a"), .class_ "x".toList]], a12,
    fun _ => some ⟨0, 1, 0⟩, ?_, ⟨by decide, by decide⟩, by decide, by decide⟩
  intro s hs
  simp only [List.mem_singleton] at hs
  subst hs
  rfl

/-- A rule `[*|id="I" i]` is missed on an element with `id="i"`. -/
theorem C11_case_fails :
    ∃ (rules : List Selector) (e : Element) (eval : Selector → Option Specificity),
      Evaluates sampleDoc 5 1 e none rules eval ∧ Distinct e ∧
      brute eval rules = [(1, ⟨0, 1, 0⟩)] ∧ matchRules eval rules e none = [] := by
  refine ⟨[.attr ⟨name "id", true, .exact, "I".toList⟩], a12,
    fun _ => some ⟨0, 1, 0⟩, ?_, ⟨by decide, by decide⟩, by decide, by decide⟩
  intro s hs
  simp only [List.mem_singleton] at hs
  subst hs
  have : matchAttr ⟨name "id", true, .exact, "I".toList⟩ a12 = true := by decide
  simp only [matchSelector, matchSel, this]; rfl

/-- With two attributes of one local name the index reports `[*|k="2"]`, which the matcher,
looking at the first one only, refuses. -/
theorem C11_attribute_fails :
    ∃ (rules : List Selector) (e : Element) (eval : Selector → Option Specificity),
      Evaluates sampleDoc 5 1 e none rules eval ∧ brute eval rules = [] ∧
      matchRules eval rules e none = [(1, ⟨0, 1, 0⟩)] := by
  refine ⟨[.attr ⟨name "k", false, .exact, "2".toList⟩],
    elem "a" [(⟨none, "k".toList⟩, "1".toList), (⟨some "n".toList, "k".toList⟩, "2".toList)],
    fun _ => none, ?_, by decide, by decide⟩
  intro s hs
  simp only [List.mem_singleton] at hs
  subst hs
  have : matchAttr ⟨name "k", false, .exact, "2".toList⟩
      (elem "a" [(⟨none, "k".toList⟩, "1".toList), (⟨some "n".toList, "k".toList⟩, "2".toList)]) = false := by decide
  simp only [matchSelector, matchSel, this]; rfl

/-- A rule with a combinator and a compound on the right is reported twice. -/
theorem C11_repeat_fails :
    ∃ (rules : List Selector) (e : Element) (eval : Selector → Option Specificity),
      Distinct e ∧ brute eval rules = [(1, ⟨0, 1, 2⟩)] ∧
      matchRules eval rules e none = [(1, ⟨0, 1, 2⟩), (1, ⟨0, 1, 2⟩)] :=
  ⟨[.infix .descendant (.type (name "p")) (.and [.type (name "a"), .class_ "x".toList])], a12,
    fun _ => some ⟨0, 1, 2⟩, ⟨by decide, by decide⟩, by decide, by decide⟩

/-! ## C52: rules and pseudo-elements -/

/-- The selector applies to the pseudo-element `x` only, as written. -/
inductive Names (x : Str) : Selector → Prop
  | pseudo : Names x (.pseudoElement x)
  | compound {l s} : s ∈ l → Names x s → Names x (.and l)
  | complex {c lhs rhs} : Names x rhs → Names x (.infix c lhs rhs)

/-- **C52**, the half that holds: a selector that names a pseudo-element matches for that
pseudo-element only, never for the element itself or another pseudo-element.

Missing: the converse, a selector naming none matches no pseudo-element (`C52_fails`). -/
theorem C52_pseudo_only_partial (d : Doc) (fuel n : Nat) (e : Element) (pe : Option Str) (x : Str) (s : Selector)
    (hs : Names x s) (h : matchSel d fuel s n e pe = .ok true) : pe = some x := by
  induction hs with
  | pseudo => simpa [matchSel] using h
  | compound hm _ ih =>
    simp only [matchSel] at h
    exact ih (matchAll_true d fuel n pe h _ hm)
  | @complex c lhs rhs _ ih =>
    simp only [matchSel] at h
    cases hr : matchSel d fuel rhs n e pe with
    | error f => rw [hr] at h; cases h
    | ok b =>
      cases b with
      | true => exact ih hr
      | false => rw [hr] at h; simp [Except.bind] at h

example : Names "before".toList (.infix .child (.type (name "p")) (.and [.class_ "x".toList, .pseudoElement "before".toList])) ∧
    matchSel sampleDoc 5 (.and [.class_ "x".toList, .pseudoElement "before".toList]) 1 a12 (some "before".toList) = .ok true :=
  ⟨.complex (.compound (s := .pseudoElement _) (by simp) .pseudo), rfl⟩

/-- The claim: without naming one, no pseudo-element is matched. -/
def OnlyNamedPseudo : Prop :=
  ∀ (d : Doc) (fuel n : Nat) (e : Element) (x : Str) (s : Selector), (∀ y, ¬ Names y s) →
    matchSel d fuel s n e (some x) ≠ .ok true

/-- **C52 is false**: `.x` matches the `::before` of an element of class `x`, so
declarations of the element's own rules also style its generated content. -/
theorem C52_fails : ¬ OnlyNamedPseudo := by
  intro h
  exact h sampleDoc 5 1 a12 "before".toList (.class_ "x".toList) (by rintro y ⟨⟩) rfl

end Verif.RuleIndex
