import Verif.RuleIndex.Lemmas
import Verif.Selector.Props
namespace Verif.RuleIndex
open Verif.Selector

/-- The element has no repeated class, and no two attributes with one local name. -/
structure Distinct (e : Element) : Prop where
  classes : e.classes.Nodup
  attrs : (e.attrs.map (·.1.name)).Nodup

/-- An attribute test the index can take over: not `[a="v" i]`. -/
def AttrOk : Selector → Prop
  | .attr a => a.op = .exact → a.insensitive = false
  | _ => True

/-- No case-insensitive `[a="v" i]` where the index looks. -/
def CaseOk : Selector → Prop
  | .and l => ∀ s ∈ l, AttrOk s
  | .or l => ∀ s ∈ l, AttrOk s
  | .infix _ _ rhs => CaseOk rhs
  | s => AttrOk s

theorem probe_nodup {e : Element} (h : Distinct e) (pe : Option Str) : (probe e pe).Nodup := by
  have h1 : (e.classes.map Key.class_).Nodup := by
    rw [List.Nodup, List.pairwise_map]
    exact h.classes.imp (fun hab e => hab (by injection e))
  have h2 : (e.attrs.flatMap (fun a => [Key.attrPresent a.1.name, .attrExact a.1.name a.2])).Nodup := by
    have := h.attrs
    clear h h1
    generalize e.attrs = attrs at *
    induction attrs with
    | nil => simp
    | cons a l ih =>
      simp only [List.map_cons, List.nodup_cons] at this
      rw [List.flatMap_cons, List.nodup_append]
      refine ⟨by simp, ih this.2, ?_⟩
      intro x hx y hy hxy
      subst hxy
      simp only [List.mem_flatMap] at hy
      obtain ⟨b, hb, hxb⟩ := hy
      apply this.1
      refine List.mem_map.2 ⟨b, hb, ?_⟩
      simp only [List.mem_cons, List.not_mem_nil, or_false] at hx hxb
      rcases hx with rfl | rfl <;> rcases hxb with h | h <;> first | (cases h; done) | (injection h with h; exact h.symm) | (injection h with h _; exact h.symm)
  unfold probe
  simp only [List.nodup_append, List.mem_append, List.mem_map, List.mem_flatMap, List.mem_cons, List.not_mem_nil, or_false]
  refine ⟨⟨⟨⟨⟨h1, ?_, ?_⟩, ?_, ?_⟩, by simp, ?_⟩, h2, ?_⟩, by simp, ?_⟩
  · split <;> simp
  · rintro x ⟨c, _, rfl⟩ y hy rfl
    split at hy <;> simp at hy
  · split <;> simp
  · rintro x (⟨c, _, rfl⟩ | hx) y hy rfl
    · split at hy <;> simp at hy
    · split at hy
      · split at hx
        · simp at hy hx; subst hy; cases hx
        · simp at hx
      · simp at hy
  · rintro x ((⟨c, _, rfl⟩ | hx) | hx) y hy rfl
    · cases hy
    · subst hy; split at hx <;> simp at hx
    · subst hy; split at hx <;> simp at hx
  · rintro x (((⟨c, _, rfl⟩ | hx) | hx) | hx) y ⟨a, _, hy | hy⟩ rfl
    · cases hy
    · cases hy
    · subst hy; split at hx <;> simp at hx
    · subst hy; split at hx <;> simp at hx
    · subst hy; split at hx <;> simp at hx
    · subst hy; split at hx <;> simp at hx
    · subst hy; cases hx
    · subst hy; cases hx
  · rintro x ((((⟨c, _, rfl⟩ | hx) | hx) | hx) | ⟨a, _, hx | hx⟩) y hy rfl
    · cases hy
    · subst hy; split at hx <;> simp at hx
    · subst hy; split at hx <;> simp at hx
    · subst hy; cases hx
    · subst hy; cases hx
    · subst hy; cases hx

theorem rest_mem (e : Element) (pe : Option Str) : Key.rest ∈ probe e pe := by simp [probe]

theorem sum_count {α} [DecidableEq α] {pr : List α} (h : pr.Nodup) (l : List α) :
    (pr.map (fun k => l.count k)).sum = l.countP (fun k => decide (k ∈ pr)) := by
  induction l with
  | nil =>
    clear h
    induction pr with
    | nil => rfl
    | cons a pr ih => simpa using ih
  | cons a l ih =>
    have : (pr.map (fun k => (a :: l).count k)).sum = (pr.map (fun k => l.count k)).sum + pr.count a := by
      clear ih h
      induction pr with
      | nil => rfl
      | cons b pr ihp =>
        rw [List.map_cons, List.sum_cons, ihp, List.map_cons, List.sum_cons, List.count_cons, List.count_cons]
        have hab : (a == b) = (b == a) := BEq.comm
        rw [hab]; omega
    rw [this, ih, List.countP_cons]
    congr 1
    by_cases ha : a ∈ pr
    · have h1 := List.nodup_iff_count.1 h a
      have h2 := List.count_pos_iff.2 ha
      have : pr.count a = 1 := by omega
      simp [ha, this]
    · simp [ha, List.count_eq_zero.2 ha]

theorem hits_eq {e : Element} (h : Distinct e) (pe : Option Str) (s : Selector) :
    hits (probe e pe) s = (addKeys s).countP (fun k => decide (k ∈ probe e pe)) :=
  sum_count (probe_nodup h pe) _

theorem cmp_false (a b : Char) : cmp false a b = (a == b) := rfl

theorem startWith_exact (v s : Str) : (startWith (cmp false) v s == .yes) = decide (v = s) := by
  induction v generalizing s with
  | nil => cases s <;> rfl
  | cons a v ih =>
    cases s with
    | nil => rfl
    | cons b s =>
      simp only [startWith, cmp_false]
      by_cases hab : a = b
      · subst hab; simp [ih]
      · simp [hab]

theorem attr_unique {e : Element} (h : Distinct e) {q : QName} {v : Str} (hm : (q, v) ∈ e.attrs) :
    e.attrUnqualified q.name = some v := by
  unfold Element.attrUnqualified
  have := h.attrs
  generalize e.attrs = attrs at *
  induction attrs with
  | nil => simp at hm
  | cons a l ih =>
    simp only [List.map_cons, List.nodup_cons] at this
    rcases List.mem_cons.1 hm with rfl | hm
    · simp
    · have hne : (a.1.name == q.name) = false := by
        simp only [beq_eq_false_iff_ne]
        intro he; apply this.1; rw [he]; exact List.mem_map.2 ⟨_, hm, rfl⟩
      rw [List.find?_cons, hne]; exact ih hm this.2

theorem attrUnqualified_mem {e : Element} {n v} (h : e.attrUnqualified n = some v) : ∃ q, (q, v) ∈ e.attrs ∧ q.name = n := by
  unfold Element.attrUnqualified at h
  obtain ⟨p, hp, rfl⟩ := Option.map_eq_some_iff.1 h
  exact ⟨p.1, List.mem_of_find?_eq_some hp, by simpa using List.find?_some hp⟩

/-- A key stands for its selector. -/
theorem lookup_sound {e : Element} (h : Distinct e) (d : Doc) (fuel n : Nat) (pe : Option Str) {s : Selector} {k : Key}
    (hk : lookup s = some k) (ho : AttrOk s) : matchSel d fuel s n e pe = .ok (decide (k ∈ probe e pe)) := by
  have hprobe : ∀ b : Bool, (b = true ↔ k ∈ probe e pe) → Except.ok (ε := Fault) b = .ok (decide (k ∈ probe e pe)) := by
    intro b hb
    congr 1
    by_cases hm : k ∈ probe e pe
    · simp [hm, hb.2 hm]
    · simp only [hm, decide_false]
      cases b with
      | false => rfl
      | true => exact absurd (hb.1 rfl) hm
  cases s with
  | type q =>
    simp only [lookup] at hk
    split at hk
    · rename_i nm h1 h2
      cases hk
      simp only [matchSel]
      apply hprobe
      simp only [QSel.matches, h1, h2, Bool.true_and, beq_iff_eq]
      constructor
      · rintro rfl; simp [probe]
      · intro hm
        unfold probe at hm
        simp only [List.mem_append, List.mem_map, List.mem_flatMap, List.mem_cons, List.not_mem_nil, or_false] at hm
        rcases hm with ((((⟨c, _, hc⟩ | hm) | hm) | hm) | ⟨a, _, hm | hm⟩) | hm
        · cases hc
        · split at hm <;> simp at hm
        · split at hm <;> simp at hm
        · injection hm with hm; exact hm.symm
        · cases hm
        · cases hm
        · cases hm
    · cases hk
  | id x =>
    cases hk
    simp only [matchSel]
    apply hprobe
    rw [beq_iff_eq]
    constructor
    · intro hx; simp only [probe, hx]; simp
    · intro hm
      unfold probe at hm
      simp only [List.mem_append, List.mem_map, List.mem_flatMap, List.mem_cons, List.not_mem_nil, or_false] at hm
      rcases hm with ((((⟨c, _, hc⟩ | hm) | hm) | hm) | ⟨a, _, hm | hm⟩) | hm
      · cases hc
      · split at hm
        · rename_i z hz; simp at hm; subst hm; exact hz
        · simp at hm
      · split at hm <;> simp at hm
      · cases hm
      · cases hm
      · cases hm
      · cases hm
  | class_ x =>
    cases hk
    simp only [matchSel]
    apply hprobe
    rw [List.contains_iff_mem]
    constructor
    · intro hx; simp [probe, hx]
    · intro hm
      unfold probe at hm
      simp only [List.mem_append, List.mem_map, List.mem_flatMap, List.mem_cons, List.not_mem_nil, or_false] at hm
      rcases hm with ((((⟨c, hc', hc⟩ | hm) | hm) | hm) | ⟨a, _, hm | hm⟩) | hm
      · injection hc with hc; subst hc; exact hc'
      · split at hm <;> simp at hm
      · split at hm <;> simp at hm
      · cases hm
      · cases hm
      · cases hm
      · cases hm
  | pseudoElement x =>
    cases hk
    simp only [matchSel]
    apply hprobe
    rw [beq_iff_eq]
    constructor
    · intro hx; simp [probe, hx]
    · intro hm
      unfold probe at hm
      simp only [List.mem_append, List.mem_map, List.mem_flatMap, List.mem_cons, List.not_mem_nil, or_false] at hm
      rcases hm with ((((⟨c, _, hc⟩ | hm) | hm) | hm) | ⟨a, _, hm | hm⟩) | hm
      · cases hc
      · split at hm <;> simp at hm
      · split at hm
        · rename_i z; simp at hm; subst hm; rfl
        · simp at hm
      · cases hm
      · cases hm
      · cases hm
      · cases hm
  | attr a =>
    simp only [lookup] at hk
    split at hk
    · rename_i nm h1 h2 h3
      cases hk
      simp only [matchSel]
      apply hprobe
      simp only [matchAttr, h3, attrValue, h1, h2]
      constructor
      · intro hs
        obtain ⟨v, hv⟩ := Option.isSome_iff_exists.1 hs
        obtain ⟨q, hq, rfl⟩ := attrUnqualified_mem hv
        simp only [probe, List.mem_append, List.mem_flatMap]
        exact .inl (.inr ⟨_, hq, by simp⟩)
      · intro hm
        unfold probe at hm
        simp only [List.mem_append, List.mem_map, List.mem_flatMap, List.mem_cons, List.not_mem_nil, or_false] at hm
        rcases hm with ((((⟨c, _, hc⟩ | hm) | hm) | hm) | ⟨a, ha, hm | hm⟩) | hm
        · cases hc
        · split at hm <;> simp at hm
        · split at hm <;> simp at hm
        · cases hm
        · injection hm with hm; subst hm
          rw [attr_unique h (q := a.1) (v := a.2) ha]; rfl
        · cases hm
        · cases hm
    · rename_i nm h1 h2 h3
      cases hk
      simp only [matchSel]
      apply hprobe
      have hi : a.insensitive = false := ho h3
      simp only [matchAttr, h3, attrValue, h1, h2, hi]
      constructor
      · intro hs
        split at hs
        · rename_i heq; cases heq
        · cases hs
        · rename_i v heq hv
          rw [startWith_exact] at hs
          have : v = a.value := by simpa using hs
          subst this
          obtain ⟨q, hq, rfl⟩ := attrUnqualified_mem hv
          simp only [probe, List.mem_append, List.mem_flatMap]
          exact .inl (.inr ⟨_, hq, by simp⟩)
        all_goals (rename_i heq _; cases heq)
      · intro hm
        unfold probe at hm
        simp only [List.mem_append, List.mem_map, List.mem_flatMap, List.mem_cons, List.not_mem_nil, or_false] at hm
        rcases hm with ((((⟨c, _, hc⟩ | hm) | hm) | hm) | ⟨b, hb, hm | hm⟩) | hm
        · cases hc
        · split at hm <;> simp at hm
        · split at hm <;> simp at hm
        · cases hm
        · cases hm
        · injection hm with hm1 hm2
          rw [hm1, attr_unique h (q := b.1) (v := b.2) hb]
          simp only [startWith_exact, hm2, decide_true]
        · cases hm
    · cases hk
  | _ => cases hk


/-! ## What each rule contributes -/

section
variable {e : Element} (hD : Distinct e) (d : Doc) (fuel n : Nat) (pe : Option Str)

theorem matchAll_true {l : List Selector} (h : matchAll d fuel l n e pe = .ok true) :
    ∀ s ∈ l, matchSel d fuel s n e pe = .ok true := by
  induction l with
  | nil => simp
  | cons a l ih =>
    simp only [matchAll] at h
    cases ha : matchSel d fuel a n e pe with
    | error f => rw [ha] at h; cases h
    | ok b =>
      rw [ha] at h
      simp only [Except.bind] at h
      cases b with
      | false => simp at h
      | true =>
        intro s hs
        rcases List.mem_cons.1 hs with rfl | hs
        · exact ha
        · exact ih (by simpa using h) s hs

theorem matchAll_of_all {l : List Selector} (h : ∀ s ∈ l, matchSel d fuel s n e pe = .ok true) :
    matchAll d fuel l n e pe = .ok true := by
  induction l with
  | nil => rfl
  | cons a l ih =>
    simp only [matchAll, h a (by simp)]
    simpa [Except.bind] using ih (fun s hs => h s (by simp [hs]))

theorem matchAny_of_none {l : List Selector} (h : ∀ s ∈ l, matchSel d fuel s n e pe = .ok false) :
    matchAny d fuel l n e pe = .ok false := by
  induction l with
  | nil => rfl
  | cons a l ih =>
    simp only [matchAny, h a (by simp)]
    simpa [Except.bind] using ih (fun s hs => h s (by simp [hs]))

include hD
theorem and_false {l : List Selector} (ho : ∀ s ∈ l, AttrOk s) {k} (hk : k ∈ l.filterMap lookup)
    (hp : k ∉ probe e pe) : matchAll d fuel l n e pe ≠ .ok true := by
  intro h
  obtain ⟨s, hs, hsk⟩ := List.mem_filterMap.1 hk
  have h1 := matchAll_true d fuel n pe h s hs
  rw [lookup_sound hD d fuel n pe hsk (ho s hs)] at h1
  simp [hp] at h1

/-- A rule that is met nowhere does not match. -/
theorem miss : ∀ (s : Selector), CaseOk s → hits (probe e pe) s = 0 → (matchSel d fuel s n e pe ≠ .ok true)
  | .infix c lhs rhs, ho, h0 => by
    have hcase : (lookup rhs).isSome || isNfix rhs := by
      rw [hits_eq hD] at h0
      simp only [addKeys] at h0
      split at h0
      · assumption
      · simp [rest_mem] at h0
    have h0' : hits (probe e pe) rhs = 0 := by
      rw [hits_eq hD] at h0 ⊢
      simpa only [addKeys, hcase, if_true] using h0
    have := miss rhs ho h0'
    intro hm
    simp only [matchSel] at hm
    cases hr : matchSel d fuel rhs n e pe with
    | error f => rw [hr] at hm; cases hm
    | ok b =>
      cases b with
      | true => exact this hr
      | false => rw [hr] at hm; simp [Except.bind] at hm
  | .and l, ho, h0 => by
    rw [hits_eq hD, List.countP_eq_zero] at h0
    simp only [addKeys] at h0
    split at h0
    · have := h0 .rest (by simp)
      simp [rest_mem] at this
    · rename_i hne
      cases hk : l.filterMap lookup with
      | nil => rw [hk] at hne; simp at hne
      | cons k ks =>
        have hk' : k ∈ l.filterMap lookup := by rw [hk]; simp
        simp only [matchSel]
        exact and_false hD d fuel n pe ho hk' (by simpa using h0 k hk')
  | .or l, ho, h0 => by
    rw [hits_eq hD, List.countP_eq_zero] at h0
    simp only [addKeys, List.mem_append] at h0
    have hall : ∀ s ∈ l, matchSel d fuel s n e pe = .ok false := by
      intro s hs
      cases hk : lookup s with
      | none =>
        have : l.any (fun s => (lookup s).isNone) = true := List.any_eq_true.2 ⟨s, hs, by simp [hk]⟩
        have := h0 .rest (.inr (by simp [this]))
        simp [rest_mem] at this
      | some k =>
        rw [lookup_sound hD d fuel n pe hk (ho s hs)]
        have := h0 k (.inl (List.mem_filterMap.2 ⟨s, hs, hk⟩))
        simpa using this
    simp only [matchSel]
    rw [matchAny_of_none d fuel n pe hall]; simp
  | s@(.type _), ho, h0 | s@(.id _), ho, h0 | s@(.class_ _), ho, h0 | s@(.pseudoElement _), ho, h0 | s@(.attr _), ho, h0 => by
    rw [hits_eq hD, List.countP_eq_zero] at h0
    simp only [addKeys] at h0
    split at h0
    · rename_i k hk
      rw [lookup_sound hD d fuel n pe hk ho]
      have := h0 k (by simp)
      simpa using this
    · have := h0 .rest (by simp)
      simp [rest_mem] at this
  | .not _, _, h0 | .where_ _, _, h0 | .empty, _, h0 | .link, _, h0 | .root, _, h0
  | .nthChild _ _, _, h0 | .nthOfType _ _, _, h0 | .firstOfType, _, h0 | .lastOfType, _, h0
  | .firstChild, _, h0 | .lastChild, _, h0 | .otherPseudo, _, h0 => by
    rw [hits_eq hD, List.countP_eq_zero] at h0
    have := h0 .rest (by simp [addKeys, lookup])
    simp [rest_mem] at this
end

end Verif.RuleIndex
