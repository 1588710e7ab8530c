import Verif.Across.Spec
import Mathlib.Algebra.Order.BigOperators.Group.List
import Mathlib.Tactic.Linarith
/-!
# Property C257: the size of a flex container across its items
-/
namespace Verif.Across
open Verif.Basis (Size MaxSize Calc clamp)

theorem foldl_max_le (l : List Rat) (a : Rat) : a ≤ l.foldl max a := by
  induction l generalizing a with
  | nil => exact le_rfl
  | cons x l ih => exact le_trans (le_max_left a x) (ih _)

theorem mem_le_foldl {l : List Rat} {x : Rat} (h : x ∈ l) (a : Rat) : x ≤ l.foldl max a := by
  induction l generalizing a with
  | nil => cases h
  | cons y l ih =>
    rcases List.mem_cons.1 h with rfl | h
    · exact le_trans (le_max_right a x) (foldl_max_le l _)
    · exact ih h _

theorem foldl_max_mem (l : List Rat) (a : Rat) : l.foldl max a = a ∨ l.foldl max a ∈ l := by
  induction l generalizing a with
  | nil => exact .inl rfl
  | cons y l ih =>
    rcases ih (max a y) with h | h
    · rcases max_choice a y with h' | h'
      · exact .inl (by rw [List.foldl_cons, h, h'])
      · exact .inr (by rw [List.foldl_cons, h, h']; exact List.mem_cons_self)
    · exact .inr (List.mem_cons_of_mem _ h)

theorem clamp_mono {x y lo hi : Rat} (h : x ≤ y) : clamp x lo hi ≤ clamp y lo hi := max_le_max le_rfl (min_le_min h le_rfl)

/-- What an item takes up, as the code limits it. -/
theorem wanted_eq {big space : Rat} {isMin : Bool} {i : Item} (h : Plain big i) :
    wanted isMin i = clamp ((said i i.size).getD (if isMin then i.minC else i.maxC)) (lower space i) (upper big space i) := by
  have hv : (said i i.size).getD (if isMin then i.minC else i.maxC) ≤ big := by
    rcases h.size with hs | ⟨v, hs, hv⟩
    · rw [hs]
      simp only [said, Option.getD_none]
      split
      · exact h.content.1
      · exact h.content.2
    · rw [hs]; exact hv
  have hl : (said i i.minSize).getD 0 = lower space i := by
    rcases h.min with hs | ⟨v, hs⟩ | hs | hs <;> simp [lower, hs, said, Calc.resolve]
  unfold wanted clamp
  rw [hl, h.cross, add_zero]
  generalize (said i i.size).getD (if isMin then i.minC else i.maxC) = v at hv
  rcases h.max with hs | ⟨w, hs⟩ | hs | hs <;> simp [upper, hs, saidMax, Calc.resolve, hv]

theorem wanted_le {big space : Rat} {isMin : Bool} {i : Item} (h : Plain big i) : wanted isMin i ≤ contribution big space isMin i := by
  rw [wanted_eq (space := space) h]
  unfold contribution
  apply clamp_mono
  rcases h.size with hs | ⟨v, hs, _⟩
  · simp [hs, said, h.main]
  · simp [hs, said, h.main, h.cross, Calc.resolve]

theorem line_nonneg (big sp : Rat) (isMin : Bool) (l : List Item) : 0 ≤ lineSize big sp isMin l := foldl_max_le _ _

theorem sum_le_stretched (c : Container) (sp : Rat) (ls : List Rat) : ls.sum ≤ (stretched c sp ls).sum := by
  unfold stretched
  split
  · rename_i h
    rw [List.sum_map_add]
    simp only [List.map_id']
    have : 0 ≤ (ls.map fun _ => (sp - ls.sum) / (ls.length : Rat)).sum := by
      apply List.sum_nonneg
      intro x hx
      rw [List.mem_map] at hx
      obtain ⟨_, _, rfl⟩ := hx
      have h1 : 0 ≤ sp - ls.sum := by linarith [h.2.2.2]
      exact div_nonneg h1 (Nat.cast_nonneg _)
    linarith
  · exact le_rfl

theorem line_le_sum {big sp : Rat} {isMin : Bool} {lines : List (List Item)} {l : List Item} (h : l ∈ lines) :
    lineSize big sp isMin l ≤ (lines.map (lineSize big sp isMin)).sum := by
  apply List.single_le_sum
  · intro x hx
    rw [List.mem_map] at hx
    obtain ⟨l', _, rfl⟩ := hx
    exact line_nonneg _ _ _ _
  · exact List.mem_map_of_mem h

/-- **C257 (in part).** A container as large as its content has room across for each of its items, whatever its lines are: what
the item takes up is no more than its line, and this no more than the container.  Missing: margins (`C257_margin_fails`),
percentages. -/
theorem C257_room_partial (big : Rat) (c : Container) (lines : List (List Item)) (l : List Item) (hl : l ∈ lines) (i : Item)
    (hi : i ∈ l) (h : Plain big i) :
    wanted c.isMin i ≤ crossSize big c lines := by
  refine le_trans (wanted_le (space := space big c lines.flatten) h) ?_
  refine le_trans (mem_le_foldl (List.mem_map_of_mem hi) 0) ?_
  exact le_trans (line_le_sum (isMin := c.isMin) hl) (sum_le_stretched _ _ _)

/-- **C257 (in part).** It is not larger than needed: if the sizes of items are `auto`, there is for each line an item that takes
up all of it, or nothing in it, and the container is the sum of these.  Missing: sizes given (`C257_given_fails`,
`C257_keyword_fails`). -/
theorem C257_tight_partial (big : Rat) (c : Container) (lines : List (List Item)) (h : ∀ l ∈ lines, ∀ i ∈ l, Plain big i ∧ i.size = .auto)
    (hs : space big c lines.flatten ≤ 0) :
    ∃ ls, crossSize big c lines = ls.sum ∧ ls.length = lines.length ∧
      ∀ p ∈ lines.zip ls, p.2 = 0 ∨ ∃ i ∈ p.1, p.2 = wanted c.isMin i := by
  refine ⟨lines.map (lineSize big (space big c lines.flatten) c.isMin), ?_, by simp, ?_⟩
  · unfold crossSize
    simp only []
    rw [stretched, if_neg]
    rintro ⟨_, _, _, h4⟩
    have : 0 ≤ (lines.map (lineSize big (space big c lines.flatten) c.isMin)).sum := by
      apply List.sum_nonneg
      intro x hx
      rw [List.mem_map] at hx
      obtain ⟨l', _, rfl⟩ := hx
      exact line_nonneg _ _ _ _
    linarith
  · intro p hp
    rw [List.zip_map_right, List.mem_map] at hp
    obtain ⟨q, hq, rfl⟩ := hp
    have hq1 : q.1 ∈ lines ∧ q.1 = q.2 := by
      have := List.of_mem_zip (l₁ := lines) (l₂ := lines) (a := q.1) (b := q.2) hq
      refine ⟨this.1, ?_⟩
      rw [List.zip_eq_zipWith, List.zipWith_self, List.mem_map] at hq
      obtain ⟨x, _, rfl⟩ := hq
      rfl
    rcases foldl_max_mem (q.2.map (contribution big (space big c lines.flatten) c.isMin)) 0 with h0 | h0
    · exact .inl h0
    · rw [List.mem_map] at h0
      obtain ⟨i, hi, he⟩ := h0
      rw [← hq1.2] at hi
      obtain ⟨hp, hz⟩ := h _ hq1.1 i hi
      refine .inr ⟨i, hi, ?_⟩
      show lineSize _ _ _ q.2 = _
      unfold lineSize
      rw [← he, wanted_eq (space := space big c lines.flatten) hp]
      simp [contribution, hz, said, hp.main]

/-- Two lines, with an item that has a smallest size. -/
def sample : List (List Item) := [[{ minC := 10, maxC := 30 }, { minC := 5, maxC := 5, minSize := .calc (.length 40) }], [{ minC := 7, maxC := 20 }]]

example : (∀ l ∈ sample, ∀ i ∈ l, Plain 1000 i ∧ i.size = .auto) ∧ space 1000 {} sample.flatten ≤ 0 ∧ crossSize 1000 {} sample = 60 := by
  refine ⟨?_, by decide +kernel, by decide +kernel⟩
  intro l hl i hi
  simp only [sample, List.mem_cons, List.not_mem_nil, or_false] at hl
  rcases hl with rfl | rfl
  · simp only [List.mem_cons, List.not_mem_nil, or_false] at hi
    rcases hi with rfl | rfl
    · exact ⟨⟨.inl rfl, .inl rfl, .inl rfl, by norm_num, rfl, rfl⟩, rfl⟩
    · exact ⟨⟨.inl rfl, .inr (.inl ⟨_, rfl⟩), .inl rfl, by norm_num, rfl, rfl⟩, rfl⟩
  · simp only [List.mem_cons, List.not_mem_nil, or_false] at hi
    subst hi
    exact ⟨⟨.inl rfl, .inl rfl, .inl rfl, by norm_num, rfl, rfl⟩, rfl⟩

/-- **C257.** The margins that count are those of the other direction: an item with margins across alone has no room for them, one
with margins along gets room that it does not need. -/
theorem C257_margin_fails (big space m w : Rat) (isMin : Bool) (hm : 0 < m) (hw : 0 ≤ w) (hb : w + m ≤ big) :
    wanted isMin { minC := w, maxC := w, marginCross := m } = w + m ∧
    contribution big space isMin { minC := w, maxC := w, marginCross := m } = w ∧
    wanted isMin { minC := w, maxC := w, marginMain := m } = w ∧
    contribution big space isMin { minC := w, maxC := w, marginMain := m } = w + m := by
  have h1 : w ≤ big := by linarith
  have h2 : 0 ≤ m + w := by linarith
  have h3 : m + w ≤ big := by linarith
  refine ⟨?_, ?_, ?_, ?_⟩ <;>
    simp [wanted, contribution, said, saidMax, lower, upper, clamp, hw, h1, h2, h3, add_comm]

/-- **C257.** A size that is smaller than the content of the item is not what it contributes. -/
theorem C257_given_fails (big space v w : Rat) (isMin : Bool) (hv : 0 ≤ v) (hw : v < w) (hb : w ≤ big) :
    wanted isMin { minC := w, maxC := w, size := .calc (.length v) } = v ∧
    contribution big space isMin { minC := w, maxC := w, size := .calc (.length v) } = w := by
  have h1 : 0 ≤ w := by linarith
  constructor <;> simp [wanted, contribution, said, saidMax, lower, upper, clamp, Calc.resolve, hv, hb, h1, hw.le]

/-- **C257.** An item of the size `min-content` contributes the size of its whole content. -/
theorem C257_keyword_fails (big space v w : Rat) (hv : 0 ≤ v) (hw : v < w) (hb : w ≤ big) :
    wanted false { minC := v, maxC := w, size := .minContent } = v ∧
    contribution big space false { minC := v, maxC := w, size := .minContent } = w := by
  have h1 : 0 ≤ w := by linarith
  constructor <;> simp [wanted, contribution, said, saidMax, lower, upper, clamp, hv, hb, h1]

/-- **C257 (in part).** In a column with several lines, items have as much space as the widest one of them wants; where
`wrap-reverse` is used they do not (`C257_reverse_fails`). -/
theorem C257_space_partial (big : Rat) (c : Container) (items : List Item) (hc : c.row = false) (hw : c.wrap = .wrap) (i : Item)
    (hi : i ∈ items) (h : Plain big i) : wanted c.isMin i ≤ space big c items := by
  unfold space
  simp only [hc, hw, and_self, if_true]
  exact le_trans (wanted_le (space := c.known.getD c.avail) h) (mem_le_foldl (List.mem_map_of_mem hi) _)

theorem C257_reverse_fails (big w : Rat) (hw : 0 < w) (isMin : Bool) :
    space big { row := false, wrap := .wrapReverse, isMin := isMin } [{ minC := w, maxC := w }] < wanted isMin { minC := w, maxC := w } := by
  have h : wanted isMin { minC := w, maxC := w } = w := by simp [wanted, said, saidMax, hw.le]
  rw [h]
  simpa [space] using hw

end Verif.Across
