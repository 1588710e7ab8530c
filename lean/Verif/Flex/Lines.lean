import Verif.Flex.Spec
import Mathlib.Tactic.Linarith
/-!
# Flexible boxes: lines
-/
namespace Verif.Flex
open Spec

theorem wish_cons (x : Item) (l : List Item) : wish (x :: l) = (natural x + margins x) + wish l := by
  simp [wish]

theorem wish_nil : wish [] = 0 := rfl

theorem hypo_natural (x : Item) : x.hypo = natural x := rfl

theorem takeLine_le (main slack : Rat) (items : List Item) :
    ∀ size, takeLine main slack size items ≤ items.length := by
  induction items with
  | nil => intro size; simp [takeLine]
  | cons x rest ih =>
    intro size
    simp only [takeLine]
    split
    · have := ih (size + (x.hypo + x.margins))
      simp only [List.length_cons]
      omega
    · simp

theorem wish_nonneg (items : List Item) (h : ∀ x ∈ items, 0 < natural x + margins x) : 0 ≤ wish items := by
  induction items with
  | nil => exact le_rfl
  | cons x l ih =>
    rw [wish_cons]
    have h1 := h x List.mem_cons_self
    have h2 := ih fun y hy => h y (List.mem_cons_of_mem _ hy)
    linarith

theorem takeLine_more (main slack : Rat) (items : List Item) (hp : ∀ x ∈ items, 0 < natural x + margins x) :
    ∀ size, 0 < size →
      (takeLine main slack size items = 0 ∨
        size + wish (items.take (takeLine main slack size items)) ≤ main + slack) ∧
      ∀ x rest, items.drop (takeLine main slack size items) = x :: rest →
        main + slack < size + wish (items.take (takeLine main slack size items)) + (natural x + margins x) := by
  induction items with
  | nil => intro size _; exact ⟨.inl rfl, by intro x rest h; simp at h⟩
  | cons x l ih =>
    intro size hs
    have hx := hp x List.mem_cons_self
    have hc : x.hypo + x.margins = natural x + margins x := rfl
    simp only [takeLine, hc]
    split
    · rename_i h
      have hle : size + (natural x + margins x) ≤ main + slack := h.resolve_right (ne_of_gt hs)
      obtain ⟨h1, h2⟩ := ih (fun y hy => hp y (List.mem_cons_of_mem _ hy)) (size + (natural x + margins x))
        (by linarith)
      simp only [List.take_succ_cons, List.drop_succ_cons, wish_cons]
      refine ⟨.inr ?_, ?_⟩
      · rcases h1 with h1 | h1
        · rw [h1, List.take_zero, wish_nil]; linarith
        · linarith
      · intro y rest hy
        have := h2 y rest hy
        linarith
    · rename_i h
      refine ⟨.inl rfl, ?_⟩
      intro y rest hy
      simp only [List.drop_zero, List.cons.injEq] at hy
      obtain ⟨rfl, -⟩ := hy
      have : ¬size + (natural x + margins x) ≤ main + slack := fun hle => h (.inl hle)
      simp only [List.take_zero, wish_nil]
      linarith

theorem takeLine_zero (main slack : Rat) (x : Item) (l : List Item)
    (hp : ∀ y ∈ x :: l, 0 < natural y + margins y) :
    ((x :: l).take (takeLine main slack 0 (x :: l)) ≠ [] ∧
      (((x :: l).take (takeLine main slack 0 (x :: l))).length = 1 ∨
        wish ((x :: l).take (takeLine main slack 0 (x :: l))) ≤ main + slack)) ∧
    ∀ y rest, (x :: l).drop (takeLine main slack 0 (x :: l)) = y :: rest →
      main + slack < wish ((x :: l).take (takeLine main slack 0 (x :: l))) + (natural y + margins y) := by
  have hx := hp x List.mem_cons_self
  have hc : x.hypo + x.margins = natural x + margins x := rfl
  have ht : takeLine main slack 0 (x :: l) = takeLine main slack (natural x + margins x) l + 1 := by
    simp [takeLine, hc]
  obtain ⟨h1, h2⟩ := takeLine_more main slack l (fun y hy => hp y (List.mem_cons_of_mem _ hy)) _ hx
  rw [ht]
  simp only [List.take_succ_cons, List.drop_succ_cons, wish_cons]
  refine ⟨⟨by simp, ?_⟩, ?_⟩
  · rcases h1 with h1 | h1
    · left; rw [h1]; simp
    · exact .inr h1
  · intro y rest hy
    exact h2 y rest hy

theorem wrapLines_flatten (main slack : Rat) (items : List Item) :
    (wrapLines main slack items).flatten = items := by
  fun_induction wrapLines main slack items with
  | case1 => rfl
  | case2 x rest ih => rw [List.flatten_cons, ih, List.take_append_drop]

theorem wrapLines_ne_nil (main slack : Rat) (items : List Item) : ∀ l ∈ wrapLines main slack items, l ≠ [] := by
  fun_induction wrapLines main slack items with
  | case1 => intro l hl; cases hl
  | case2 x rest ih =>
    intro l hl
    rcases List.mem_cons.1 hl with rfl | hl
    · have := takeLine_pos main slack x rest
      intro h
      have := congrArg List.length h
      simp only [List.length_take, List.length_cons, List.length_nil] at this
      omega
    · exact ih l hl

theorem wrapLines_greedy (main slack : Rat) (items : List Item) (hp : ∀ x ∈ items, 0 < natural x + margins x) :
    Greedy main slack (wrapLines main slack items) := by
  revert hp
  fun_induction wrapLines main slack items with
  | case1 => intro _; exact ⟨(by intro l hl; cases hl), by intro k l x rest hl; simp at hl⟩
  | case2 x rest ih =>
    intro hp
    have h1 := takeLine_zero main slack x rest hp
    have h2 := ih fun y hy => hp y (List.mem_of_mem_drop hy)
    refine ⟨?_, ?_⟩
    · intro l hl
      rcases List.mem_cons.1 hl with rfl | hl
      · exact h1.1
      · exact h2.fits l hl
    · intro k l y more hk hk1
      cases k with
      | zero =>
        simp only [List.getElem?_cons_zero, Option.some.injEq, List.getElem?_cons_succ, Nat.zero_add] at hk hk1
        subst hk
        cases hd : (x :: rest).drop (takeLine main slack 0 (x :: rest)) with
        | nil =>
          rw [hd, wrapLines] at hk1
          simp at hk1
        | cons z zs =>
          have h3 := h1.2 z zs hd
          rw [hd, wrapLines] at hk1
          simp only [List.getElem?_cons_zero, Option.some.injEq] at hk1
          have h4 : z = y := by
            have hpos := takeLine_pos main slack z zs
            obtain ⟨n, hn⟩ : ∃ n, takeLine main slack 0 (z :: zs) = n + 1 :=
              ⟨takeLine main slack 0 (z :: zs) - 1, by omega⟩
            rw [hn, List.take_succ_cons] at hk1
            exact (List.cons.inj hk1).1
          rw [← h4]
          exact h3
      | succ k =>
        simp only [List.getElem?_cons_succ] at hk hk1
        exact h2.full k l y more hk hk1

end Verif.Flex
