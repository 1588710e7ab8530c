import Verif.Flex.Lines
import Mathlib.Tactic.FieldSimp
import Mathlib.Tactic.Ring
/-!
# Flexible boxes: places in the main direction
-/
namespace Verif.Flex
open Spec

/-! ## Items side by side -/

/-- What matters for the main direction. -/
def Placed.key (p : Placed) : Rat × Rat × Rat × Rat := (p.main, p.mainSize, p.startMain, p.endMain)

theorem spaced_congr (g : Rat) : ∀ (ps qs : List Placed) (a b : Rat), ps.map Placed.key = qs.map Placed.key →
    Spaced g a ps b → Spaced g a qs b
  | [], [], _, _, _, h => h
  | [], _ :: _, _, _, he, _ => by simp at he
  | [_], [], _, _, he, _ => by simp at he
  | [p], [q], a, b, he, h => by
    simp only [List.map_cons, List.map_nil, List.cons.injEq, and_true, Placed.key, Prod.mk.injEq] at he
    obtain ⟨h1, h2, h3, h4⟩ := he
    simp only [Spaced] at h ⊢
    rw [← h1, ← h2, ← h3, ← h4]
    exact h
  | [_], _ :: _ :: _, _, _, he, _ => by simp at he
  | _ :: _ :: _, [], _, _, he, _ => by simp at he
  | _ :: _ :: _, [_], _, _, he, _ => by simp at he
  | p :: p' :: ps, q :: q' :: qs, a, b, he, h => by
    rw [List.map_cons (l := p' :: ps), List.map_cons (l := q' :: qs), List.cons.injEq] at he
    obtain ⟨hk, he⟩ := he
    simp only [Placed.key, Prod.mk.injEq] at hk
    obtain ⟨h1, h2, h3, h4⟩ := hk
    simp only [Spaced] at h ⊢
    rw [← h1, ← h2, ← h3, ← h4]
    exact ⟨h.1, spaced_congr g _ _ _ _ he h.2⟩

theorem occupied_cons (b : Box) (l : List Box) : occupied (b :: l) = b.outer + occupied l := by simp [occupied]

theorem placeMain_spaced (gap c : Rat) : ∀ (l : List Box) (a : Rat), l ≠ [] →
    Spaced gap a ((placeMain gap a l).map (Box.commit c)) (a + occupied l + ((l.length - 1 : Nat) : Rat) * gap)
  | [], _, h => absurd rfl h
  | [b], a, _ => by
    simp only [placeMain, List.map_cons, List.map_nil, Spaced, Box.commit, occupied, List.sum_cons, List.sum_nil,
      Box.outer]
    constructor
    · ring
    · simp
      ring
  | b :: b' :: l, a, _ => by
    have ih := placeMain_spaced gap c (b' :: l) (a + (b.size + (b.startMain + b.endMain) + gap)) (by simp)
    simp only [placeMain, List.map_cons, Spaced]
    refine ⟨by simp [Box.commit], ?_⟩
    have h1 : (Box.commit c { b with pos := a + b.startMain }).main +
        (Box.commit c { b with pos := a + b.startMain }).mainSize +
        (Box.commit c { b with pos := a + b.startMain }).endMain + gap =
        a + (b.size + (b.startMain + b.endMain) + gap) := by
      simp only [Box.commit]; ring
    rw [h1]
    have h2 : a + occupied (b :: b' :: l) + (((b :: b' :: l).length - 1 : Nat) : Rat) * gap =
        a + (b.size + (b.startMain + b.endMain) + gap) + occupied (b' :: l) +
          (((b' :: l).length - 1 : Nat) : Rat) * gap := by
      rw [occupied_cons b]
      simp only [Box.outer, List.length_cons, Nat.add_sub_cancel]
      push_cast
      ring
    rw [h2]
    simpa only [placeMain, List.map_cons] using ih

theorem placeMain_length (gap : Rat) : ∀ (l : List Box) (a : Rat), (placeMain gap a l).length = l.length
  | [], _ => rfl
  | b :: l, a => by simp only [placeMain, List.length_cons, placeMain_length gap l]

theorem justify_length (au : Rat → Rat) (how : Align) (main occ : Rat) (l : List Box) :
    (justify au how main occ l).length = l.length := by
  unfold justify
  split <;> (try split) <;> exact placeMain_length _ _ _

/-- `justify-content`, exactly. -/
theorem justify_justified (how : Align) (main c : Rat) (l : List Box) (hne : l ≠ []) (hev : how ≠ .spaceEvenly) :
    Justified how main ((justify id how main (occupied l) l).map (Box.commit c)) := by
  have hlen : 0 < l.length := List.length_pos_iff.2 hne
  have key := fun g a => placeMain_spaced g c l a hne
  have key0 : ∀ a b, b = a + occupied l → Spaced 0 a ((placeMain 0 a l).map (Box.commit c)) b := by
    intro a b hb
    have := key 0 a
    rw [mul_zero, add_zero, ← hb] at this
    exact this
  unfold justify
  cases how <;> simp only [Justified, ne_eq, not_true_eq_false, id_eq] at hev ⊢
  · -- center
    exact ⟨(main - occupied l) / 2, key0 _ _ (by ring)⟩
  · -- flexStart
    exact ⟨_, key 0 0⟩
  · -- flexEnd
    exact ⟨main - occupied l, key0 _ _ (by ring)⟩
  · -- spaceBetween
    split
    · rename_i h
      refine ⟨0, _, le_rfl, key 0 0, ?_⟩
      right
      refine ⟨rfl, ?_⟩
      rcases h with h | h
      · left; simpa using h
      · right; simpa [placeMain_length] using h
    · rename_i h
      rw [not_or] at h
      have hn : 0 < ((l.length - 1 : Nat) : Rat) := by
        have : 0 < l.length - 1 := by omega
        exact_mod_cast this
      refine ⟨(main - occupied l) / ((l.length - 1 : Nat) : Rat), _, ?_, key _ 0, ?_⟩
      · exact div_nonneg (by linarith [not_lt.1 h.1]) (le_of_lt hn)
      · left
        field_simp
        ring
  · -- spaceAround
    split
    · rename_i h
      refine ⟨main - occupied l, ?_⟩
      have h0 := key0 ((main - occupied l) / 2) (main - (main - occupied l) / 2) (by ring)
      by_cases ho : main < occupied l
      · rw [max_eq_right (by linarith)]
        exact h0
      · obtain ⟨b, rfl⟩ := List.length_eq_one_iff.1 (h.resolve_left ho)
        simp only [placeMain, List.map_cons, List.map_nil, Spaced] at h0 ⊢
        exact h0
    · rename_i h
      rw [not_or] at h
      have hn : 0 < (l.length : Rat) := by exact_mod_cast hlen
      have hg : 0 ≤ (main - occupied l) / (l.length : Rat) :=
        div_nonneg (by linarith [not_lt.1 h.1]) (le_of_lt hn)
      refine ⟨(main - occupied l) / (l.length : Rat), ?_⟩
      rw [max_eq_left hg]
      have h0 := key ((main - occupied l) / (l.length : Rat)) ((main - occupied l) / (l.length : Rat) / 2)
      have he : (main - occupied l) / (l.length : Rat) / 2 + occupied l +
          ((l.length - 1 : Nat) : Rat) * ((main - occupied l) / (l.length : Rat)) =
          main - (main - occupied l) / (l.length : Rat) / 2 := by
        have hc : ((l.length - 1 : Nat) : Rat) = (l.length : Rat) - 1 := by
          rw [Nat.cast_sub (by omega)]; simp
        rw [hc]
        field_simp
        ring
      rw [he] at h0
      exact h0

/-! ## Margins -/

theorem Box.outer_withAuto (m : Rat) (b : Box) (h1 : b.item.startMain = none → b.startMain = 0)
    (h2 : b.item.endMain = none → b.endMain = 0) :
    (b.withAuto m).outer = b.outer +
      (((if b.item.startMain = none then 1 else 0) + (if b.item.endMain = none then 1 else 0) : Nat) : Rat) * m := by
  unfold Box.withAuto Box.outer
  by_cases hs : b.item.startMain = none <;> by_cases he : b.item.endMain = none <;>
    simp [hs, he, h1, h2] <;> ring

/-- No margin has been handed out yet. -/
def Fresh (l : List Box) : Prop :=
  ∀ b ∈ l, (b.item.startMain = none → b.startMain = 0) ∧ (b.item.endMain = none → b.endMain = 0)

theorem occupied_withAuto (m : Rat) (l : List Box) (h : Fresh l) :
    occupied (l.map (Box.withAuto m)) = occupied l + (autos l : Rat) * m := by
  induction l with
  | nil => simp [occupied, autos]
  | cons b l ih =>
    have hb := h b List.mem_cons_self
    rw [List.map_cons, occupied_cons, occupied_cons, ih fun x hx => h x (List.mem_cons_of_mem _ hx),
      Box.outer_withAuto m b hb.1 hb.2]
    have : autos (b :: l) = ((if b.item.startMain = none then 1 else 0) +
        (if b.item.endMain = none then 1 else 0)) + autos l := by simp [autos]
    rw [this]
    push_cast
    ring

theorem autoMargins_occupied (main : Rat) (l : List Box) (h : Fresh l) :
    (autoMargins id main l).2 = occupied (autoMargins id main l).1 := by
  unfold autoMargins
  split
  · rename_i hc
    rw [occupied_withAuto _ _ h]
    have : (autos l : Rat) ≠ 0 := by exact_mod_cast hc.2
    simp only [id]
    field_simp
    ring
  · rw [occupied_withAuto _ _ h]
    simp

end Verif.Flex
