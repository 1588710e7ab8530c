import Verif.Flex.Finish
/-!
# Flexible boxes: the cross direction, and how items and lines lie to each other
-/
namespace Verif.Flex
open Spec

/-! ## Seen from the other end -/

theorem spaced_snoc (g : Rat) (p : Placed) (b' : Rat) (hb : p.main + p.mainSize + p.endMain = b') :
    ∀ (ps : List Placed) (a b : Rat), ps ≠ [] → Spaced g a ps b → p.main - p.startMain = b + g →
      Spaced g a (ps ++ [p]) b'
  | [], _, _, h, _, _ => absurd rfl h
  | [q], a, b, _, h, he => by
    simp only [List.cons_append, List.nil_append, Spaced] at h ⊢
    exact ⟨h.1, by rw [he, h.2], hb⟩
  | q :: q' :: ps, a, b, _, h, he => by
    simp only [List.cons_append, Spaced] at h ⊢
    exact ⟨h.1, spaced_snoc g p b' hb (q' :: ps) _ b (by simp) h.2 he⟩

theorem spaced_mirror (main g : Rat) : ∀ (ps : List Placed) (a b : Rat), Spaced g a ps b →
    Spaced g (main - b) (ps.reverse.map (mirror main)) (main - a)
  | [], a, b, h => by
    simp only [Spaced] at h
    simp [Spaced, h]
  | [p], a, b, h => by
    simp only [Spaced] at h
    simp only [List.reverse_singleton, List.map_cons, List.map_nil, Spaced, mirror]
    constructor <;> linarith
  | p :: q :: ps, a, b, h => by
    simp only [Spaced] at h
    have ih := spaced_mirror main g (q :: ps) _ _ h.2
    rw [List.reverse_cons, List.map_append]
    refine spaced_snoc g (mirror main p) (main - a) ?_ _ _ _ (by simp) ih ?_
    · simp only [mirror]; linarith
    · simp only [mirror]; linarith

/-! ## Items in their line -/

theorem lineItems_mem {au : Rat → Rat} {c : Container} {start size : Rat} {l : List Box} {p : Placed}
    (h : p ∈ lineItems au c start size l) :
    ∃ b ∈ l, ∃ b', (usedCross c.alignItems size b).Same b' ∧
      p = (alignItem au c.alignItems size (crossMargins au size b')).commit start := by
  unfold lineItems finishLine at h
  obtain ⟨b1, h1, rfl⟩ := List.mem_map.1 h
  obtain ⟨b', h2, rfl⟩ := List.mem_map.1 h1
  obtain ⟨b2, h3, h4⟩ := (distribute_same au c.dir c.justify c.main _).mem b' h2
  obtain ⟨b, h5, rfl⟩ := List.mem_map.1 h3
  exact ⟨b, h5, b', h4, rfl⟩

/-- Items without `auto` margins across. -/
theorem across_item (c : Container) (start size : Rat) (x : Item) (s : Rat) (b' : Box)
    (hb : (usedCross c.alignItems size (Box.make x s)).Same b')
    (h1 : x.startCross ≠ none) (h2 : x.endCross ≠ none) (items : List Placed) :
    Across (x.alignment c.alignItems) ⟨start, size, items⟩
      ((alignItem id c.alignItems size (crossMargins id size b')).commit start) := by
  obtain ⟨ss, ee, pp, rfl⟩ := hb
  have hm : ¬(x.startCross = none ∨ x.endCross = none) := by rintro (h | h) <;> contradiction
  have hcm : ∀ b : Box, b.item = x → crossMargins id size b = b := by
    intro b hb
    unfold crossMargins
    rw [hb, if_neg hm]
  rw [hcm _ rfl]
  have hauto : ∀ b : Box, b.item = x → b.crossMarginAuto = false := by
    intro b hb
    unfold Box.crossMarginAuto
    rw [hb]
    exact decide_eq_false hm
  have hstretch : x.alignment c.alignItems = .stretch → x.crossAuto = true →
      (usedCross c.alignItems size (Box.make x s)).crossSize =
        max x.crossLo (min (size - (x.startCross.getD 0 + x.endCross.getD 0)) x.crossHi) := by
    intro ha hc
    unfold usedCross
    have : (Box.make x s).crossMarginAuto = false := hauto _ rfl
    simp only [this]
    have hi : (Box.make x s).item = x := rfl
    rw [hi, if_pos ⟨ha, hc, trivial⟩]
    rfl
  unfold alignItem Across
  generalize hal : x.alignment c.alignItems = al at *
  have hit : Item.alignment c.alignItems (usedCross c.alignItems size (Box.make x s)).item = al := hal
  have hitem : (usedCross c.alignItems size (Box.make x s)).item = x := rfl
  simp only [hit]
  have hau := hauto { usedCross c.alignItems size (Box.make x s) with startMain := ss, endMain := ee, pos := pp } hitem
  cases al <;> simp only [hau, Bool.false_eq_true, if_false, Box.commit] <;> try trivial
  · simp only [id]; ring
  · ring
  · ring
  · refine ⟨by ring, ?_⟩
    intro hc
    exact hstretch rfl hc

/-! ## Lines one after the other -/

/-- Rows that lines are made into. -/
def toRow (l : Rat × Rat × List Box) : Row := ⟨l.1, l.2.1, l.2.2.map (Box.commit l.1)⟩

theorem placeLines_stacked (gap : Rat) : ∀ (ls : List (Rat × List Box)) (a : Rat), ls ≠ [] →
    Stacked gap a ((placeLines gap a ls).map toRow)
      (a + (ls.map (·.1)).sum + ((ls.length - 1 : Nat) : Rat) * gap)
  | [], _, h => absurd rfl h
  | [l], a, _ => by
    simp [placeLines, toRow, Stacked]
  | l :: l' :: ls, a, _ => by
    have ih := placeLines_stacked gap (l' :: ls) (a + (l.1 + gap)) (by simp)
    simp only [placeLines, List.map_cons, Stacked]
    refine ⟨rfl, ?_⟩
    have h1 : (toRow (a, l)).start + (toRow (a, l)).size + gap = a + (l.1 + gap) := by
      simp only [toRow]; ring
    rw [h1]
    have h2 : a + (l.1 :: l'.1 :: ls.map (·.1)).sum + (((l :: l' :: ls).length - 1 : Nat) : Rat) * gap =
        a + (l.1 + gap) + ((l' :: ls).map (·.1)).sum + (((l' :: ls).length - 1 : Nat) : Rat) * gap := by
      simp only [List.map_cons, List.sum_cons, List.length_cons, Nat.add_sub_cancel]
      push_cast
      ring
    rw [h2]
    simpa only [placeLines, List.map_cons] using ih

theorem placeLines_length (gap : Rat) : ∀ (ls : List (Rat × List Box)) (a : Rat),
    (placeLines gap a ls).length = ls.length
  | [], _ => rfl
  | _ :: ls, a => by simp only [placeLines, List.length_cons, placeLines_length gap ls]

/-- `align-content`, exactly. -/
theorem alignLines_piled (how : Align) (room : Rat) (ls : List (Rat × List Box)) (hne : ls ≠ []) :
    Piled how room ((alignLines id how room ls).map toRow) := by
  have hlen : 0 < ls.length := List.length_pos_iff.2 hne
  have key := fun g a => placeLines_stacked g ls a hne
  have key0 : ∀ a b, b = a + (ls.map (·.1)).sum → Stacked 0 a ((placeLines 0 a ls).map toRow) b := by
    intro a b hb
    have := key 0 a
    rw [mul_zero, add_zero, ← hb] at this
    exact this
  unfold alignLines
  generalize hsum : (ls.map (·.1)).sum = total at *
  cases how <;> simp only [Piled, id_eq]
  · exact ⟨(room - total) / 2, key0 _ _ (by ring)⟩
  · exact ⟨_, key 0 0⟩
  · exact ⟨room - total, key0 _ _ (by ring)⟩
  · exact ⟨_, key 0 0⟩
  · split
    · rename_i h
      refine ⟨0, _, le_rfl, key 0 0, .inr ⟨rfl, ?_⟩⟩
      rcases h with h | h
      · left
        simp only [zero_add, mul_zero, add_zero]
        linarith
      · right
        simpa [placeLines_length] using h
    · rename_i h
      rw [not_or] at h
      have hn : 0 < ((ls.length - 1 : Nat) : Rat) := by
        have : 0 < ls.length - 1 := by omega
        exact_mod_cast this
      refine ⟨(room - total) / ((ls.length - 1 : Nat) : Rat), _, ?_, key _ 0, .inl ?_⟩
      · exact div_nonneg (not_lt.1 h.1) (le_of_lt hn)
      · field_simp
        ring
  · split
    · rename_i h
      refine ⟨room - total, ?_⟩
      rw [max_eq_right (le_of_lt h)]
      exact key0 _ _ (by ring)
    · rename_i h
      have hn : 0 < (ls.length : Rat) := by exact_mod_cast hlen
      have hg : 0 ≤ (room - total) / (ls.length : Rat) := div_nonneg (not_lt.1 h) (le_of_lt hn)
      refine ⟨(room - total) / (ls.length : Rat), ?_⟩
      rw [max_eq_left hg]
      have h0 := key ((room - total) / (ls.length : Rat)) ((room - total) / (ls.length : Rat) / 2)
      have he : (room - total) / (ls.length : Rat) / 2 + total +
          ((ls.length - 1 : Nat) : Rat) * ((room - total) / (ls.length : Rat)) =
          room - (room - total) / (ls.length : Rat) / 2 := by
        have hc : ((ls.length - 1 : Nat) : Rat) = (ls.length : Rat) - 1 := by
          rw [Nat.cast_sub (by omega)]; simp
        rw [hc]
        field_simp
        ring
      rw [he] at h0
      exact h0

end Verif.Flex
