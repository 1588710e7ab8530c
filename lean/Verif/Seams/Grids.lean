import Verif.Seams.Lemmas
/-!
# Collapsed borders: from the grid of a table to its lines
-/
namespace Verif.Seams
open Verif.Table (Slot Grid Border harmonize harmonizeStep)
open Verif.Table.Spec (Rect Shows)

theorem pairwise_eq {α : Type} {R : α → α → Prop} {l : List α} (h : l.Pairwise R) {a b : α} (ha : a ∈ l) (hb : b ∈ l)
    (h1 : ¬R a b) (h2 : ¬R b a) : a = b := by
  induction l with
  | nil => cases ha
  | cons c l ih =>
    rw [List.pairwise_cons] at h
    rcases List.mem_cons.1 ha with rfl | ha' <;> rcases List.mem_cons.1 hb with rfl | hb'
    · rfl
    · exact absurd (h.1 b hb') h1
    · exact absurd (h.1 a ha') h2
    · exact ih h.2 ha' hb'

variable {g : Grid} {rs : List Rect}

theorem slot_of_cover (h : Tiles g rs) {r : Rect} (hr : r ∈ rs) {x y : Nat} (hc : r.Covers x y) :
    g.slot x y = ⟨r.x, r.y, some r.cell⟩ := by
  obtain ⟨hx, hy⟩ := h.shows.inside r hr x y hc
  rcases h.shows.slots x y hx hy with ⟨-, h0⟩ | ⟨q, hq, hqc, he⟩
  · exact absurd hc (h0 r hr)
  · have : r = q := pairwise_eq h.apart hr hq (fun hh => hh x y hc hqc) (fun hh => hh x y hqc hc)
    rw [this]; exact he

theorem covers_iff (h : Tiles g rs) {r : Rect} (hr : r ∈ rs) (x y : Nat) :
    r.Covers x y ↔ r.x ≤ x ∧ x < r.x + r.cell.colSpan ∧ r.y ≤ y ∧ y < r.y + r.cell.rowSpan := by
  unfold Rect.Covers
  rw [(h.rows r hr).2]
  simp

/-- A slot is its own, or that of a cell that covers it. -/
theorem slot_cases (h : Tiles g rs) {x y : Nat} (hx : x < g.w) (hy : y < g.h) :
    g.slot x y = ⟨x, y, none⟩ ∨ ∃ r ∈ rs, r.Covers x y ∧ g.slot x y = ⟨r.x, r.y, some r.cell⟩ := by
  rcases h.shows.slots x y hx hy with ⟨h0, -⟩ | h1
  · left
    obtain ⟨h1, h2⟩ := h.empty x y hx hy h0
    cases hs : g.slot x y with
    | mk ax ay box => rw [hs] at h0 h1 h2; simp only at h0 h1 h2; rw [h0, h1, h2]
  · exact .inr h1

theorem corner (h : Tiles g rs) {r : Rect} (hr : r ∈ rs) : r.x + r.cell.colSpan ≤ g.w ∧ r.y + r.cell.rowSpan ≤ g.h := by
  have h1 := h.cols r hr
  have h2 := (h.rows r hr).1
  have := h.shows.inside r hr (r.x + r.cell.colSpan - 1) (r.y + r.cell.rowSpan - 1)
    ((covers_iff h hr _ _).2 (by omega))
  omega

theorem row_tiled (h : Tiles g rs) (i y : Nat) (hy : y < g.h) : Tiled (rowLine g i) (fun x => g.slot x y) := by
  constructor
  · intro x hx
    rcases slot_cases h hx hy with he | ⟨r, hr, hc, he⟩ <;> simp only [rowLine, he]
    · omega
    · exact hc.1
  · intro x hx
    rcases slot_cases h hx hy with he | ⟨r, hr, hc, he⟩ <;> simp only [rowLine, he, colSpan]
    · omega
    · exact hc.2.1
  · intro x hx
    rcases slot_cases h hx hy with he | ⟨r, hr, hc, he⟩ <;> simp only [rowLine, he, colSpan]
    · exact hx
    · exact (corner h hr).1
  · intro x z hx h1 h2
    rcases slot_cases h hx hy with he | ⟨r, hr, hc, he⟩ <;> simp only [rowLine, he, colSpan] at h1 h2 ⊢
    · have : z = x := by omega
      rw [this, he]
    · rw [covers_iff h hr] at hc
      exact slot_of_cover h hr ((covers_iff h hr _ _).2 (by omega))
  · intro x hx hb
    simp only [rowLine, colSpan, hb]

theorem col_tiled (h : Tiles g rs) (j x : Nat) (hx : x < g.w) : Tiled (colLine g j) (fun y => g.slot x y) := by
  constructor
  · intro y hy
    rcases slot_cases h hx hy with he | ⟨r, hr, hc, he⟩ <;> simp only [colLine, he]
    · omega
    · exact hc.2.2.1
  · intro y hy
    rcases slot_cases h hx hy with he | ⟨r, hr, hc, he⟩ <;> simp only [colLine, he, rowSpan]
    · omega
    · rw [covers_iff h hr] at hc; omega
  · intro y hy
    rcases slot_cases h hx hy with he | ⟨r, hr, hc, he⟩ <;> simp only [colLine, he, rowSpan]
    · exact hy
    · exact (corner h hr).2
  · intro y z hy h1 h2
    rcases slot_cases h hx hy with he | ⟨r, hr, hc, he⟩ <;> simp only [colLine, he, rowSpan] at h1 h2 ⊢
    · have : z = y := by omega
      rw [this, he]
    · rw [covers_iff h hr] at hc
      exact slot_of_cover h hr ((covers_iff h hr _ _).2 (by omega))
  · intro y hy hb
    simp only [colLine, rowSpan, hb]

/-- Slots with the same anchor, one of them behind the other, are of one cell. -/
theorem anchor_eq (h : Tiles g rs) {x y x' y' : Nat} (hx : x < g.w) (hy : y < g.h) (hx' : x' < g.w) (hy' : y' < g.h)
    (hle : x ≤ x' ∧ y ≤ y') (hne : (x, y) ≠ (x', y')) (hs : sameAnchor (g.slot x y) (g.slot x' y') = true) :
    g.slot x y = g.slot x' y' := by
  unfold sameAnchor at hs
  rw [Bool.and_eq_true, beq_iff_eq, beq_iff_eq] at hs
  rcases slot_cases h hx hy with he | ⟨r, hr, hc, he⟩ <;> rcases slot_cases h hx' hy' with he' | ⟨q, hq, hc', he'⟩ <;>
    rw [he, he'] at hs <;> simp only at hs
  · exact absurd (by rw [hs.1, hs.2]) hne
  · have := h.shows.first q hq
    rw [← hs.1, ← hs.2, he] at this
    simp at this
  · rw [covers_iff h hr] at hc
    exfalso
    apply hne
    rw [show x = x' by omega, show y = y' by omega]
  · have h1 := h.shows.first r hr
    have h2 := h.shows.first q hq
    rw [he, he', ← h1, ← h2, hs.1, hs.2]

theorem rowLine_sound (h : Tiles g rs) {i : Nat} (hi : i + 1 < g.h) : Sound (rowLine g i) :=
  ⟨row_tiled h i i (by omega), row_tiled h i (i + 1) hi, fun x hx hs =>
    anchor_eq h hx (by omega) hx hi ⟨Nat.le_refl _, by omega⟩ (by simp) hs⟩

theorem colLine_sound (h : Tiles g rs) {j : Nat} (hj : j + 1 < g.w) : Sound (colLine g j) :=
  ⟨col_tiled h j j (by omega), col_tiled h j (j + 1) hj, fun y hy hs =>
    anchor_eq h (by omega) hy hj hy ⟨by omega, Nat.le_refl _⟩ (by simp) hs⟩

/-! ## Reading one line's writes among those of all -/

theorem written_last (u v : List (Nat × Border)) (k : Nat) (hv : ∃ w ∈ v, w.1 = k) : written (u ++ v) k = written v k := by
  unfold written
  rw [List.foldl_append]
  generalize List.foldl (fun acc (w : Nat × Border) => if w.1 = k then w.2 else acc) ⟨0, .none, 0⟩ u = acc
  generalize (⟨0, .none, 0⟩ : Border) = acc'
  induction v generalizing acc acc' with
  | nil => obtain ⟨w, hw, -⟩ := hv; cases hw
  | cons w v ih =>
    rw [List.foldl_cons, List.foldl_cons]
    by_cases hw : w.1 = k
    · rw [if_pos hw, if_pos hw]
    · rw [if_neg hw, if_neg hw]
      apply ih
      obtain ⟨w', hw', e⟩ := hv
      rcases List.mem_cons.1 hw' with rfl | hw'
      · exact absurd e hw
      · exact ⟨w', hw', e⟩

theorem written_place (ws : List (Nat × Border)) (f : Nat → Nat) (hf : ∀ a b, f a = f b → a = b) (k : Nat) :
    written (ws.map fun p => (f p.1, p.2)) (f k) = written ws k := by
  unfold written
  rw [List.foldl_map]
  congr 1
  funext acc w
  by_cases h : w.1 = k
  · rw [if_pos h, if_pos (by rw [h])]
  · rw [if_neg h, if_neg (fun h' => h (hf _ _ h'))]

variable {size : Nat} {w : Line → Borders → Stretch → List (Nat × Border)}

theorem flat_mem {es : List Entry} {ws : List (Nat × Border)} (hf : flat size w es = .ok ws) (p : Nat × Border) (hp : p ∈ ws) :
    ∃ E ∈ es, ∃ k, p.1 = E.place k := by
  induction es generalizing ws with
  | nil => rw [flat] at hf; cases hf; cases hp
  | cons E es ih =>
    rw [flat] at hf
    cases hr : run E.line with
    | ok ts =>
      rw [hr] at hf
      simp only [Res.bind] at hf
      split at hf
      · cases hr' : flat size w es with
        | ok l =>
          rw [hr'] at hf
          cases hf
          rcases List.mem_append.1 hp with hp | hp
          · obtain ⟨q, -, rfl⟩ := List.mem_map.1 hp
            exact ⟨E, by simp, q.1, rfl⟩
          · obtain ⟨E', h1, h2⟩ := ih hr' hp
            exact ⟨E', by simp [h1], h2⟩
        | panic => rw [hr'] at hf; cases hf
        | hang => rw [hr'] at hf; cases hf
      · cases hf
    | panic => rw [hr] at hf; cases hf
    | hang => rw [hr] at hf; cases hf

theorem flat_read {u v : List Entry} {E : Entry} {ws : List (Nat × Border)} {ts : List Stretch} {k : Nat}
    (hf : flat size w (u ++ E :: v) = .ok ws) (hr : run E.line = .ok ts) (hi : ∀ a b, E.place a = E.place b → a = b)
    (hk : ∃ p ∈ ts.flatMap (w E.line E.borders), p.1 = k) (hv : ∀ E' ∈ v, ∀ k', E'.place k' ≠ E.place k) :
    written ws (E.place k) = written (ts.flatMap (w E.line E.borders)) k := by
  induction u generalizing ws with
  | nil =>
    rw [List.nil_append, flat, hr] at hf
    simp only [Res.bind] at hf
    split at hf
    · cases hr' : flat size w v with
      | ok l =>
        rw [hr'] at hf
        cases hf
        rw [written_append, written_place _ _ hi]
        intro p hp
        obtain ⟨E', h1, k', h2⟩ := flat_mem hr' p hp
        rw [h2]
        exact hv E' h1 k'
      | panic => rw [hr'] at hf; cases hf
      | hang => rw [hr'] at hf; cases hf
    · cases hf
  | cons E0 u ih =>
    rw [List.cons_append, flat] at hf
    cases hr0 : run E0.line with
    | ok ts0 =>
      rw [hr0] at hf
      simp only [Res.bind] at hf
      split at hf
      · cases hr' : flat size w (u ++ E :: v) with
        | ok l =>
          rw [hr'] at hf
          cases hf
          rw [← ih hr']
          apply written_last
          clear ih
          obtain ⟨p, hp, rfl⟩ := hk
          clear hr0
          induction u generalizing l with
          | nil =>
            rw [List.nil_append, flat, hr] at hr'
            simp only [Res.bind] at hr'
            split at hr'
            · cases hr2 : flat size w v with
              | ok l2 =>
                rw [hr2] at hr'
                cases hr'
                exact ⟨(E.place p.1, p.2), List.mem_append_left _ (List.mem_map.2 ⟨p, hp, rfl⟩), rfl⟩
              | panic => rw [hr2] at hr'; cases hr'
              | hang => rw [hr2] at hr'; cases hr'
            · cases hr'
          | cons E1 u ih2 =>
            rw [List.cons_append, flat] at hr'
            cases hr1 : run E1.line with
            | ok ts1 =>
              rw [hr1] at hr'
              simp only [Res.bind] at hr'
              split at hr'
              · cases hr2 : flat size w (u ++ E :: v) with
                | ok l2 =>
                  rw [hr2] at hr'
                  cases hr'
                  obtain ⟨q, hq, hqe⟩ := ih2 l2 hr2
                  exact ⟨q, List.mem_append_right _ hq, hqe⟩
                | panic => rw [hr2] at hr'; cases hr'
                | hang => rw [hr2] at hr'; cases hr'
              · cases hr'
            | panic => rw [hr1] at hr'; cases hr'
            | hang => rw [hr1] at hr'; cases hr'
        | panic => rw [hr'] at hf; cases hf
        | hang => rw [hr'] at hf; cases hf
      · cases hf
    | panic => rw [hr0] at hf; cases hf
    | hang => rw [hr0] at hf; cases hf

theorem flat_ok {es : List Entry} (h : ∀ E ∈ es, ∃ ts, run E.line = .ok ts ∧
    ∀ p ∈ ts.flatMap (w E.line E.borders), E.place p.1 < size) : ∃ ws, flat size w es = .ok ws := by
  induction es with
  | nil => exact ⟨[], rfl⟩
  | cons E es ih =>
    obtain ⟨ts, h1, h2⟩ := h E (by simp)
    obtain ⟨l, hl⟩ := ih (fun E' h' => h E' (by simp [h']))
    rw [flat, h1]
    simp only [Res.bind]
    rw [if_pos, hl]
    · exact ⟨_, rfl⟩
    · rw [List.all_eq_true]
      intro p hp
      obtain ⟨q, hq, rfl⟩ := List.mem_map.1 hp
      simpa using h2 q hq

/-! ## The winner -/

theorem step_hidden (best cand : Border) (h : best.style = .hidden) : (harmonizeStep best cand).style = .hidden := by
  unfold harmonizeStep
  by_cases hc : cand.style = .hidden <;> simp only [h, hc] <;> repeat' split
  all_goals first | assumption | simp_all

theorem step_beats (best cand : Border) (hn : (harmonizeStep best cand).style ≠ .hidden) :
    cand.style ≠ .hidden ∧ cand.width ≤ (harmonizeStep best cand).width ∧ best.width ≤ (harmonizeStep best cand).width := by
  have hb : best.style ≠ .hidden := fun h => hn (step_hidden best cand h)
  have hc : cand.style ≠ .hidden := by
    intro hc
    apply hn
    unfold harmonizeStep
    simp [hb, hc]
  refine ⟨hc, ?_⟩
  unfold harmonizeStep
  simp only [hb, hc, not_true_eq_false, and_self, false_and, not_false_eq_true, and_false, or_self, if_false, ite_self]
  repeat' split
  all_goals omega

theorem fold_beats (bs : List Border) (acc : Border) :
    (bs.foldl harmonizeStep acc).style = .hidden ∨
      (acc.width ≤ (bs.foldl harmonizeStep acc).width ∧ ∀ o ∈ bs, o.style ≠ .hidden ∧ o.width ≤ (bs.foldl harmonizeStep acc).width) := by
  induction bs generalizing acc with
  | nil => right; simp
  | cons b bs ih =>
    rw [List.foldl_cons]
    rcases ih (harmonizeStep acc b) with h | ⟨h1, h2⟩
    · exact .inl h
    · by_cases hh : (List.foldl harmonizeStep (harmonizeStep acc b) bs).style = .hidden
      · exact .inl hh
      right
      have hs : (harmonizeStep acc b).style ≠ .hidden := by
        intro hs
        apply hh
        clear ih h1 h2 hh
        generalize harmonizeStep acc b = acc' at hs
        induction bs generalizing acc' with
        | nil => exact hs
        | cons c bs ih => exact ih _ (step_hidden _ _ hs)
      obtain ⟨k1, k2, k3⟩ := step_beats acc b hs
      refine ⟨by omega, ?_⟩
      intro o ho
      rcases List.mem_cons.1 ho with rfl | ho
      · exact ⟨k1, by omega⟩
      · exact h2 o ho

theorem harmonize_beats (bs os : List Border) (h : ∀ o ∈ os, o ∈ bs) : Beats (harmonize bs) os := by
  unfold harmonize
  rcases fold_beats bs ⟨0, .none, 0⟩ with h1 | ⟨-, h1⟩
  · exact .inl h1
  · exact .inr fun o ho => h1 o (h o ho)

end Verif.Seams
