import Verif.Rows.Spec
/-!
# Where tables are broken: lemmas
-/
namespace Verif.Rows
open Verif.Paginate (Appeal Adv Between)

theorem small_free {t : Table} {i : Nat} (h : Small t i) : free t i = false := by
  obtain ⟨h1, h2, h3⟩ := h
  unfold free selfContained
  rw [Bool.or_eq_false_iff, Bool.not_eq_false']
  constructor
  · rw [List.all_eq_true]
    intro s hs
    match s with
    | none => rfl
    | some c =>
      have := h1 c hs
      simp [this]
  · rw [decide_eq_false_iff_not]
    omega

/-- The best break found so far, on a page that begins with row `s`, before row `i`. -/
def Cur (t : Table) (s i : Nat) (cur : Bp) : Prop := (i = s ∧ cur = .initial) ∨ (s < i ∧ cur = .classB i t.avoid)

theorem Cur.override {t : Table} {s i : Nat} {cur : Bp} (h : Cur t s i cur) :
    cur.override (.classB (i + 1) t.avoid) = .classB (i + 1) t.avoid := by
  rcases h with ⟨-, rfl⟩ | ⟨-, rfl⟩
  · simp only [Bp.override, Bp.initial, Bp.classB]
    cases t.avoid <;> rfl
  · simp only [Bp.override, Bp.classB]
    cases t.avoid <;> rfl

theorem unforced_done {t : Table} {out : RowOut} {s i : Nat} {cur : Bp} (hf : free t i = false) (hc : Cur t s i cur)
    (hu : out.someUndone = !out.allDone) (hd : out.allDone = true) :
    unforced t out i cur = .ok (.classB (i + 1) t.avoid, true) := by
  rw [hd] at hu
  unfold unforced
  rw [hf, hu, hd]
  simp [Res.bind, hc.override]

theorem unforced_undone {t : Table} {out : RowOut} {i : Nat} {cur : Bp} (hf : free t i = false)
    (hu : out.someUndone = !out.allDone) (hd : out.allDone = false) : unforced t out i cur = .ok (cur, false) := by
  rw [hd] at hu
  unfold unforced
  rw [hf, hu, hd]
  simp [Res.bind]

theorem rowHas_iff (f : Breaks → Bool) (r : RowInfo) : rowHas f r = true ↔ ∃ b, r.row = some b ∧ f b = true := by
  unfold rowHas
  cases r.row <;> simp

theorem groupHas_iff (f : Breaks → Bool) (r : RowInfo) : groupHas f r = true ↔ ∃ g, r.group = some g ∧ f g.2 = true := by
  unfold groupHas
  cases r.group <;> simp

open Classical in
theorem forcedAfter_eq {t : Table} {isLast : Bool} {i : Nat} {cur : Bp} (hi : isLast = false → i + 1 ≤ t.hi) :
    forcedAfter t true isLast i cur = if isLast = false ∧ Asked t i then (.forced (i + 1), false) else (cur, true) := by
  cases isLast with
  | true => simp [forcedAfter]
  | false =>
    have hi := hi rfl
    have key : (rowHas (·.after == .page) (t.row i) || (decide (i + 1 ≤ t.hi) && rowHas (·.before == .page) (t.row (i + 1))) ||
        ((decide (i + 1 ≤ t.hi) && !decide ((t.row i).group.map (·.1) = (t.row (i + 1)).group.map (·.1))) && groupHas (·.after == .page) (t.row i)) ||
        ((decide (i + 1 ≤ t.hi) && !decide ((t.row i).group.map (·.1) = (t.row (i + 1)).group.map (·.1))) && groupHas (·.before == .page) (t.row (i + 1)))) = true ↔ Asked t i := by
      simp only [Bool.or_eq_true, Bool.and_eq_true, rowHas_iff, groupHas_iff, decide_eq_true_eq, Bool.not_eq_true',
        decide_eq_false_iff_not, beq_iff_eq, hi, true_and, Asked]
      constructor
      · rintro (((h | h) | h) | h)
        · exact .inl h
        · exact .inr (.inl h)
        · exact .inr (.inr ⟨h.1, .inl h.2⟩)
        · exact .inr (.inr ⟨h.1, .inr h.2⟩)
      · rintro (h | h | ⟨h, h' | h'⟩)
        · exact .inl (.inl (.inl h))
        · exact .inl (.inl (.inr h))
        · exact .inl (.inr ⟨h, h'⟩)
        · exact .inr ⟨h, h'⟩
    simp only [forcedAfter, Bool.true_eq_false, Bool.false_eq_true, or_self, if_false, true_and]
    by_cases ha : Asked t i
    · rw [if_pos (key.2 ha), if_pos ha]
    · rw [if_neg (fun h => ha (key.1 h)), if_neg ha]

/-- What the loop over the rows comes to. -/
structure Found (t : Table) (lay : Nat → Int → RowOut) (s : Nat) (y : Int) (stop : Nat) (r : Bool × Bp) : Prop where
  whole : r.1 = true → ∀ j, s + j < stop → (lay (s + j) (place t lay s y j)).allDone = true ∧ (s + j + 1 < stop → ¬Asked t (s + j))
  part : r.1 = false → ∃ m, s + m < stop ∧ (m = 0 → r.2 = .initial ∧ (lay s y).allDone = false) ∧
    (0 < m → r.2.endIdx = s + m ∧ r.2.adv = .withoutChildren ∧
      (Asked t (s + m - 1) ∨ (lay (s + m) (place t lay s y m)).allDone = false)) ∧
    ∀ j, j < m → (lay (s + j) (place t lay s y j)).allDone = true ∧ (j + 1 < m → ¬Asked t (s + j))

theorem loop_found {t : Table} {lay : Nat → Int → RowOut} {s : Nat} {y : Int} {stop : Nat}
    (hsm : ∀ i, s ≤ i → i < stop → Small t i) (hl : ∀ i y, s ≤ i → i < stop → (lay i y).someUndone = !(lay i y).allDone)
    (hhi : stop ≤ t.hi + 1) :
    ∀ n k cur, n + (s + k) = stop → Cur t s (s + k) cur →
      (∀ j, j < k → (lay (s + j) (place t lay s y j)).allDone = true ∧ (s + j + 1 < stop → ¬Asked t (s + j))) →
      ∃ r, rowsLoop t lay stop n (s + k) (place t lay s y k) cur = .ok r ∧ Found t lay s y stop r := by
  intro n
  induction n with
  | zero =>
    intro k cur hn hc hb
    refine ⟨(true, cur), rfl, ?_, ?_⟩
    · intro _ j hj
      exact hb j (by omega)
    · intro h; cases h
  | succ n ih =>
    intro k cur hn hc hb
    have hlt : s + k < stop := by omega
    have hf := small_free (hsm (s + k) (by omega) hlt)
    have hu := hl (s + k) (place t lay s y k) (by omega) hlt
    rw [rowsLoop, if_pos hlt]
    cases hd : (lay (s + k) (place t lay s y k)).allDone with
    | false =>
      rw [unforced_undone hf hu hd]
      refine ⟨(false, cur), rfl, ?_, ?_⟩
      · intro h; cases h
      · intro _
        refine ⟨k, hlt, ?_, ?_, ?_⟩
        · rintro rfl
          rcases hc with ⟨-, h⟩ | ⟨h, -⟩
          · exact ⟨h, hd⟩
          · omega
        · intro hk
          rcases hc with ⟨h, -⟩ | ⟨-, h⟩
          · omega
          · subst h; exact ⟨rfl, rfl, .inr hd⟩
        · intro j hj
          exact ⟨(hb j hj).1, fun _ => (hb j hj).2 (by omega)⟩
    | true =>
      rw [unforced_done hf hc hu hd]
      simp only [Res.bind, Bool.true_eq_false, if_false]
      have hfa := forcedAfter_eq (t := t) (isLast := decide (s + k + 1 = stop)) (i := s + k) (cur := .classB (s + k + 1) t.avoid)
        (by intro h; have := of_decide_eq_false h; omega)
      by_cases ha : s + k + 1 ≠ stop ∧ Asked t (s + k)
      · rw [if_pos ⟨decide_eq_false ha.1, ha.2⟩] at hfa
        rw [hfa]
        refine ⟨(false, .forced (s + k + 1)), rfl, ?_, ?_⟩
        · intro h; cases h
        · intro _
          refine ⟨k + 1, by have := ha.1; omega, by omega, ?_, ?_⟩
          · intro _
            exact ⟨rfl, rfl, .inl ha.2⟩
          · intro j hj
            rcases Nat.lt_succ_iff_lt_or_eq.1 hj with h | rfl
            · exact ⟨(hb j h).1, fun _ => (hb j h).2 (by omega)⟩
            · exact ⟨hd, fun h => absurd h (by omega)⟩
      · rw [if_neg (by rw [decide_eq_false_iff_not]; exact ha)] at hfa
        rw [hfa]
        simp only [Bool.true_eq_false, if_false]
        exact ih (k + 1) _ (by omega) (.inr ⟨by omega, rfl⟩) (by
          intro j hj
          rcases Nat.lt_succ_iff_lt_or_eq.1 hj with h | rfl
          · exact hb j h
          · exact ⟨hd, fun h hask => ha ⟨by omega, hask⟩⟩)

theorem add64_eq {a b : Nat} (h : a + b < 2 ^ 64) : add64 a b = a + b := Nat.mod_eq_of_lt h

theorem sub64_eq {a b : Nat} (h : b ≤ a) : sub64 a b = a - b := if_pos h

/-- One page. -/
theorem discover_found {t : Table} {lay : Nat → Nat → Int → RowOut} {top : Int} {s : Nat} (ht : Sound t)
    (hs : first t ≤ s) (hb : s < behind t) (hsm : ∀ i, first t ≤ i → i < behind t → Small t i) (hl : Honest t lay)
    (hfit : firstY t top + (t.row s).height ≤ room t) :
    ∃ r, discover t lay top (s - first t) = .ok r ∧ startAt t (s - first t) = s ∧
      (r.1 = true → (shown t (s - first t) none).rows = List.range' s (behind t - s) ∧
        ∀ j, s + j + 1 < behind t → ¬Asked t (s + j)) ∧
      (r.1 = false → ∃ m, 0 < m ∧ s + m < behind t ∧ nextStart r.2 = s + m - first t ∧
        (shown t (s - first t) (some r.2.endIdx)).rows = List.range' s m ∧
        (Asked t (s + m - 1) ∨ (lay s (s + m) (place t (lay s) s (firstY t top) m)).allDone = false) ∧
        ∀ j, j + 1 < m → ¬Asked t (s + j)) := by
  have hfew := ht.few
  have hst : startAt t (s - first t) = s := by
    unfold startAt
    cases hr : t.repeats with
    | false => simp [first, hr]
    | true =>
      have h1 : first t = t.lo := by simp [first, hr]
      have h2 : behind t = t.hi + 1 := by simp [behind, hr]
      rw [if_pos rfl, h1]
      rw [h1] at hs
      rw [h2] at hb
      rw [add64_eq (by omega), Nat.sub_add_cancel hs]
  have hstop : stopAll t = behind t := rfl
  have hhi : behind t ≤ t.hi + 1 := by
    unfold behind
    cases hr : t.repeats with
    | false => rw [if_neg (by simp)]; have := ht.foot hr; omega
    | true => simp
  obtain ⟨r, hr, hfound⟩ := loop_found (t := t) (lay := lay s) (s := s) (y := firstY t top) (stop := behind t)
    (fun i h1 h2 => hsm i (by omega) h2) (fun i y h1 h2 => (hl s i y (by omega) h2).1) hhi (behind t - s) 0 .initial (by omega)
    (.inl ⟨rfl, rfl⟩) (fun j hj => absurd hj (Nat.not_lt_zero _))
  refine ⟨_, by rw [discover, hst, hstop]; simp only [Nat.add_zero, place] at hr; rw [hr]; rfl, hst, ?_, ?_⟩
  · intro h
    refine ⟨?_, fun j hj => (hfound.whole h j (by omega)).2 hj⟩
    simp only [shown, hst]
    congr 1
    unfold stopAt behind
    cases hrep : t.repeats with
    | false => simp
    | true =>
      have h1 : first t = t.lo := by simp [first, hrep]
      have h2 : behind t = t.hi + 1 := by simp [behind, hrep]
      simp only [if_true, Option.getD_none]
      rw [add64_eq (by omega)]
      omega
  · intro h
    obtain ⟨m, hm, hz, hpos, hall⟩ := hfound.part h
    have hm0 : 0 < m := by
      apply Nat.pos_of_ne_zero
      intro h0
      have := (hz h0).2
      rw [(hl s s _ hs hb).2 hfit] at this
      cases this
    obtain ⟨he, hadv, hwhy⟩ := hpos hm0
    refine ⟨m, hm0, hm, ?_, ?_, hwhy, fun j hj => (hall j (by omega)).2 hj⟩
    · unfold nextStart
      cases hrep : t.repeats with
      | false => simp [hadv, he, first, hrep]
      | true =>
        have h1 : first t = t.lo := by simp [first, hrep]
        simp only [if_true, hadv, he, h1]
        rw [if_neg (by decide)]
        rw [sub64_eq (by omega)]
    · simp only [shown, hst]
      congr 1
      unfold stopAt
      cases hrep : t.repeats with
      | false => simp [he]
      | true =>
        have h1 : first t = t.lo := by simp [first, hrep]
        simp only [if_true, Option.getD_some, he]
        rw [sub64_eq (by omega), add64_eq (by omega)]
        omega

end Verif.Rows
