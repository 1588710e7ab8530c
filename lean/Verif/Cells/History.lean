import Verif.Cells.Whole
/-!
# Laying out a table: what does not depend on what has been laid out before
-/
namespace Verif.Cells
open Spec
open Verif.Table (Cell Grid Axis)
open Verif.Table.Spec (Rect Shows)

theorem cellWidth_used {t : Table} (hp : NoPercent t) (content : CellBox → Rat) (u tw : Rat) :
    cellWidth t content u tw = cellWidth t content 0 tw := by
  funext a
  unfold cellWidth
  simp only
  rw [hp _ u 0]

theorem minMax_used {t : Table} (hp : NoPercent t) (u tw : Rat) : minMax t u tw = minMax t 0 tw := by
  unfold minMax
  rw [cellWidth_used hp CellBox.minContent u tw, cellWidth_used hp CellBox.maxContent u tw]

theorem intrinsic_eq {t : Table} (hp : NoPercent t) {st : Keep} (hi : st.intrinsic = none ∨ st.intrinsic = minMax t 0 0) :
    intrinsic t st = minMax t 0 0 := by
  unfold intrinsic
  split
  · rename_i p hpp
    rcases hi with hi | hi
    · rw [hi] at hpp; cases hpp
    · rw [← hi, hpp]
  · exact minMax_used hp _ _

/-- The widths do not depend on what was kept. -/
theorem autoWidths_eq {t : Table} (hp : NoPercent t) {st : Keep} (hi : st.intrinsic = none ∨ st.intrinsic = minMax t 0 0) (k : Option Rat)
    (cap cb : Rat) : autoWidths t st k cap cb = (autoWidths t {} k cap cb).map fun s =>
      { st with intrinsic := s.intrinsic, used := s.used, colWidth := s.colWidth } := by
  unfold autoWidths
  rw [intrinsic_eq hp hi, intrinsic_eq hp (st := {}) (Or.inl rfl)]
  cases minMax t 0 0 with
  | none => rfl
  | some p =>
    obtain ⟨mins, maxs⟩ := p
    simp only [Option.bind_some]
    cases k with
    | none => simp only; split <;> rfl
    | some k =>
      simp only
      split
      · rfl
      · cases minMax t (max cap k) k with
        | none => rfl
        | some q =>
          obtain ⟨a, b⟩ := q
          simp only [Option.bind_some]
          repeat' split
          all_goals rfl

theorem autoWidths_intrinsic {t : Table} (hp : NoPercent t) {k : Option Rat} {cap cb : Rat} {s : Keep} (h : autoWidths t {} k cap cb = some s) :
    s.intrinsic = minMax t 0 0 := by
  unfold autoWidths at h
  rw [intrinsic_eq hp (st := {}) (Or.inl rfl), Option.bind_eq_some_iff] at h
  obtain ⟨⟨mins, maxs⟩, h1, h⟩ := h
  rw [h1]
  cases k with
  | none => simp only at h; split at h <;> (cases h; rfl)
  | some k =>
    simp only at h
    split at h
    · cases h; rfl
    · rw [Option.bind_eq_some_iff] at h
      obtain ⟨⟨a, b⟩, -, h⟩ := h
      simp only at h
      repeat' (split at h)
      all_goals (cases h; rfl)

/-- What layouts that do not measure keep. -/
structure Same (t : Table) (st : Keep) : Prop where
  intrinsic : st.intrinsic = none ∨ st.intrinsic = minMax t 0 0
  widths : ∀ cb cap k, st.last = some (cb, cap, k) → ∃ s, autoWidths t {} k cap cb = some s ∧ st.colWidth = s.colWidth ∧ st.used = s.used

/-- The widths of the columns are those of the first layout. -/
theorem widths_same {t : Table} (hf : t.fixed = false) (hp : NoPercent t) {st : Keep} (hs : Same t st) {inp : Input} (hm : inp.mode = .auto) :
    ((widths t st inp = none ∧ widths t {} inp = none) ∨
      ∃ a b, widths t st inp = some a ∧ widths t {} inp = some b ∧ a.colWidth = b.colWidth ∧ a.used = b.used ∧ Same t a) := by
  unfold widths
  rw [hf, hm]
  simp only
  cases hc : inp.capmin with
  | none => left; exact ⟨rfl, rfl⟩
  | some cap =>
    simp only [Option.bind_some]
    have fresh : (if ({} : Keep).last ≠ some (inp.cbX, cap, inp.knownX) then
        autoWidths t { ({} : Keep) with last := some (inp.cbX, cap, inp.knownX) } inp.knownX cap inp.cbX else some {}) =
        autoWidths t { ({} : Keep) with last := some (inp.cbX, cap, inp.knownX) } inp.knownX cap inp.cbX := by
      rw [if_pos]; simp
    rw [fresh, autoWidths_eq hp (st := { ({} : Keep) with last := some (inp.cbX, cap, inp.knownX) }) (Or.inl rfl)]
    by_cases hl : st.last = some (inp.cbX, cap, inp.knownX)
    · rw [if_neg (by simpa using hl)]
      obtain ⟨s, h1, h2, h3⟩ := hs.widths _ _ _ hl
      right
      rw [h1]
      exact ⟨st, _, rfl, rfl, h2, h3, hs⟩
    · rw [if_pos hl, autoWidths_eq hp (st := { st with last := some (inp.cbX, cap, inp.knownX) }) hs.intrinsic]
      cases he : autoWidths t {} inp.knownX cap inp.cbX with
      | none => left; exact ⟨rfl, rfl⟩
      | some s =>
        right
        refine ⟨_, _, rfl, rfl, rfl, rfl, ?_, ?_⟩
        · right; exact autoWidths_intrinsic (s := s) hp he
        · intro cb cap' k hk
          simp only [Option.some.injEq, Prod.mk.injEq] at hk
          obtain ⟨rfl, rfl, rfl⟩ := hk
          exact ⟨s, he, rfl, rfl⟩

theorem reachedAuto_same {t : Table} (hf : t.fixed = false) (hp : NoPercent t) {st : Keep} (hr : ReachedAuto t st) : Same t st := by
  induction hr with
  | new => exact ⟨Or.inl rfl, fun _ _ _ h => by cases h⟩
  | next _ hm he ih =>
    obtain ⟨-, st1, rh, h1, h2, rfl, rfl⟩ := run_some he
    rcases widths_same hf hp ih hm with ⟨hn, -⟩ | ⟨a, b, ha, -, -, -, hs⟩
    · rw [hn] at h1; cases h1
    · rw [ha] at h1
      cases h1
      exact ⟨hs.intrinsic, hs.widths⟩

theorem reachedAuto_reached {t : Table} {st : Keep} (hr : ReachedAuto t st) : Reached t st := by
  induction hr with
  | new => exact .new
  | next _ _ he ih => exact .next ih he

/-- Rows that are all laid out do not depend on where they were before. -/
theorem rowsLoop_indep {t : Table} {rs : List Rect} (h : Cells t rs) (cw rh : List Rat) (x : Rat) (adv : Nat → Rat → Rat) (all : Nat → Bool)
    (n a : Nat) (y : Rat) (s s' : List Rat) (hs : s.length = t.grid.h) (hs' : s'.length = t.grid.h) (han : a + n ≤ t.grid.h)
    (he : ∀ j, j < a → entry s j = entry s' j) :
    (rowsLoop t cw rh x adv all (List.range' a n) y s).1 = (rowsLoop t cw rh x adv all (List.range' a n) y s').1 ∧
      (rowsLoop t cw rh x adv all (List.range' a n) y s).2.1 = (rowsLoop t cw rh x adv all (List.range' a n) y s').2.1 := by
  induction n generalizing a y s s' with
  | zero => exact ⟨rfl, rfl⟩
  | succ n ih =>
    rw [List.range'_succ, rowsLoop, rowsLoop]
    have hsame : ∀ k, k ≤ a → entry (s.set a y) k = entry (s'.set a y) k := by
      intro k hk
      rw [entry_set _ _ _ _ (by omega), entry_set _ _ _ _ (by omega)]
      split
      · rfl
      · exact he k (by omega)
    rw [layRow_congr h cw rh x (by omega : a < t.grid.h) (all a) hsame]
    obtain ⟨h1, h2⟩ := ih (a + 1) (y + adv a (sizeY y (layRow t cw rh (s'.set a y) x a (all a)))) (s.set a y) (s'.set a y)
      (by rw [List.length_set, hs]) (by rw [List.length_set, hs']) (by omega) (fun j hj => hsame j (by omega))
    exact ⟨by simp only; rw [h1], h2⟩

theorem rowHeights_keep (t : Table) {a b : Keep} (h1 : a.colWidth = b.colWidth) (h2 : a.used = b.used) : rowHeights t a = rowHeights t b := by
  have : cellHeights t a = cellHeights t b := by
    funext v x
    unfold cellHeights
    rw [h1, h2]
  unfold rowHeights
  rw [this]

/-- A table that is laid out again comes out as the first time. -/
theorem run_same {t : Table} {rs : List Rect} (h : Cells t rs) (hf : t.fixed = false) (hp : NoPercent t) {st : Keep} (hr : ReachedAuto t st)
    {inp : Input} (hm : inp.mode = .auto) (hw : Whole inp) (hk : inp.knownY = none) :
    (run t st inp).map (·.2) = (run t {} inp).map (·.2) := by
  rw [run_eq, run_eq]
  split
  · rfl
  · rcases widths_same hf hp (reachedAuto_same hf hp hr) hm with ⟨h1, h2⟩ | ⟨a, b, ha, hb, hc, hu, -⟩
    · rw [h1, h2]
    · rw [ha, hb, hk]
      have hst := reached_starts (reachedAuto_reached hr)
      rw [← (widths_starts ha).1] at hst
      have hla := begin_length hst
      have hlb : (begin' t b).length = t.grid.h := begin_length (Or.inl (widths_starts hb).1)
      simp only [Option.bind_some, heights, Option.map_some]
      rw [rowHeights_keep t hc hu]
      generalize rowHeights t b = rh
      have hbody : ∀ s : Keep, body t s rh inp =
          rowsLoop t s.colWidth rh inp.x (fun _ size => size + t.sy) (fun i => decide (i + 1 = t.grid.h)) (List.range' 0 (t.grid.h - 0)) (inp.y + t.sy) (begin' t s) := by
        intro s
        unfold body repeats
        rw [hw.1, hw.2.1, hw.2.2]
        rfl
      obtain ⟨e1, e2⟩ := rowsLoop_indep h b.colWidth rh inp.x (fun _ size => size + t.sy) (fun i => decide (i + 1 = t.grid.h)) (t.grid.h - 0) 0
        (inp.y + t.sy) (begin' t a) (begin' t b) hla hlb (by omega) (fun j hj => absurd hj (by omega))
      rw [hbody, hbody]
      have ba : begin' t { a with autoRows := a.autoRows + autoCount t } = begin' t a := rfl
      have bb : begin' t { b with autoRows := b.autoRows + autoCount t } = begin' t b := rfl
      rw [ba, bb]
      rw [hc, hu, e1, e2]

end Verif.Cells
