import Verif.Cells.Widths
import Verif.Cells.Places
/-!
# Laying out a table: all of it
-/
namespace Verif.Cells
open Spec
open Verif.Table (Cell Grid Axis)
open Verif.Table.Spec (Rect Shows)

/-- The positions of rows a layout begins with. -/
def begin' (t : Table) (st : Keep) : List Rat := if st.starts = [] then List.replicate t.grid.h 0 else st.starts

/-- What the rows make. -/
def body (t : Table) (st : Keep) (rh : List Rat) (inp : Input) : List Placed × Rat × List Rat :=
  if repeats t rh inp.page then
    let start := inp.start + t.heads
    let stop := t.heads + inp.stop.getD (t.grid.h - t.feet - t.heads)
    let a := layoutHeaderFooterRows t st.colWidth rh inp.x 0 t.heads (inp.y + t.sy) (begin' t st)
    let b := layoutRows t st.colWidth rh inp.x start stop a.2.1 a.2.2
    let c := layoutHeaderFooterRows t st.colWidth rh inp.x (t.grid.h - t.feet) t.feet b.2.1 b.2.2
    (a.1 ++ b.1 ++ c.1, c.2)
  else
    layoutRows t st.colWidth rh inp.x inp.start (inp.stop.getD t.grid.h) (inp.y + t.sy) (begin' t st)

theorem run_eq (t : Table) (st : Keep) (inp : Input) :
    run t st inp = if hasZero t then none else
      (widths t st inp).bind fun st => (heights t st inp.knownY).bind fun q =>
        some ({ q.1 with starts := (body t q.1 q.2 inp).2.2 },
          { cells := (body t q.1 q.2 inp).1, width := q.1.used, height := (body t q.1 q.2 inp).2.1 - inp.y,
            cols := q.1.colWidth.take t.grid.w, rows := q.2 }) := by
  unfold run body begin'
  split
  · rfl
  · congr 1

theorem heights_some {t : Table} {st st2 : Keep} {k : Option Rat} {rh : List Rat} (h : heights t st k = some (st2, rh)) :
    st2 = { st with autoRows := st.autoRows + autoCount t } ∧ Le (rowHeights t st) rh := by
  unfold heights at h
  simp only at h
  cases k with
  | none => cases h; exact ⟨rfl, Le.refl _⟩
  | some k =>
    simp only at h
    split at h
    · rename_i hk
      split at h
      · cases h
        refine ⟨rfl, by simp [growAuto], fun j => ?_⟩
        unfold entry growAuto
        rw [List.getElem?_mapIdx]
        cases hj : (rowHeights t st)[j]? with
        | none => exact le_refl _
        | some w =>
          simp only [Option.map_some, Option.getD_some]
          split
          · have : 0 ≤ (k - ((rowHeights t st).sum + t.sy * (t.grid.h + 1))) / ((st.autoRows + autoCount t : Nat) : Rat) :=
              div_nonneg (by linarith) (Nat.cast_nonneg _)
            linarith
          · exact le_refl _
      · split at h
        · cases h
        · cases h
          refine ⟨rfl, by simp, fun j => ?_⟩
          by_cases hj : j < (rowHeights t st).length
          · rw [entry_map hj]
            have : 0 ≤ (k - ((rowHeights t st).sum + t.sy * (t.grid.h + 1))) / (t.rows.length : Rat) :=
              div_nonneg (by linarith) (Nat.cast_nonneg _)
            linarith
          · rw [entry_out (by omega), entry_out (by simp; omega)]
    · cases h; exact ⟨rfl, Le.refl _⟩

/-- What a layout is made of. -/
theorem run_some {t : Table} {st st' : Keep} {inp : Input} {out : Out} (h : run t st inp = some (st', out)) :
    hasZero t = false ∧ ∃ st1 rh, widths t st inp = some st1 ∧
      heights t st1 inp.knownY = some ({ st1 with autoRows := st1.autoRows + autoCount t }, rh) ∧
      st' = { st1 with autoRows := st1.autoRows + autoCount t, starts := (body t st1 rh inp).2.2 } ∧
      out = { cells := (body t st1 rh inp).1, width := st1.used, height := (body t st1 rh inp).2.1 - inp.y,
              cols := st1.colWidth.take t.grid.w, rows := rh } := by
  rw [run_eq] at h
  split at h
  · cases h
  · rename_i hz
    refine ⟨by simpa using hz, ?_⟩
    rw [Option.bind_eq_some_iff] at h
    obtain ⟨st1, h1, h⟩ := h
    rw [Option.bind_eq_some_iff] at h
    obtain ⟨⟨st2, rh⟩, h2, h⟩ := h
    obtain ⟨e, -⟩ := heights_some h2
    subst e
    simp only [Option.some.injEq, Prod.mk.injEq] at h
    exact ⟨st1, rh, h1, h2, h.1.symm, h.2.symm⟩

/-! ## The columns, whatever has been laid out before -/

/-- What the automatic algorithm keeps. -/
structure Kept (t : Table) (rs : List Rect) (st : Keep) : Prop where
  intrinsic : ∀ p, st.intrinsic = some p → Fits t rs p.1 ∧ Fits t rs p.2
  widths : st.last ≠ none → Fits t rs st.colWidth ∧ st.colWidth.sum ≤ st.used

theorem widths_kept {t : Table} {rs : List Rect} (h : Listed t rs) (hf : t.fixed = false) {st st' : Keep} {inp : Input}
    (hk : Kept t rs st) (he : widths t st inp = some st') :
    Kept t rs st' ∧ Fits t rs st'.colWidth ∧ st'.colWidth.sum ≤ st'.used := by
  have hin : ∀ p, intrinsic t st = some p → Fits t rs p.1 ∧ Fits t rs p.2 := by
    intro p hp
    unfold intrinsic at hp
    split at hp
    · rename_i q hq
      cases hp
      exact hk.intrinsic _ hq
    · exact minMax_fits h hp
  unfold widths at he
  rw [hf] at he
  simp only at he
  cases hm : inp.mode with
  | auto =>
    rw [hm] at he
    simp only at he
    rw [Option.bind_eq_some_iff] at he
    obtain ⟨cap, hcap, he⟩ := he
    split at he
    · obtain ⟨h1, h2, h3, -⟩ := autoWidths_fits (st := { st with last := some (inp.cbX, cap, inp.knownX) }) h hk.intrinsic he
      exact ⟨⟨h2, fun _ => ⟨h1, h3⟩⟩, h1, h3⟩
    · rename_i hl
      have hl : st.last = some (inp.cbX, cap, inp.knownX) := by simpa using hl
      cases he
      have := hk.widths (by rw [hl]; simp)
      exact ⟨hk, this.1, this.2⟩
  | min =>
    rw [hm] at he
    simp only [Option.map_eq_some_iff] at he
    obtain ⟨p, hp, rfl⟩ := he
    have := hin p hp
    exact ⟨⟨fun q hq => by cases hq; exact this, fun _ => ⟨this.1, le_refl _⟩⟩, this.1, le_refl _⟩
  | max =>
    rw [hm] at he
    simp only [Option.map_eq_some_iff] at he
    obtain ⟨p, hp, rfl⟩ := he
    have := hin p hp
    exact ⟨⟨fun q hq => by cases hq; exact this, fun _ => ⟨this.2, le_refl _⟩⟩, this.2, le_refl _⟩

theorem reached_kept {t : Table} {rs : List Rect} (h : Listed t rs) (hf : t.fixed = false) {st : Keep} (hr : Reached t st) : Kept t rs st := by
  induction hr with
  | new => exact ⟨fun p hp => (by cases hp), fun hl => absurd rfl hl⟩
  | next _ he ih =>
    obtain ⟨-, st1, rh, h1, h2, rfl, rfl⟩ := run_some he
    have := (widths_kept h hf ih h1).1
    exact ⟨this.intrinsic, this.widths⟩

/-- The widths of the columns of a table with the automatic algorithm. -/
theorem run_fits {t : Table} {rs : List Rect} (h : Listed t rs) (hf : t.fixed = false) {st st' : Keep} {inp : Input} {out : Out}
    (hr : Reached t st) (he : run t st inp = some (st', out)) : Fits t rs out.cols ∧ out.cols.sum ≤ out.width := by
  obtain ⟨-, st1, rh, h1, h2, rfl, rfl⟩ := run_some he
  have := (widths_kept h hf (reached_kept h hf hr) h1).2
  simp only
  rw [List.take_of_length_le (by rw [this.1.len])]
  exact this

/-! ## The positions of the rows -/

theorem rowsLoop_length (t : Table) (cw rh : List Rat) (x : Rat) (adv : Nat → Rat → Rat) (all : Nat → Bool) (is : List Nat) (y : Rat)
    (s : List Rat) : (rowsLoop t cw rh x adv all is y s).2.2.length = s.length := by
  induction is generalizing y s with
  | nil => rfl
  | cons i is ih => rw [rowsLoop]; simp only; rw [ih, List.length_set]

theorem body_length (t : Table) (st : Keep) (rh : List Rat) (inp : Input) (hl : (begin' t st).length = t.grid.h) :
    (body t st rh inp).2.2.length = t.grid.h := by
  unfold body
  split
  · simp only [layoutHeaderFooterRows, layoutRows, rowsLoop_length, hl]
  · simp only [layoutRows, rowsLoop_length, hl]

theorem begin_length {t : Table} {st : Keep} (h : st.starts = [] ∨ st.starts.length = t.grid.h) : (begin' t st).length = t.grid.h := by
  unfold begin'
  split
  · simp
  · rcases h with h | h
    · exact absurd h ‹_›
    · exact h

theorem widths_starts {t : Table} {st st' : Keep} {inp : Input} (he : widths t st inp = some st') :
    st'.starts = st.starts ∧ st'.autoRows = st.autoRows := by
  have auto : ∀ (st st' : Keep) (k : Option Rat) (c cb : Rat), autoWidths t st k c cb = some st' →
      st'.starts = st.starts ∧ st'.autoRows = st.autoRows := by
    intro st st' k c cb h
    unfold autoWidths at h
    rw [Option.bind_eq_some_iff] at h
    obtain ⟨⟨mins, maxs⟩, -, h⟩ := h
    cases k with
    | none => simp only at h; split at h <;> (cases h; exact ⟨rfl, rfl⟩)
    | some k =>
      simp only at h
      split at h
      · cases h; exact ⟨rfl, rfl⟩
      · rw [Option.bind_eq_some_iff] at h
        obtain ⟨⟨a, b⟩, -, h⟩ := h
        simp only at h
        repeat' (split at h)
        all_goals (cases h; exact ⟨rfl, rfl⟩)
  unfold widths at he
  split at he
  · unfold fixedWidths at he
    split at he
    · cases he
    · simp only at he
      split at he
      · split at he <;> (cases he; exact ⟨rfl, rfl⟩)
      · split at he
        · split at he
          · cases he
          · cases he; exact ⟨rfl, rfl⟩
        · cases he; exact ⟨rfl, rfl⟩
  · split at he
    · rw [Option.bind_eq_some_iff] at he
      obtain ⟨cap, -, he⟩ := he
      split at he
      · exact auto { st with last := some (inp.cbX, cap, inp.knownX) } _ _ _ _ he
      · cases he; exact ⟨rfl, rfl⟩
    · rw [Option.map_eq_some_iff] at he
      obtain ⟨p, -, rfl⟩ := he
      exact ⟨rfl, rfl⟩
    · rw [Option.map_eq_some_iff] at he
      obtain ⟨p, -, rfl⟩ := he
      exact ⟨rfl, rfl⟩

theorem reached_starts {t : Table} {st : Keep} (hr : Reached t st) : st.starts = [] ∨ st.starts.length = t.grid.h := by
  induction hr with
  | new => exact Or.inl rfl
  | next _ he ih =>
    obtain ⟨-, st1, rh, h1, h2, rfl, rfl⟩ := run_some he
    right
    apply body_length
    apply begin_length
    rw [(widths_starts h1).1]
    exact ih

/-! ## A whole table -/

/-- Everything about the rows of a table in one piece. -/
theorem whole_band {t : Table} {rs : List Rect} (h : Cells t rs) (hsy : 0 ≤ t.sy) {st st' : Keep} {inp : Input} {out : Out}
    (hw : Whole inp) (hr : Reached t st) (he : run t st inp = some (st', out)) :
    ∃ s : List Rat, out.cells = (List.range' 0 t.grid.h).flatMap (fun i => layRow t out.cols out.rows s inp.x i (decide (i + 1 = t.grid.h))) ∧
      Band t rs out.cols out.rows inp.x 0 t.grid.h (inp.y + t.sy) (inp.y + out.height) s out.cells ∧
      ∃ P : Nat → Rat, P 0 = inp.y + t.sy ∧ P t.grid.h = inp.y + out.height ∧ ∀ k, k < t.grid.h → entry s k = P k ∧
        P (k + 1) = P k + (sizeY (P k) (layRow t out.cols out.rows s inp.x k (decide (k + 1 = t.grid.h))) + t.sy) := by
  have hst := reached_starts hr
  obtain ⟨-, st1, rh, h1, h2, rfl, rfl⟩ := run_some he
  rw [← (widths_starts h1).1] at hst
  have hl := begin_length hst
  have hcut : Uncut rs 0 t.grid.h := fun r hr => ⟨Or.inr (Nat.zero_le _), Or.inl (rect_inside h hr).2⟩
  obtain ⟨cells, y', s', e, -, -, hc, hb, P, hP0, hPn, hP⟩ := layoutRows_band h hsy (st1.colWidth.take t.grid.w) rh inp.x (Nat.zero_le _) (Nat.le_refl _) hcut (inp.y + t.sy) _ hl
  have htake : ∀ s y, layoutRows t st1.colWidth rh inp.x 0 t.grid.h y s = layoutRows t (st1.colWidth.take t.grid.w) rh inp.x 0 t.grid.h y s := by
    intro s y
    unfold layoutRows
    have hin : ∀ i ∈ List.range' 0 (t.grid.h - 0), i < t.grid.h := by intro i hi; rw [List.mem_range'_1] at hi; omega
    revert hin
    generalize List.range' 0 (t.grid.h - 0) = is
    intro hin
    induction is generalizing s y with
    | nil => rfl
    | cons i is ih =>
      rw [rowsLoop, rowsLoop]
      have hrow : layRow t st1.colWidth rh (s.set i y) inp.x i (decide (i + 1 = t.grid.h)) =
          layRow t (st1.colWidth.take t.grid.w) rh (s.set i y) inp.x i (decide (i + 1 = t.grid.h)) := by
        unfold layRow
        apply List.filterMap_congr
        intro j hj
        rw [List.mem_range] at hj
        rcases h.shows.slots j i hj (hin i (List.mem_cons_self ..)) with ⟨hn, -⟩ | ⟨r, hr, hc, hsl⟩
        · simp [hn]
        · rw [hsl]
          simp only
          by_cases hx : r.x = j
          · subst hx
            have hx1 : ∀ k, k < r.x + r.cell.colSpan → entry (st1.colWidth.take t.grid.w) k = entry st1.colWidth k := by
              intro k hk
              exact entry_take _ _ _ (by have := (rect_inside h hr).1; omega)
            have : layCell t st1.colWidth rh (s.set i y) (inp.x + t.sx + ((List.range r.x).map fun k => at' st1.colWidth k + t.sx).sum) r.x r.y r.cell =
                layCell t (st1.colWidth.take t.grid.w) rh (s.set i y) (inp.x + t.sx + ((List.range r.x).map fun k => at' (st1.colWidth.take t.grid.w) k + t.sx).sum) r.x r.y r.cell := by
              rw [layCell_eq, layCell_eq]
              unfold boxOf colX
              have hcs := h.cols r hr
              rw [total_congr (f := fun k => entry (st1.colWidth.take t.grid.w) k + t.sx) (g := fun k => entry st1.colWidth k + t.sx)
                  (fun k _ hk => by rw [hx1 k (by omega)]),
                total_congr (f := entry (st1.colWidth.take t.grid.w)) (g := entry st1.colWidth) (fun k _ hk => hx1 k hk)]
            rw [this]
          · simp [hx]
      rw [hrow, ih _ _ (fun i hi => hin i (List.mem_cons_of_mem _ hi))]
  have hbody : body t st1 rh inp = (cells, y', s') := by
    unfold body repeats
    rw [hw.1, hw.2.1, hw.2.2]
    simp only [Bool.false_eq_true, if_false, Option.getD_none]
    rw [htake, e]
  rw [Nat.sub_zero] at hc hb hPn hP
  have hy : inp.y + (y' - inp.y) = y' := by ring
  refine ⟨s', ?_, ?_, P, hP0, ?_, fun k hk => ?_⟩
  · simp only
    rw [hbody]
    exact hc
  · simp only
    rw [hbody]
    simp only
    rw [hy]
    exact hb
  · simp only
    rw [hbody]
    simp only
    rw [hy]
    exact hPn
  · have := hP k hk
    rw [Nat.zero_add] at this
    exact this

end Verif.Cells
