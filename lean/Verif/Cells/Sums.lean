import Verif.Cells.History
/-!
# Laying out a table: widths that fill the table
-/
namespace Verif.Cells
open Spec
open Verif.Table (Cell Grid Axis)
open Verif.Table.Spec (Rect Shows)

theorem autoWidths_last {t : Table} {st st' : Keep} {k : Option Rat} {c cb : Rat} (h : autoWidths t st k c cb = some st') : st'.last = st.last := by
  unfold autoWidths at h
  rw [Option.bind_eq_some_iff] at h
  obtain ⟨⟨mins, maxs⟩, -, h⟩ := h
  cases k with
  | none => simp only at h; split at h <;> (cases h; rfl)
  | some k =>
    simp only at h
    split at h
    · cases h; rfl
    · rw [Option.bind_eq_some_iff] at h
      obtain ⟨⟨a, b⟩, -, h⟩ := h
      simp only at h
      repeat' (split at h)
      all_goals (cases h; rfl)

/-- The widths that were computed last fill the table. -/
def Filled (t : Table) (st : Keep) : Prop :=
  ∀ cb cap k, st.last = some (cb, cap, some k) → k ≤ st.used ∧ cap ≤ st.used ∧ (0 < t.grid.w → st.colWidth.sum = st.used)

theorem widths_filled {t : Table} (hf : t.fixed = false) {st st1 : Keep} (hr : Reached t st) (ih : Filled t st) {inp : Input}
    (hm : inp.mode = .auto) (h1 : widths t st inp = some st1) :
    Filled t st1 ∧ ∀ cap, inp.capmin = some cap → st1.last = some (inp.cbX, cap, inp.knownX) := by
  unfold widths at h1
  rw [hf, hm] at h1
  simp only at h1
  rw [Option.bind_eq_some_iff] at h1
  obtain ⟨cap, hc, h1⟩ := h1
  split at h1
  · have hl := autoWidths_last h1
    have := autoWidths_fits (listed_nil t) (st := { st with last := some (inp.cbX, cap, inp.knownX) })
      (reached_kept (listed_nil t) hf hr).intrinsic h1
    refine ⟨fun cb cap' k hk => ?_, fun cap' hc' => ?_⟩
    · rw [hl] at hk
      simp only [Option.some.injEq, Prod.mk.injEq] at hk
      obtain ⟨rfl, rfl, hk⟩ := hk
      exact this.2.2.2 k hk
    · rw [hc] at hc'
      cases hc'
      exact hl
  · rename_i hl
    cases h1
    refine ⟨ih, fun cap' hc' => ?_⟩
    rw [hc] at hc'
    cases hc'
    simpa using hl

theorem reachedAuto_filled {t : Table} (hf : t.fixed = false) {st : Keep} (hr : ReachedAuto t st) : Filled t st := by
  induction hr with
  | new => intro _ _ _ h; cases h
  | next hr' hm he ih =>
    obtain ⟨-, st1, rh, h1, h2, rfl, rfl⟩ := run_some he
    have := (widths_filled hf (reachedAuto_reached hr') ih hm h1).1
    exact this

/-- The columns of a table with a width fill it. -/
theorem filled {t : Table} (hf : t.fixed = false) (hw : 0 < t.grid.w) {st st' : Keep} (hr : ReachedAuto t st) {inp : Input} {out : Out}
    (hm : inp.mode = .auto) {k : Rat} (hk : inp.knownX = some k) (he : run t st inp = some (st', out)) :
    out.cols.sum = out.width ∧ k ≤ out.width ∧ ∀ cap, inp.capmin = some cap → cap ≤ out.width := by
  have hlen := (run_fits (listed_nil t) hf (reachedAuto_reached hr) he).1.len
  obtain ⟨-, st1, rh, h1, h2, rfl, rfl⟩ := run_some he
  have hkept := (widths_kept (listed_nil t) hf (reached_kept (listed_nil t) hf (reachedAuto_reached hr)) h1).2.1.len
  obtain ⟨h3, h4⟩ := widths_filled hf (reachedAuto_reached hr) (reachedAuto_filled hf hr) hm h1
  simp only
  rw [List.take_of_length_le (by rw [hkept])]
  obtain ⟨cap, hc⟩ : ∃ cap, inp.capmin = some cap := by
    unfold widths at h1
    rw [hf, hm] at h1
    simp only at h1
    rw [Option.bind_eq_some_iff] at h1
    obtain ⟨cap, hc, -⟩ := h1
    exact ⟨cap, hc⟩
  have := h3 _ _ k (by rw [h4 cap hc, hk])
  exact ⟨this.2.2 hw, this.1, fun cap' hc' => by rw [hc] at hc'; cases hc'; exact this.2.1⟩

/-! ## The fixed algorithm -/

theorem sum_getD (c : Rat) (v : List (Option Rat)) :
    (v.map fun w => w.getD c).sum = (v.map fun w => w.getD 0).sum + (v.countP (· = none) : Nat) * c := by
  induction v with
  | nil => simp
  | cons w v ih =>
    rw [List.map_cons, List.sum_cons, ih, List.map_cons, List.sum_cons, List.countP_cons]
    cases w with
    | none => simp; ring
    | some w => simp; ring

theorem sum_spread (d s : Rat) (v : List (Option Rat)) :
    (v.map fun w => w.getD 0 + d * (w.getD 0 / s)).sum = (v.map fun w => w.getD 0).sum + d * ((v.map fun w => w.getD 0).sum / s) := by
  induction v with
  | nil => simp
  | cons w v ih =>
    rw [List.map_cons, List.sum_cons, ih, List.map_cons, List.sum_cons]
    ring

theorem fixedCols_length (t : Table) (u : Rat) : (fixedCols t u).length = t.grid.w := by
  unfold fixedCols
  have : ∀ (l : List (Axis × Option (Rat → Rat))) (v : List (Option Rat)), (l.foldl (fun v c =>
    match c.2 with
    | some f => v.mapIdx fun x w => if c.1.start ≤ x ∧ x < c.1.start + Axis.count c.1 then some (f u) else w
    | none => v) v).length = v.length := by
    intro l
    induction l with
    | nil => intro v; rfl
    | cons c l ih =>
      intro v
      rw [List.foldl_cons, ih]
      split <;> simp
  refine (this t.cols _).trans ?_
  simp

theorem fixedCells_length (t : Table) (u : Rat) (v : List (Option Rat)) : (fixedCells t u v).length = v.length := by
  unfold fixedCells
  generalize anchors t.grid = l
  induction l generalizing v with
  | nil => rfl
  | cons a l ih =>
    rw [List.foldl_cons, ih]
    split
    · rfl
    · split <;> simp

theorem columnBorder_zero {t : Table} (hb : ∀ i j, t.edges i j = (0, 0)) (j : Nat) : columnBorder t j = 0 := by
  unfold columnBorder
  generalize List.range t.grid.h = l
  induction l with
  | nil => rfl
  | cons i l ih => rw [List.foldl_cons, hb]; simpa using ih

theorem fixedSum_eq {t : Table} (hb : ∀ i j, t.edges i j = (0, 0)) (v : List (Option Rat)) : fixedSum t v = (v.map fun w => w.getD 0).sum := by
  unfold fixedSum
  congr 1
  apply List.ext_getElem?
  intro j
  rw [List.getElem?_mapIdx, List.getElem?_map]
  cases v[j]? with
  | none => rfl
  | some w =>
    cases w with
    | none => rfl
    | some w => simp [columnBorder_zero hb]

theorem fixed_filled {t : Table} (hf : t.fixed = true) (hw : 0 < t.grid.w) (hb : ∀ i j, t.edges i j = (0, 0)) {st' : Keep} {inp : Input}
    {out : Out} {k : Rat} (hk : inp.knownX = some k) (he : run t {} inp = some (st', out)) :
    k ≤ out.cols.sum + t.sx * (t.grid.w + 1) := by
  obtain ⟨-, st1, rh, h1, h2, rfl, rfl⟩ := run_some he
  simp only
  unfold widths at h1
  rw [hf, hk] at h1
  simp only at h1
  unfold fixedWidths at h1
  split at h1
  · cases h1
  · have hl : (fixedCells t k (fixedCols t k)).length = t.grid.w := by rw [fixedCells_length, fixedCols_length]
    revert hl h1
    generalize fixedCells t k (fixedCols t k) = v
    intro h1 hl
    simp only [List.nil_append, fixedSum_eq hb] at h1
    split at h1
    · rename_i hpos
      have hne : ((v.countP (· = none) : Nat) : Rat) ≠ 0 := by exact_mod_cast (by omega)
      split at h1
      · cases h1
        simp only
        rw [List.take_of_length_le (by simp [hl]), sum_getD, mul_div_cancel₀ _ hne]
        linarith
      · cases h1
        simp only
        rw [List.take_of_length_le (by simp [hl])]
        linarith
    · split at h1
      · split at h1
        · cases h1
        · rename_i hs
          cases h1
          simp only
          rw [List.take_of_length_le (by simp [hl]), sum_spread, div_self hs]
          linarith
      · rename_i hs
        cases h1
        simp only
        rw [List.take_of_length_le (by simp [hl])]
        have hv : v ≠ [] := by rintro rfl; simp at hl; omega
        have : ¬(v.map fun w => w.getD 0).sum < k - t.sx * (t.grid.w + 1) := fun h => hs ⟨h, hv⟩
        linarith

/-! ## Without a width -/

theorem preferred {t : Table} (hf : t.fixed = false) {inp : Input} {st1 st2 : Keep} {out pref : Out} {cap : Rat} (hm : inp.mode = .auto)
    (hk : inp.knownX = none) (hc : inp.capmin = some cap) (hcb : cap < inp.cbX) (he : run t {} inp = some (st1, out))
    (hp : run t {} { inp with mode := .max } = some (st2, pref)) : out.width = max pref.width cap := by
  obtain ⟨-, s1, rh, h1, h2, rfl, rfl⟩ := run_some he
  obtain ⟨-, s2, rh2, h3, h4, rfl, rfl⟩ := run_some hp
  simp only
  unfold widths at h1 h3
  rw [hf, hm, hc] at h1
  rw [hf] at h3
  simp only [Option.bind_some] at h1 h3
  rw [Option.map_eq_some_iff] at h3
  obtain ⟨⟨mins, maxs⟩, h5, rfl⟩ := h3
  have hi : ∀ l, intrinsic t { ({} : Keep) with last := l } = intrinsic t {} := fun _ => rfl
  rw [if_pos (by simp), hk] at h1
  unfold autoWidths at h1
  rw [hi, h5] at h1
  simp only [Option.bind_some] at h1
  rw [if_pos (lt_of_le_of_lt (min_le_right _ _) hcb)] at h1
  cases h1
  rfl

end Verif.Cells
