import Verif.Cells.Vec
/-!
# Laying out a table: the columns have room for their cells
-/
namespace Verif.Cells
open Spec
open Verif.Table (Cell Grid Axis)
open Verif.Table.Spec (Rect Shows)

/-- A width for every column, none negative, with room for every cell. -/
structure Fits (t : Table) (rs : List Rect) (v : List Rat) : Prop where
  len : v.length = t.grid.w
  nonneg : ∀ j, 0 ≤ entry v j
  room : ∀ r ∈ rs, ∀ q, Asks t r q → q ≤ total (entry v) r.x r.cell.colSpan

theorem Fits.mono {t : Table} {rs : List Rect} {v w : List Rat} (h : Fits t rs v) (hl : Le v w) : Fits t rs w :=
  ⟨hl.1.symm.trans h.len, fun j => le_trans (h.nonneg j) (hl.2 j), fun r hr q hq => le_trans (h.room r hr q hq) (hl.total _ _)⟩

/-- Cells of the table whose paddings are lengths. -/
structure Listed (t : Table) (rs : List Rect) : Prop where
  anchor : ∀ r ∈ rs, (r.y, r.x, r.cell) ∈ anchors t.grid
  inside : ∀ r ∈ rs, r.x + r.cell.colSpan ≤ t.grid.w
  cols : ∀ r ∈ rs, 1 ≤ r.cell.colSpan
  content : ∀ r ∈ rs, (t.box r.cell.id).minContent ≤ (t.box r.cell.id).maxContent
  padding : ∀ r ∈ rs, ∀ a b, (t.box r.cell.id).padding a = (t.box r.cell.id).padding b

theorem listed {t : Table} {rs : List Rect} (h : Cells t rs) (hs : Sane t) (hp : NoPercent t) : Listed t rs :=
  ⟨fun r hr => (anchor_iff h).2 ⟨r, hr, rfl⟩, fun r hr => (rect_inside h hr).1, h.cols, fun r _ => hs.content _, fun r _ => hp _⟩

theorem listed_nil (t : Table) : Listed t [] := ⟨by simp, by simp, by simp, by simp, by simp⟩

theorem need_le {t : Table} {rs : List Rect} (h : Listed t rs) {content : CellBox → Rat} {r : Rect} (hr : r ∈ rs)
    (hc : (t.box r.cell.id).minContent ≤ content (t.box r.cell.id)) (used tw : Rat) {q : Rat} (hq : Asks t r q) :
    q ≤ cellWidth t content used tw (r.y, r.x, r.cell) := by
  have h1 := hc
  have h2 := h.padding r hr 0 used
  have : need t r ≤ content (t.box r.cell.id) + (t.box r.cell.id).padding used + cellEdges t r.y r.x r.cell := by
    unfold need cellEdges; linarith
  unfold cellWidth
  simp only
  rcases hq with rfl | ⟨f, hf, hq⟩
  · split
    · exact le_trans this (le_max_left _ _)
    · exact this
  · rw [hf, ← hq tw]
    exact le_max_right _ _

/-! ## Each step only makes columns wider -/

theorem span1_le (need : Nat × Nat × Cell → Rat) (as : List (Nat × Nat × Cell)) (v : List Rat) : Le v (span1 need as v) :=
  Le.foldl (fun v a => by
    split
    · exact Le.refl _
    · exact Le.change (fun w => le_max_left _ _) _ _ _) _ _

theorem spanN_le (need : Nat × Nat × Cell → Rat) (as : List (Nat × Nat × Cell)) (v : List Rat) : Le v (spanN need as v) :=
  Le.foldl (fun v a => by
    split
    · exact Le.refl _
    · simp only
      split
      · rename_i h
        refine Le.change (fun w => ?_) _ _ _
        have : 0 ≤ (need a - spanSum v a.2.1 a.2.2.colSpan) / (a.2.2.colSpan : Rat) :=
          div_nonneg (by linarith) (Nat.cast_nonneg _)
        linarith
      · exact Le.refl _) _ _

theorem ofCols_le (cols : List (Axis × Option (Rat → Rat))) (tw : Rat) (v : List Rat) : Le v (ofCols cols tw v) :=
  Le.foldl (fun v a => by
    split
    · exact Le.change (fun w => le_max_left _ _) _ _ _
    · exact Le.refl _) _ _

theorem ofGroups_le {tw : Rat} {gs : List (Axis × Option (Rat → Rat))} {v w : List Rat} (h : ofGroups tw gs v = some w) : Le v w := by
  induction gs generalizing v with
  | nil => cases h; exact Le.refl _
  | cons g gs ih =>
    obtain ⟨a, o⟩ := g
    cases o with
    | none => exact ih h
    | some f =>
      rw [ofGroups] at h
      split at h
      · exact ih h
      · rename_i hlt
        split at h
        · cases h
        · refine (Le.change (fun w => ?_) _ _ _).trans (ih h)
          have : 0 ≤ (f tw - spanSum v a.start (Axis.count a)) / (Axis.count a : Rat) :=
            div_nonneg (by linarith) (Nat.cast_nonneg _)
          linarith

/-! ## What the steps are for -/

theorem span1_room {nd : Nat × Nat × Cell → Rat} {as : List (Nat × Nat × Cell)} {v : List Rat} {a : Nat × Nat × Cell} (ha : a ∈ as)
    (h1 : a.2.2.colSpan = 1) (hj : a.2.1 < v.length) : nd a ≤ entry (span1 nd as v) a.2.1 := by
  unfold span1
  refine foldl_keeps (P := fun v => nd a ≤ entry v a.2.1) ha ?_ (fun v w hl h => le_trans h (hl.2 _)) v.length ?_ rfl
  · intro v a
    split
    · exact Le.refl _
    · exact Le.change (fun w => le_max_left _ _) _ _ _
  · intro w hw
    rw [if_neg (by omega), entry_change _ _ _ _ _ (by omega), if_pos (by omega)]
    exact le_max_right _ _

theorem total_change_add (d : Rat) (v : List Rat) (a n : Nat) (h : a + n ≤ v.length) :
    total (entry (change (· + d) v a n)) a n = total (entry v) a n + n * d := by
  rw [← total_const d a n, ← total_add]
  refine total_congr fun k h1 h2 => ?_
  rw [entry_change _ _ _ _ _ (by omega), if_pos ⟨h1, h2⟩]

theorem spanN_room {nd : Nat × Nat × Cell → Rat} {as : List (Nat × Nat × Cell)} {v : List Rat} {a : Nat × Nat × Cell} (ha : a ∈ as)
    (h1 : 1 < a.2.2.colSpan) (hj : a.2.1 + a.2.2.colSpan ≤ v.length) :
    nd a ≤ total (entry (spanN nd as v)) a.2.1 a.2.2.colSpan := by
  unfold spanN
  refine foldl_keeps (P := fun v => nd a ≤ total (entry v) a.2.1 a.2.2.colSpan) ha ?_ (fun v w hl h => le_trans h (hl.total _ _))
    v.length ?_ rfl
  · intro v b
    have := spanN_le nd [b] v
    unfold spanN at this
    exact this
  · intro w hw
    rw [if_neg (by omega)]
    simp only
    split
    · rename_i hgt
      rw [total_change_add _ _ _ _ (by omega), spanSum_eq]
      have hn : (a.2.2.colSpan : Rat) ≠ 0 := by
        have : (0 : Rat) < a.2.2.colSpan := by exact_mod_cast (by omega : 0 < a.2.2.colSpan)
        exact ne_of_gt this
      have : (a.2.2.colSpan : Rat) * ((nd a - total (entry w) a.2.1 a.2.2.colSpan) / a.2.2.colSpan) =
          nd a - total (entry w) a.2.1 a.2.2.colSpan := by field_simp
      linarith
    · rename_i hle
      rw [spanSum_eq] at hle
      exact not_lt.1 hle

theorem zero_entry (n j : Nat) : entry (List.replicate n (0 : Rat)) j = 0 := by
  unfold entry
  rw [List.getElem?_replicate]
  split <;> rfl

theorem minMax_fits {t : Table} {rs : List Rect} (h : Listed t rs) {used tw : Rat} {mins maxs : List Rat}
    (he : minMax t used tw = some (mins, maxs)) : Fits t rs mins ∧ Fits t rs maxs := by
  unfold minMax at he
  simp only [Option.map_eq_some_iff, Prod.mk.injEq] at he
  obtain ⟨w, hw, rfl, rfl⟩ := he
  have key : ∀ content : CellBox → Rat, (∀ r ∈ rs, (t.box r.cell.id).minContent ≤ content (t.box r.cell.id)) →
      Fits t rs (spanN (cellWidth t content used tw) (anchors t.grid)
        (ofCols t.cols tw (span1 (cellWidth t content used tw) (anchors t.grid) (List.replicate t.grid.w 0)))) := by
    intro content hc
    have l1 := span1_le (cellWidth t content used tw) (anchors t.grid) (List.replicate t.grid.w 0)
    have l2 := ofCols_le t.cols tw (span1 (cellWidth t content used tw) (anchors t.grid) (List.replicate t.grid.w 0))
    have l3 := spanN_le (cellWidth t content used tw) (anchors t.grid)
      (ofCols t.cols tw (span1 (cellWidth t content used tw) (anchors t.grid) (List.replicate t.grid.w 0)))
    have l := (l1.trans l2).trans l3
    refine ⟨by rw [← l.1]; simp, fun j => ?_, fun r hr q hq => ?_⟩
    · have := l.2 j
      rwa [zero_entry] at this
    · have ha := h.anchor r hr
      have hin := h.inside r hr
      have hn := need_le h hr (hc r hr) used tw hq
      by_cases h1 : r.cell.colSpan = 1
      · have := span1_room (nd := cellWidth t content used tw) (v := List.replicate t.grid.w 0) ha h1 (by simp; omega)
        have := ((l2.trans l3).2 r.x)
        rw [h1, total, total, add_zero]
        simp only at *
        linarith
      · have hc1 := h.cols r hr
        have := spanN_room (nd := cellWidth t content used tw) (a := (r.y, r.x, r.cell))
          (v := ofCols t.cols tw (span1 (cellWidth t content used tw) (anchors t.grid) (List.replicate t.grid.w 0))) ha (by simp only; omega)
          (by rw [← (l1.trans l2).1]; simp; omega)
        exact le_trans hn this
  refine ⟨(key _ (fun _ _ => le_refl _)).mono (ofGroups_le hw), key _ h.content⟩

/-! ## Mixing and stretching -/

theorem entry_map {v : List Rat} {f : Rat → Rat} {j : Nat} (h : j < v.length) : entry (v.map f) j = f (entry v j) := by
  unfold entry; rw [List.getElem?_map, List.getElem?_eq_getElem h]; rfl

theorem entry_zipWith {v w : List Rat} {f : Rat → Rat → Rat} {j : Nat} (hv : j < v.length) (hw : j < w.length) :
    entry (List.zipWith f v w) j = f (entry v j) (entry w j) := by
  unfold entry
  rw [List.getElem?_zipWith, List.getElem?_eq_getElem hv, List.getElem?_eq_getElem hw]
  rfl

theorem mix_eq (o p c : Rat) : (if p ≠ o then o + (p - o) * c else o) = o * (1 - c) + p * c := by
  split
  · ring
  · rename_i h
    have : p = o := by simpa using h
    subst this; ring

theorem entry_mix {v w : List Rat} (hl : v.length = w.length) (c : Rat) (j : Nat) :
    entry (List.zipWith (fun o p => if p ≠ o then o + (p - o) * c else o) v w) j = entry v j * (1 - c) + entry w j * c := by
  by_cases h : j < v.length
  · rw [entry_zipWith h (by omega), mix_eq]
  · rw [entry_out (by simp; omega), entry_out (by omega), entry_out (by omega)]; ring

theorem total_mix {v w : List Rat} (hl : v.length = w.length) (c : Rat) (a n : Nat) :
    total (entry (List.zipWith (fun o p => if p ≠ o then o + (p - o) * c else o) v w)) a n =
      total (entry v) a n * (1 - c) + total (entry w) a n * c := by
  rw [← total_mul, ← total_mul, ← total_add]
  exact total_congr fun k _ _ => entry_mix hl c k

theorem mix_fits {t : Table} {rs : List Rect} {v w : List Rat} (hv : Fits t rs v) (hw : Fits t rs w) {c : Rat} (h0 : 0 ≤ c) (h1 : c ≤ 1) :
    Fits t rs (List.zipWith (fun o p => if p ≠ o then o + (p - o) * c else o) v w) := by
  have hl : v.length = w.length := by rw [hv.len, hw.len]
  refine ⟨by simp [hv.len, hw.len], fun j => ?_, fun r hr q hq => ?_⟩
  · rw [entry_mix hl]
    have := hv.nonneg j
    have := hw.nonneg j
    have : 0 ≤ 1 - c := by linarith
    positivity
  · rw [total_mix hl]
    have a := hv.room r hr q hq
    have b := hw.room r hr q hq
    have e : q = q * (1 - c) + q * c := by ring
    rw [e]
    have : 0 ≤ 1 - c := by linarith
    gcongr

theorem stretch_le {v : List Rat} (h0 : ∀ j, 0 ≤ entry v j) {d s : Rat} (hd : 0 ≤ d) (hs : 0 ≤ s) :
    Le v (v.map fun w => w + d * (w / s)) := by
  refine ⟨by simp, fun j => ?_⟩
  by_cases h : j < v.length
  · rw [entry_map h]
    have : 0 ≤ d * (entry v j / s) := mul_nonneg hd (div_nonneg (h0 j) hs)
    linarith
  · rw [entry_out (by omega), entry_out (by simp; omega)]

theorem total_stretch (v : List Rat) (d s : Rat) :
    (v.map fun w => w + d * (w / s)).sum = v.sum + d * (v.sum / s) := by
  induction v with
  | nil => simp
  | cons w v ih => simp only [List.map_cons, List.sum_cons, ih]; ring

theorem entry_le_sum {v : List Rat} (h : ∀ j, 0 ≤ entry v j) (j : Nat) : entry v j ≤ v.sum := by
  rw [sum_eq]
  by_cases hj : j < v.length
  · have h1 := total_append (entry v) 0 j (v.length - j)
    rw [show j + (v.length - j) = v.length by omega] at h1
    have h2 := total_le_part (f := entry v) (a := 0 + j) (n := 1) (m := v.length - j) (by omega) (fun k _ _ => h k)
    have h3 := total_nonneg (f := entry v) (a := 0) (n := j) (fun k _ _ => h k)
    rw [total, total, add_zero, Nat.zero_add] at h2
    rw [Nat.zero_add] at h1
    linarith
  · rw [entry_out (by omega)]
    exact total_nonneg fun k _ _ => h k

/-- What the widths of the columns are after the automatic algorithm. -/
theorem autoWidths_fits {t : Table} {rs : List Rect} (h : Listed t rs) {st st' : Keep} {known : Option Rat}
    {cap cb : Rat} (hi : ∀ p, st.intrinsic = some p → Fits t rs p.1 ∧ Fits t rs p.2)
    (he : autoWidths t st known cap cb = some st') :
    Fits t rs st'.colWidth ∧ (∀ p, st'.intrinsic = some p → Fits t rs p.1 ∧ Fits t rs p.2) ∧ st'.colWidth.sum ≤ st'.used ∧
      ∀ k, known = some k → k ≤ st'.used ∧ cap ≤ st'.used ∧ (0 < t.grid.w → st'.colWidth.sum = st'.used) := by
  unfold autoWidths at he
  rw [Option.bind_eq_some_iff] at he
  obtain ⟨⟨mins, maxs⟩, h1, he⟩ := he
  have hf : Fits t rs mins ∧ Fits t rs maxs := by
    unfold intrinsic at h1
    split at h1
    · rename_i p hpp
      cases h1
      exact hi _ hpp
    · exact minMax_fits h h1
  have hii : ∀ p, some (mins, maxs) = some p → Fits t rs p.1 ∧ Fits t rs p.2 := by
    intro p hpp; cases hpp; exact hf
  cases known with
  | none =>
    simp only at he
    split at he <;> (cases he; exact ⟨by first | exact hf.2 | exact hf.1, hii, le_max_left _ _, fun k hk => by cases hk⟩)
  | some k =>
    simp only at he
    split at he
    · rename_i hgt
      cases he
      refine ⟨hf.1, hii, le_refl _, fun k' hk => ?_⟩
      cases hk
      exact ⟨le_trans (le_max_right _ _) hgt.le, le_trans (le_max_left _ _) hgt.le, fun _ => rfl⟩
    · rename_i hle
      rw [Option.bind_eq_some_iff] at he
      obtain ⟨⟨minsP, maxsP⟩, h2, he⟩ := he
      have hfP := minMax_fits h h2
      simp only at he
      generalize hu : max cap k = used at he hle
      have hk1 : k ≤ used := hu ▸ le_max_right _ _
      have hk2 : cap ≤ used := hu ▸ le_max_left _ _
      obtain ⟨wop, wp, hwop, hwp, hso, he⟩ : ∃ wop wp : List Rat, Fits t rs wop ∧ Fits t rs wp ∧ wop.sum ≤ used ∧
          (if wp.sum > used then
            some { st with intrinsic := some (mins, maxs), used := used, colWidth := List.zipWith (fun o p => if p ≠ o then o + (p - o) * ((used - wop.sum) / (wp.sum - wop.sum)) else o) wop wp }
          else if wp.sum = 0 then
            some { st with intrinsic := some (mins, maxs), used := used, colWidth := wp.map fun _ => used / t.grid.w }
          else
            some { st with intrinsic := some (mins, maxs), used := used, colWidth := wp.map fun w => w + (used - wp.sum) * (w / wp.sum) }) = some st' := by
        by_cases hm : maxs.sum < used
        · refine ⟨maxs, maxsP, hf.2, hfP.2, hm.le, ?_⟩
          rw [decide_eq_true hm] at he
          simpa using he
        · refine ⟨mins, minsP, hf.1, hfP.1, not_lt.1 hle, ?_⟩
          rw [decide_eq_false hm] at he
          simpa using he
      have hl : wop.length = wp.length := by rw [hwop.len, hwp.len]
      split at he
      · rename_i hgt
        cases he
        have htd : 0 < wp.sum - wop.sum := by linarith
        have hc0 : 0 ≤ (used - wop.sum) / (wp.sum - wop.sum) := div_nonneg (by linarith) htd.le
        have hc1 : (used - wop.sum) / (wp.sum - wop.sum) ≤ 1 := by
          exact (div_le_iff₀ htd).2 (by linarith)
        have hsum : (List.zipWith (fun o p => if p ≠ o then o + (p - o) * ((used - wop.sum) / (wp.sum - wop.sum)) else o) wop wp).sum = used := by
          rw [sum_eq, total_mix hl, List.length_zipWith, ← hl, Nat.min_self]
          have e1 : total (entry wop) 0 wop.length = wop.sum := (sum_eq wop).symm
          have e2 : total (entry wp) 0 wop.length = wp.sum := by rw [hl]; exact (sum_eq wp).symm
          rw [e1, e2]
          generalize hcc : (used - wop.sum) / (wp.sum - wop.sum) = c
          have : c * (wp.sum - wop.sum) = used - wop.sum := by
            rw [← hcc]; exact div_mul_cancel₀ _ (ne_of_gt htd)
          linarith
        exact ⟨mix_fits hwop hwp hc0 hc1, hii, hsum.le, fun k' hk => by cases hk; exact ⟨hk1, hk2, fun _ => hsum⟩⟩
      · rename_i hngt
        split at he
        · rename_i hz
          cases he
          have hu0 : 0 ≤ used := by rw [hz] at hngt; exact not_lt.1 hngt
          have hall : ∀ j, entry wp j = 0 := fun j =>
            le_antisymm (hz ▸ entry_le_sum hwp.nonneg j) (hwp.nonneg j)
          have hle : Le wp (wp.map fun _ => used / t.grid.w) := by
            refine ⟨by simp, fun j => ?_⟩
            by_cases hj : j < wp.length
            · rw [entry_map hj, hall]; exact div_nonneg hu0 (Nat.cast_nonneg _)
            · rw [entry_out (by omega), entry_out (by simp; omega)]
          have hsum : (wp.map fun _ => used / (t.grid.w : Rat)).sum = t.grid.w * (used / t.grid.w) := by
            rw [List.map_const', List.sum_replicate, hwp.len, nsmul_eq_mul]
          refine ⟨hwp.mono hle, hii, ?_, fun k' hk => by
            cases hk
            refine ⟨hk1, hk2, fun hw => ?_⟩
            simp only
            rw [hsum, mul_div_cancel₀]
            exact_mod_cast (by omega : t.grid.w ≠ 0)⟩
          simp only
          rw [hsum]
          by_cases hw : t.grid.w = 0
          · rw [hw]; simpa using hu0
          · rw [mul_div_cancel₀]
            exact_mod_cast hw
        · rename_i hnz
          cases he
          have hpos : 0 ≤ wp.sum := by
            have := entry_le_sum hwp.nonneg 0
            exact le_trans (hwp.nonneg 0) this
          have hsum : (wp.map fun w => w + (used - wp.sum) * (w / wp.sum)).sum = used := by
            rw [total_stretch, div_self hnz]; ring
          exact ⟨hwp.mono (stretch_le hwp.nonneg (by linarith) hpos), hii, hsum.le, fun k' hk => by
            cases hk; exact ⟨hk1, hk2, fun _ => hsum⟩⟩

end Verif.Cells
