import Verif.Cells.Rows
import Verif.Cells.Pages
import Mathlib.Data.List.Nodup
/-!
# Laying out a table: every cell once, the given height, repeated headers, no breaking down
-/
namespace Verif.Cells
open Spec
open Verif.Table (Cell Grid Axis)
open Verif.Table.Spec (Rect Shows)

/-- The rectangles of a table differ in their first slots. -/
theorem keys_nodup {t : Table} {rs : List Rect} (h : Cells t rs) : (rs.map fun r => (r.cell, r.x, r.y)).Nodup := by
  unfold List.Nodup
  rw [List.pairwise_map]
  refine h.apart.imp_of_mem fun {a b} ha hb hab he => ?_
  simp only [Prod.mk.injEq] at he
  have h1 := h.cols a ha
  have h2 := (h.rows a ha).1
  refine hab a.x a.y ((covers_iff h ha).2 ⟨by omega, by omega, by omega, by omega⟩) ((covers_iff h hb).2 ?_)
  rw [← he.1, ← he.2.1, ← he.2.2]
  exact ⟨by omega, by omega, by omega, by omega⟩

theorem each_once {t : Table} {rs : List Rect} (h : Cells t rs) {cw rh s : List Rat} {x : Rat} {cells : List Placed}
    (hc : cells = (List.range' 0 t.grid.h).flatMap (fun i => layRow t cw rh s x i (decide (i + 1 = t.grid.h)))) :
    (cells.map fun p => (p.cell, p.ax, p.ay)).Perm (rs.map fun r => (r.cell, r.x, r.y)) := by
  have hmem : ∀ i, i < t.grid.h → ∀ p, p ∈ layRow t cw rh s x i (decide (i + 1 = t.grid.h)) ↔
      ∃ r ∈ rs, r.y + r.cell.rowSpan = i + 1 ∧ p = boxOf t cw rh s x r := by
    intro i hi p
    rw [mem_layRow h _ _ _ _ hi]
    constructor
    · rintro ⟨r, hr, h1, h2, h3, rfl⟩
      refine ⟨r, hr, ?_, rfl⟩
      rcases h3 with h3 | h3
      · exact h3
      · have := (rect_inside h hr).2
        have := of_decide_eq_true h3
        omega
    · rintro ⟨r, hr, h1, rfl⟩
      have := (h.rows r hr).1
      exact ⟨r, hr, by omega, by omega, Or.inl h1, rfl⟩
  rw [List.perm_ext_iff_of_nodup ?_ (keys_nodup h)]
  · intro k
    rw [List.mem_map, List.mem_map]
    constructor
    · rintro ⟨p, hp, rfl⟩
      rw [hc, List.mem_flatMap] at hp
      obtain ⟨i, hi, hp⟩ := hp
      rw [List.mem_range'_1] at hi
      obtain ⟨r, hr, -, rfl⟩ := (hmem i (by omega) p).1 hp
      exact ⟨r, hr, rfl⟩
    · rintro ⟨r, hr, rfl⟩
      have := (rect_inside h hr).2
      have := (h.rows r hr).1
      refine ⟨boxOf t cw rh s x r, ?_, rfl⟩
      rw [hc, List.mem_flatMap]
      exact ⟨r.y + r.cell.rowSpan - 1, by rw [List.mem_range'_1]; omega, (hmem _ (by omega) _).2 ⟨r, hr, by omega, rfl⟩⟩
  · rw [hc, List.map_flatMap, List.nodup_flatMap]
    constructor
    · intro i hi
      unfold layRow
      rw [List.map_filterMap]
      refine List.Nodup.filterMap ?_ List.nodup_range
      intro j j' b hb hb'
      rw [Option.mem_def, Option.map_eq_some_iff] at hb hb'
      obtain ⟨p, hp, rfl⟩ := hb
      obtain ⟨p', hp', he⟩ := hb'
      have key : ∀ (j : Nat) (p : Placed), (match (t.grid.slot j i).box with
          | some c =>
            if (t.grid.slot j i).ax ≠ j then none
            else if (t.grid.slot j i).ay + c.rowSpan - 1 = i ∨ (decide (i + 1 = t.grid.h)) then
              some (layCell t cw rh s (x + t.sx + ((List.range j).map fun k => at' cw k + t.sx).sum) j (t.grid.slot j i).ay c)
            else none
          | none => none) = some p → p.ax = j := by
        intro j p hp
        split at hp
        · split at hp
          · cases hp
          · split at hp
            · cases hp; rfl
            · cases hp
        · cases hp
      simp only [Prod.mk.injEq] at he
      have e1 := key j p hp
      have e2 := key j' p' hp'
      omega
    · rw [List.pairwise_iff_forall_sublist]
      intro a b hab k hk hk'
      have ha : a ∈ List.range' 0 t.grid.h := hab.subset (by simp)
      have hb : b ∈ List.range' 0 t.grid.h := hab.subset (by simp)
      rw [List.mem_range'_1] at ha hb
      rw [List.mem_map] at hk hk'
      obtain ⟨p, hp, rfl⟩ := hk
      obtain ⟨q, hq, he⟩ := hk'
      obtain ⟨r, hr, h1, rfl⟩ := (hmem a (by omega) p).1 hp
      obtain ⟨r', hr', h2, rfl⟩ := (hmem b (by omega) q).1 hq
      have hne : a ≠ b := by
        have := (List.nodup_range' (s := 0) (n := t.grid.h)).sublist hab
        simpa using this
      simp only [boxOf, Prod.mk.injEq] at he
      rw [← he.1, ← he.2.2] at h1
      omega

/-! ## The given height -/

theorem given_height {t : Table} {rs : List Rect} (h : Cells t rs) (hs : Sane t) (hrows : t.rows.length = t.grid.h)
    (hd : ∀ i, i < t.grid.h → ∃ r ∈ rs, r.y + r.cell.rowSpan = i + 1) {inp : Input} (hw : Whole inp) (h0 : inp.knownY = none) {k : Rat}
    {st1 st2 : Keep} {own out : Out} (he0 : run t {} inp = some (st1, own)) (he : run t {} { inp with knownY := some k } = some (st2, out))
    (hk : own.height ≤ k) : out.height = k ∧ ∀ i, entry own.rows i ≤ entry out.rows i := by
  have natural : ∀ {inp : Input} {st' : Keep} {out : Out}, Whole inp → run t {} inp = some (st', out) →
      out.height = out.rows.sum + t.sy * (t.grid.h + 1) := by
    intro inp st' out hw he
    obtain ⟨s, -, -, P, hP0, hPn, hP⟩ := whole_band h hs.sy hw .new he
    obtain ⟨-, s1, rh, h1, h2, rfl, rfl⟩ := run_some he
    have hle := (heights_some h2).2
    have hrh : ∀ i, i < t.grid.h → 0 ≤ entry rh i := by
      intro i hi
      obtain ⟨r, hr, hri⟩ := hd i hi
      have := (h.rows r hr).1
      exact row_nonneg h hs hle hr (by omega) (by omega)
    have := dense_rows h hd hrh hP0 hP t.grid.h (Nat.le_refl _)
    rw [hPn, total_add, total_const] at this
    simp only at this ⊢
    have hlen : rh.length = t.grid.h := by rw [← hle.1, rowHeights_length]
    rw [sum_eq, hlen]
    linarith
  have e0 := natural hw he0
  have e1 := natural (inp := { inp with knownY := some k }) hw he
  obtain ⟨-, s1, rh1, a1, a2, rfl, rfl⟩ := run_some he0
  obtain ⟨-, s2, rh2, b1, b2, rfl, rfl⟩ := run_some he
  have hsame : s1 = s2 := by
    have : widths t {} { inp with knownY := some k } = widths t {} inp := rfl
    rw [this, a1] at b1
    cases b1
    rfl
  subst hsame
  rw [h0] at a2
  have hr1 : rh1 = rowHeights t s1 := by cases a2; rfl
  simp only at e0 e1 hk ⊢
  refine ⟨?_, fun i => ?_⟩
  · rw [e1]
    refine heights_given ?_ hrows b2 ?_
    · rw [(widths_starts a1).2]
    · rw [← hr1, ← e0]
      exact hk
  · rw [hr1]
    exact (heights_some b2).2.2 i

/-! ## Header and footer -/

theorem mem_headerRows {t : Table} {rs : List Rect} (h : Cells t rs) (cw rh : List Rat) (x y : Rat) {a n : Nat} (han : a + n ≤ t.grid.h) (s : List Rat)
    (hs : s.length = t.grid.h) {r : Rect} (hr : r ∈ rs) (h1 : a < r.y + r.cell.rowSpan) (h2 : r.y + r.cell.rowSpan ≤ a + n) :
    ∃ p ∈ (layoutHeaderFooterRows t cw rh x a n y s).1, Of p r := by
  obtain ⟨cells, y', s', P, he, -, -, hc, -⟩ := rowsLoop_spec h cw rh x (fun i _ => at' rh (i - a) + t.sy) (fun _ => false) n a y s hs han
  unfold layoutHeaderFooterRows
  rw [he]
  have := (h.rows r hr).1
  refine ⟨boxOf t cw rh s' x r, ?_, rfl, rfl, rfl⟩
  simp only
  rw [hc, List.mem_flatMap]
  refine ⟨r.y + r.cell.rowSpan - 1, by rw [List.mem_range'_1]; omega, ?_⟩
  rw [mem_layRow h _ _ _ _ (by omega)]
  exact ⟨r, hr, by omega, by omega, Or.inl (by omega), rfl⟩

theorem repeated {t : Table} {rs : List Rect} (h : Cells t rs) {st st' : Keep} {inp : Input} {out : Out} (hr : Reached t st)
    (he : run t st inp = some (st', out)) {page : Rat} (hp : inp.page = some page) (hht : t.heads + t.feet ≤ t.grid.h)
    {head foot : Rat} (hhead : total (entry out.rows) 0 t.heads + t.sy * (t.heads + 1) ≤ head)
    (hfoot : total (entry out.rows) (t.grid.h - t.feet) t.feet + t.sy * (t.heads + 1) ≤ foot) (h0 : 0 ≤ head) (h1 : 0 ≤ foot)
    (h4 : head * 4 ≤ page ∧ foot * 4 ≤ page) (h2 : head + foot * 2 ≤ page) :
    ∀ r ∈ rs, r.y + r.cell.rowSpan ≤ t.heads ∨ t.grid.h - t.feet ≤ r.y → ∃ p ∈ out.cells, Of p r := by
  have hst := reached_starts hr
  obtain ⟨-, st1, rh, k1, k2, rfl, rfl⟩ := run_some he
  rw [← (widths_starts k1).1] at hst
  have hl := begin_length hst
  simp only at hhead hfoot ⊢
  have hY : headY t rh ≤ head := by
    unfold headY
    split
    · exact h0
    · rw [spanSum_eq]; exact hhead
  have fY : footY t rh ≤ foot := by
    unfold footY
    split
    · exact h1
    · rw [spanSum_eq]; exact hfoot
  have hrep : repeats t rh inp.page = true := by
    unfold repeats
    rw [hp]
    simp only [Bool.and_eq_true, decide_eq_true_eq]
    constructor
    · rcases max_choice (headY t rh) (footY t rh) with e | e <;> rw [e] <;> linarith [h4.1, h4.2]
    · linarith
  intro r hr' hcase
  unfold body
  rw [if_pos hrep]
  simp only
  have hin := (rect_inside h hr').2
  have hr1 := (h.rows r hr').1
  rcases hcase with hcase | hcase
  · obtain ⟨p, hp', ho⟩ := mem_headerRows h st1.colWidth rh inp.x (inp.y + t.sy) (a := 0) (n := t.heads) (by omega) _ hl hr' (by omega) (by omega)
    exact ⟨p, by rw [List.mem_append, List.mem_append]; exact Or.inl (Or.inl hp'), ho⟩
  · obtain ⟨p, hp', ho⟩ := mem_headerRows h st1.colWidth rh inp.x
      (layoutRows t st1.colWidth rh inp.x (inp.start + t.heads) (t.heads + inp.stop.getD (t.grid.h - t.feet - t.heads))
        (layoutHeaderFooterRows t st1.colWidth rh inp.x 0 t.heads (inp.y + t.sy) (begin' t st1)).2.1
        (layoutHeaderFooterRows t st1.colWidth rh inp.x 0 t.heads (inp.y + t.sy) (begin' t st1)).2.2).2.1 (a := t.grid.h - t.feet) (n := t.feet) (by omega)
      (layoutRows t st1.colWidth rh inp.x (inp.start + t.heads) (t.heads + inp.stop.getD (t.grid.h - t.feet - t.heads))
        (layoutHeaderFooterRows t st1.colWidth rh inp.x 0 t.heads (inp.y + t.sy) (begin' t st1)).2.1
        (layoutHeaderFooterRows t st1.colWidth rh inp.x 0 t.heads (inp.y + t.sy) (begin' t st1)).2.2).2.2
      (by simp only [layoutHeaderFooterRows, layoutRows, rowsLoop_length, hl]) hr' (by omega) (by omega)
    exact ⟨p, by rw [List.mem_append]; exact Or.inr hp', ho⟩

/-! ## Breaking down -/

theorem ofGroups_isSome (tw : Rat) (gs : List (Axis × Option (Rat → Rat))) (hg : ∀ g ∈ gs, g.1.start ≤ g.1.last) (v : List Rat) : (ofGroups tw gs v).isSome := by
  induction gs generalizing v with
  | nil => rfl
  | cons g gs ih =>
    obtain ⟨a, o⟩ := g
    have ha := hg (a, o) (List.mem_cons_self ..)
    have ih := ih (fun g hg' => hg g (List.mem_cons_of_mem _ hg'))
    cases o with
    | none => exact ih v
    | some f =>
      rw [ofGroups]
      split
      · exact ih _
      · rw [if_neg (by simp only at ha; omega)]
        exact ih _

theorem minMax_isSome {t : Table} (hg : ∀ g ∈ t.colGroups, g.1.start ≤ g.1.last) (u tw : Rat) : (minMax t u tw).isSome := by
  unfold minMax
  simp only [Option.isSome_map]
  exact ofGroups_isSome _ _ hg _

theorem intrinsic_isSome {t : Table} (hg : ∀ g ∈ t.colGroups, g.1.start ≤ g.1.last) (st : Keep) : (intrinsic t st).isSome := by
  unfold intrinsic
  split
  · rfl
  · exact minMax_isSome hg _ _

theorem autoWidths_isSome {t : Table} (hg : ∀ g ∈ t.colGroups, g.1.start ≤ g.1.last) (st : Keep) (k : Option Rat) (c cb : Rat) :
    (autoWidths t st k c cb).isSome := by
  obtain ⟨⟨mins, maxs⟩, h1⟩ := Option.isSome_iff_exists.1 (intrinsic_isSome hg st)
  unfold autoWidths
  rw [h1, Option.bind_some]
  cases k with
  | none => simp only; split <;> rfl
  | some k =>
    simp only
    split
    · rfl
    · obtain ⟨⟨a, b⟩, h2⟩ := Option.isSome_iff_exists.1 (minMax_isSome hg (max c k) k)
      rw [h2, Option.bind_some]
      simp only
      repeat' split
      all_goals rfl

theorem never_stuck {t : Table} {rs : List Rect} (h : Cells t rs) {st : Keep} {inp : Input} (hf : t.fixed = false ∨ inp.knownX = none)
    (hg : ∀ g ∈ t.colGroups, g.1.start ≤ g.1.last) (hc : inp.capmin ≠ none) (hk : inp.knownY = none ∨ t.rows ≠ []) : (run t st inp).isSome := by
  have hwid : (widths t st inp).isSome := by
    unfold widths
    split
    · rename_i k h1 h2
      rcases hf with hf | hf
      · rw [hf] at h1; cases h1
      · rw [hf] at h2; cases h2
    · split
      · obtain ⟨cap, hcap⟩ := Option.ne_none_iff_exists'.1 hc
        rw [hcap, Option.bind_some]
        split
        · exact autoWidths_isSome hg _ _ _ _
        · rfl
      · rw [Option.isSome_map]; exact intrinsic_isSome hg st
      · rw [Option.isSome_map]; exact intrinsic_isSome hg st
  obtain ⟨s1, h1⟩ := Option.isSome_iff_exists.1 hwid
  have hhei : (heights t s1 inp.knownY).isSome := by
    unfold heights
    rcases hk with hk | hk
    · rw [hk]; rfl
    · simp only
      split
      · split
        · split
          · rfl
          · rw [if_neg (fun hl => hk (List.eq_nil_of_length_eq_zero hl))]; rfl
        · rfl
      · rfl
  obtain ⟨q, h2⟩ := Option.isSome_iff_exists.1 hhei
  rw [run_eq, not_hasZero h, h1, Option.bind_some, h2, Option.bind_some]
  rfl

end Verif.Cells
