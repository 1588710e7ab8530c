import Verif.Cells.Final
import Verif.Cells.History
import Verif.Cells.Pages
import Verif.Cells.Built
import Verif.Cells.Sums
/-!
# Laying out a table: theorems

C144 columns have room for their cells, C145 columns fill the table, C146 cells are inside of the table,
C147 a table without a width shrinks to its containing block, C148 rows are high enough, C149 where cells
are, C150 a layout does not depend on earlier ones, C151 the given height, C152 pages with repeated
headers and footers, C153 the layout of a table does not break down.
-/
namespace Verif.Cells
open Spec
open Verif.Table (Cell Grid Axis Item)
open Verif.Table.Spec (Rect Shows)

/-! ## Tables to look at -/

private def gridOf (items : List Item) : Grid := ((Verif.Table.build items).map (·.core.grid)).getD ⟨0, 0, fun x y => ⟨x, y, none⟩⟩

/-- A cell of one slot. -/
private def c1 (id : Nat) : Cell := ⟨id, 1, 1⟩

/-- A cell whose content is between `mn` and `mx` wide and `area` in all. -/
private def text (mn mx area : Rat) : CellBox :=
  { minContent := mn, maxContent := mx, padding := fun _ => 0, width := none, height := none, tall := fun w _ => if w ≤ 1 then area else area / w }

private def tbl (items : List Item) (b : CellBox) : Table :=
  { grid := gridOf items, cols := [], colGroups := [], rows := (List.range (gridOf items).h).map fun i => (⟨i, i⟩, none), heads := 0, feet := 0,
    edges := fun _ _ => (0, 0), box := fun _ => b, sx := 0, sy := 0, fixed := false }

private def look (r : Option (Keep × Out)) : List (List Rat) :=
  match r with
  | some (_, o) => [o.width, o.height] :: o.cols :: o.rows :: o.cells.map fun p => [p.cell.id, p.x, p.y, p.w, p.h]
  | none => []

/-- Two rows; the first cell reaches down, the last one is wide. -/
private def spans : List Item := [.row [⟨1, 2, 1⟩, c1 2, c1 3], .row [⟨4, 1, 2⟩]]
private def spansCells : List Rect := [⟨⟨1, 2, 1⟩, 0, 0, some 2⟩, ⟨c1 2, 1, 0, some 1⟩, ⟨c1 3, 2, 0, some 1⟩, ⟨⟨4, 1, 2⟩, 1, 1, some 2⟩]

private def spansTable : Table := { tbl spans (text 10 30 600) with sx := 2, sy := 3 }

private theorem spans_cells : Cells spansTable spansCells := cells_check (by decide +kernel)

private theorem text_sane {items : List Item} {mn mx area sx sy : Rat} (h : mn ≤ mx) (ha : 0 ≤ area) (h1 : 0 ≤ sx) (h2 : 0 ≤ sy) :
    Sane { tbl items (text mn mx area) with sx := sx, sy := sy } := by
  refine ⟨h1, h2, fun id w u => ?_, fun _ => h⟩
  simp only [tbl, text]
  split
  · exact ha
  · exact div_nonneg ha (by linarith)

private theorem text_flows {t : Table} {mn mx area : Rat} (ha : 0 ≤ area) (ht : ∀ id, (t.box id).tall = (text mn mx area).tall) : Flows t := by
  intro id u v w hvw
  rw [ht]
  simp only [text]
  split <;> split
  · exact le_refl _
  · linarith
  · exact (div_le_iff₀ (by linarith)).2 (by nlinarith)
  · exact div_le_div_of_nonneg_left ha (by linarith) hvw

private theorem spans_sane : Sane spansTable := text_sane (by norm_num) (by norm_num) (by norm_num) (by norm_num)

example : look (run spansTable {} { knownX := some 100 }) =
    [[100, 45], [100 / 3, 100 / 3, 100 / 3], [18, 18], [2, 112 / 3, 3, 100 / 3, 18], [3, 218 / 3, 3, 100 / 3, 18],
      [1, 2, 3, 100 / 3, 39], [4, 112 / 3, 24, 206 / 3, 18]] := by decide +kernel

/-- The tables below are there for all tables made of rows: where no cell spans no column or no row,
and either no cell spans more than one row or no cell more than one column, the cells are rectangles
apart from each other. -/
example {items : List Item} (hc : ∀ g ∈ Verif.Table.Spec.groups items, ∀ row ∈ g, ∀ c ∈ row, 1 ≤ c.colSpan ∧ c.rowSpan = 1) :
    ∃ st rs, Verif.Table.build items = some st ∧ rs.map Rect.cell = (Verif.Table.Spec.groups items).flatten.flatten ∧
      ∀ t : Table, t.grid = st.core.grid → Cells t rs :=
  built (fun g hg row hr c h => ⟨(hc g hg row hr c h).1, by have := (hc g hg row hr c h).2; omega⟩)
    (Or.inl fun g hg row hr c h => (hc g hg row hr c h).2)

/-! ## C144 -/

/-- However often and in whatever ways the table has been laid out before, every cell gets columns that
are together at least as wide as its content with all line breaks taken, its padding and its borders,
and as wide as its `width` when that is a length. Partial: the automatic algorithm, and paddings without
percentages. -/
theorem C144_room_partial {t : Table} {rs : List Rect} (h : Cells t rs) (hs : Sane t) (hp : NoPercent t) (hf : t.fixed = false)
    {st st' : Keep} {inp : Input} {out : Out} (hr : Reached t st) (he : run t st inp = some (st', out)) :
    ∀ r ∈ rs, ∀ q, Asks t r q → q ≤ total (entry out.cols) r.x r.cell.colSpan :=
  (run_fits (listed h hs hp) hf hr he).1.room

/-- Every column has a width, and none is negative. -/
theorem C144_columns {t : Table} (hf : t.fixed = false) {st st' : Keep} {inp : Input} {out : Out} (hr : Reached t st)
    (he : run t st inp = some (st', out)) : out.cols.length = t.grid.w ∧ ∀ j, 0 ≤ entry out.cols j :=
  ⟨(run_fits (listed_nil t) hf hr he).1.len, (run_fits (listed_nil t) hf hr he).1.nonneg⟩

/-- One cell, as wide as it is, whose padding is a part of the width of the table. -/
private def padded : Table := tbl [.row [c1 0]] { text 100 100 1000 with padding := fun w => w / 5 }

/-- With a percentage as padding it is false: the padding is taken of the width of the table before it
is known. -/
theorem C144_room_fails : ¬∀ (t : Table) (rs : List Rect), Cells t rs → Sane t → t.fixed = false → ∀ (inp : Input) (st' : Keep) (out : Out),
    run t {} inp = some (st', out) → ∀ r ∈ rs, (t.box r.cell.id).minContent + (t.box r.cell.id).padding out.width +
      ((t.edges r.y r.x).1 + (t.edges (r.y + r.cell.rowSpan - 1) (r.x + r.cell.colSpan - 1)).2) ≤ total (entry out.cols) r.x r.cell.colSpan := by
  intro h
  have hrun : run padded {} { cbX := 500 } = some ((run padded {} { cbX := 500 }).get (by decide +kernel)) := by simp
  have := h padded [⟨c1 0, 0, 0, some 1⟩] (cells_check (by decide +kernel))
    ⟨by decide, by decide, fun id w u => by simp only [padded, tbl, text]; split; exacts [by norm_num, div_nonneg (by norm_num) (by linarith)], fun _ => by simp [padded, tbl, text]⟩
    rfl { cbX := 500 } _ _ hrun ⟨c1 0, 0, 0, some 1⟩ (by simp)
  revert this
  decide +kernel

/-! ## C145 -/

/-- A column that is wider than its table. -/
private def wide : Table := { tbl [.row [c1 0]] (text 10 10 100) with fixed := true, cols := [(⟨0, 0⟩, some fun _ => 300)] }

/-- A table with a width that is laid out, again and again, in any ways but measuring it: its columns
are together as wide as it is, and it is at least as wide as asked for and as its caption needs.
Partial: the automatic algorithm. -/
theorem C145_fills_partial {t : Table} (hf : t.fixed = false) (hw : 0 < t.grid.w) {st st' : Keep} (hr : ReachedAuto t st) {inp : Input} {out : Out}
    (hm : inp.mode = .auto) {k : Rat} (hk : inp.knownX = some k) (he : run t st inp = some (st', out)) :
    out.cols.sum = out.width ∧ k ≤ out.width ∧ ∀ cap, inp.capmin = some cap → cap ≤ out.width :=
  filled hf hw hr hm hk he

/-- A table without a width whose caption is wide: the columns do not fill it. -/
theorem C145_caption_fails : ¬∀ (t : Table) (rs : List Rect), Cells t rs → Sane t → NoPercent t → t.fixed = false → ∀ (inp : Input) (st' : Keep) (out : Out),
    0 < t.grid.w → inp.mode = .auto → run t {} inp = some (st', out) → out.cols.sum = out.width := by
  intro h
  have hrun : run spansTable {} { capmin := some 500, cbX := 600 } = some ((run spansTable {} { capmin := some 500, cbX := 600 }).get (by decide +kernel)) := by simp
  have := h spansTable spansCells spans_cells spans_sane (fun _ _ _ => rfl) rfl _ _ _ (by decide +kernel) rfl hrun
  revert this
  decide +kernel

/-- With `table-layout: fixed` and without borders, the columns and the room between them are together
at least as wide as the table should be. -/
theorem C145_fixed_partial {t : Table} (hf : t.fixed = true) (hw : 0 < t.grid.w) (hb : ∀ i j, t.edges i j = (0, 0)) {st' : Keep} {inp : Input}
    {out : Out} {k : Rat} (hk : inp.knownX = some k) (he : run t {} inp = some (st', out)) :
    k ≤ out.cols.sum + t.sx * (t.grid.w + 1) :=
  fixed_filled hf hw hb hk he

example : look (run { wide with cols := [(⟨0, 0⟩, some fun _ => 30)], sx := 2 } {} { knownX := some 100 }) =
    [[100, 100 / 96], [96], [100 / 96], [0, 2, 0, 96, 100 / 96]] := by decide +kernel

/-- Two columns; the first one says its width; every slot has borders. -/
private def bordered : Table :=
  { tbl [.row [c1 0, c1 1]] (text 10 10 100) with edges := fun _ _ => (5, 5), fixed := true, cols := [(⟨0, 0⟩, some fun _ => 50)] }

/-- With borders it is false: the borders of the columns that say their width are counted, and then
belong to no column. -/
theorem C145_fixed_fails : ¬∀ t : Table, t.fixed = true → 0 < t.grid.w → ∀ (inp : Input) (st' : Keep) (out : Out) (k : Rat),
    inp.knownX = some k → run t {} inp = some (st', out) → k ≤ out.cols.sum + t.sx * (t.grid.w + 1) := by
  intro h
  have hrun : run bordered {} { knownX := some 100 } = some ((run bordered {} { knownX := some 100 }).get (by decide +kernel)) := by simp
  have := h bordered rfl (by decide +kernel) _ _ _ 100 rfl hrun
  revert this
  decide +kernel

/-! ## C146 -/

/-- Without room between the columns, no cell leaves the table at its sides. Partial: no border
spacing, the automatic algorithm. -/
theorem C146_inside_partial {t : Table} {rs : List Rect} (h : Cells t rs) (hsx : t.sx = 0) (hsy : 0 ≤ t.sy) (hf : t.fixed = false) {st st' : Keep}
    {inp : Input} {out : Out} (hw : Whole inp) (hr : Reached t st) (he : run t st inp = some (st', out)) :
    ∀ p ∈ out.cells, inp.x ≤ p.x ∧ p.x + p.w ≤ inp.x + out.width := by
  obtain ⟨s, -, hb, -⟩ := whole_band h hsy hw hr he
  obtain ⟨hfit, hsum⟩ := run_fits (listed_nil t) hf hr he
  intro p hp
  obtain ⟨r, hr', -, -, rfl⟩ := hb.mem p hp
  have hin := (rect_inside h hr').1
  have hcw : ∀ j, j < t.grid.w → 0 ≤ entry out.cols j := fun j _ => hfit.nonneg j
  have h0 := colX_mono (hsx ▸ le_refl _) hcw inp.x (Nat.zero_le r.x) (by omega)
  have h1 := colX_mono (hsx ▸ le_refl _) hcw inp.x hin (Nat.le_refl _)
  have h2 := box_right (t := t) out.cols out.rows s inp.x (h.cols r hr')
  have e0 : colX t out.cols inp.x 0 = inp.x := by unfold colX; rw [hsx]; simp [total]
  have e1 : colX t out.cols inp.x t.grid.w = inp.x + out.cols.sum := by
    unfold colX
    rw [hsx, sum_eq, hfit.len, total_congr (f := fun k => entry out.cols k + 0) (g := entry out.cols) (fun k _ _ => by ring)]
    ring
  have e2 : (boxOf t out.cols out.rows s inp.x r).x = colX t out.cols inp.x r.x := rfl
  rw [hsx] at h2
  constructor <;> linarith

/-- With room between the columns it is false: the size of the table leaves it out. (The style sheet of
the engine has `border-spacing: 2px`.) -/
theorem C146_inside_fails : ¬∀ (t : Table) (rs : List Rect), Cells t rs → Sane t → NoPercent t → t.fixed = false → ∀ (inp : Input) (st' : Keep) (out : Out),
    Whole inp → run t {} inp = some (st', out) → ∀ p ∈ out.cells, p.x + p.w ≤ inp.x + out.width := by
  intro h
  have hrun : run spansTable {} { knownX := some 100 } = some ((run spansTable {} { knownX := some 100 }).get (by decide +kernel)) := by simp
  have := h spansTable spansCells spans_cells spans_sane (fun _ _ _ => rfl) rfl _ _ _ ⟨rfl, rfl, rfl⟩ hrun
  revert this
  decide +kernel

/-- With `table-layout: fixed` it is false: the table does not grow with its columns. -/
theorem C146_fixed_fails : ¬∀ (t : Table) (rs : List Rect), Cells t rs → Sane t → NoPercent t → t.sx = 0 → ∀ (inp : Input) (st' : Keep) (out : Out),
    Whole inp → run t {} inp = some (st', out) → ∀ p ∈ out.cells, p.x + p.w ≤ inp.x + out.width := by
  intro h
  have hrun : run wide {} { knownX := some 100 } = some ((run wide {} { knownX := some 100 }).get (by decide +kernel)) := by simp
  have := h wide [⟨c1 0, 0, 0, some 1⟩] (cells_check (by decide +kernel))
    ⟨by decide, by decide, fun id w u => by simp only [wide, tbl, text]; split; exacts [by norm_num, div_nonneg (by norm_num) (by linarith)], fun _ => by simp [wide, tbl, text]⟩
    (fun _ _ _ => rfl) rfl _ _ _ ⟨rfl, rfl, rfl⟩ hrun
  revert this
  decide +kernel

/-! ## C147 -/

/-- A table without a width whose caption needs less than the containing block is as wide as when all
of its text is in one line, or as its caption needs. -/
theorem C147_preferred {t : Table} (hf : t.fixed = false) {inp : Input} {st1 st2 : Keep} {out pref : Out} {cap : Rat} (hm : inp.mode = .auto)
    (hk : inp.knownX = none) (hc : inp.capmin = some cap) (hcb : cap < inp.cbX) (he : run t {} inp = some (st1, out))
    (hp : run t {} { inp with mode := .max } = some (st2, pref)) : out.width = max pref.width cap :=
  preferred hf hm hk hc hcb he hp

/-- So it fits its containing block when its text does in one line. Partial: it should be no wider than
the containing block whenever it fits with all line breaks taken. -/
theorem C147_shrinks_partial {t : Table} (hf : t.fixed = false) {inp : Input} {st1 st2 : Keep} {out pref : Out} {cap : Rat} (hm : inp.mode = .auto)
    (hk : inp.knownX = none) (hc : inp.capmin = some cap) (hcb : cap < inp.cbX) (he : run t {} inp = some (st1, out))
    (hp : run t {} { inp with mode := .max } = some (st2, pref)) (hfit : pref.width ≤ inp.cbX) : out.width ≤ inp.cbX := by
  rw [C147_preferred hf hm hk hc hcb he hp]
  exact max_le hfit (le_of_lt hcb)

/-- The claim is false: a table that could be 30 wide is 90 wide in a containing block of 50. -/
theorem C147_shrinks_fails : ¬∀ (t : Table) (rs : List Rect), Cells t rs → Sane t → NoPercent t → t.fixed = false → ∀ (inp : Input) (st1 st2 : Keep) (out least : Out),
    inp.mode = .auto → inp.knownX = none → inp.capmin = some 0 → run t {} inp = some (st1, out) →
    run t {} { inp with mode := .min } = some (st2, least) → least.width ≤ inp.cbX → out.width ≤ inp.cbX := by
  intro h
  have hrun : run spansTable {} { cbX := 50 } = some ((run spansTable {} { cbX := 50 }).get (by decide +kernel)) := by simp
  have hrun' : run spansTable {} { cbX := 50, mode := .min } = some ((run spansTable {} { cbX := 50, mode := .min }).get (by decide +kernel)) := by simp
  have := h spansTable spansCells spans_cells spans_sane (fun _ _ _ => rfl) rfl { cbX := 50 } _ _ _ _ rfl rfl rfl hrun hrun' (by decide +kernel)
  revert this
  decide +kernel

/-! ## C148 -/

/-- The rows of a cell are together as high as it is when it is laid out at its width, and as its
`height` says. -/
theorem C148_high_enough {t : Table} {rs : List Rect} (h : Cells t rs) (hsx : 0 ≤ t.sx) (hsy : 0 ≤ t.sy) (hflow : Flows t) {st st' : Keep} {inp : Input}
    {out : Out} (hw : Whole inp) (hr : Reached t st) (he : run t st inp = some (st', out)) (hcol : ∀ j, 0 ≤ entry out.cols j) :
    ∀ p ∈ out.cells, (t.box p.cell.id).tall p.w out.width ≤ p.h ∧ ∀ g, (t.box p.cell.id).height = some g → g ≤ p.h := by
  obtain ⟨s, -, hb, -⟩ := whole_band h hsy hw hr he
  obtain ⟨-, st1, rh, h1, h2, rfl, rfl⟩ := run_some he
  have hle := (heights_some h2).2
  intro p hp
  obtain ⟨r, hr', -, -, rfl⟩ := hb.mem p hp
  have hin := (rect_inside h hr').1
  have hc1 := h.cols r hr'
  have hc := rows_cell h hle hr'
  simp only [boxOf] at hcol ⊢
  have hy : 0 ≤ t.sy * ((r.cell.rowSpan - 1 : Nat) : Rat) := mul_nonneg hsy (Nat.cast_nonneg _)
  have hx : 0 ≤ t.sx * ((r.cell.colSpan - 1 : Nat) : Rat) := mul_nonneg hsx (Nat.cast_nonneg _)
  refine ⟨?_, fun g hg => by have := hc.2 g hg; linarith⟩
  have hwide : entry st1.colWidth r.x ≤ total (entry (st1.colWidth.take t.grid.w)) r.x r.cell.colSpan := by
    rw [← entry_take st1.colWidth t.grid.w r.x (by omega)]
    have := total_le_part (f := entry (st1.colWidth.take t.grid.w)) (a := r.x) hc1 (fun i _ _ => hcol i)
    simpa [total] using this
  have := hflow r.cell.id st1.used _ _ (by linarith : entry st1.colWidth r.x ≤ total (entry (st1.colWidth.take t.grid.w)) r.x r.cell.colSpan + t.sx * ((r.cell.colSpan - 1 : Nat) : Rat))
  linarith [hc.1]

/-- Where no cell spans columns or rows and no height is said anywhere, no row is higher than one of
its cells needs. -/
theorem C148_tight_partial {t : Table} {rs : List Rect} (h : Cells t rs) (hsy : 0 ≤ t.sy)
    (hone : ∀ r ∈ rs, r.cell.colSpan = 1 ∧ r.cell.rowSpan = 1 ∧ (t.box r.cell.id).height = none) (hrows : ∀ q ∈ t.rows, q.2 = none) {st st' : Keep}
    {inp : Input} {out : Out} (hw : Whole inp) (hk : inp.knownY = none) (hr : Reached t st) (he : run t st inp = some (st', out)) :
    ∀ i, entry out.rows i = 0 ∨ ∃ p ∈ out.cells, p.ay = i ∧ entry out.rows i = (t.box p.cell.id).tall p.w out.width := by
  obtain ⟨s, hcells, hb, -⟩ := whole_band h hsy hw hr he
  obtain ⟨-, st1, rh, h1, h2, rfl, rfl⟩ := run_some he
  intro i
  rw [hk] at h2
  have hrh : rh = rowHeights t st1 := by cases h2; rfl
  simp only at hcells ⊢
  rcases rowHeights_tight h st1 (fun r hr => (hone r hr).2) hrows i with h0 | ⟨r, hr', hy, he'⟩
  · exact Or.inl (by rw [hrh]; exact h0)
  · right
    have hin := rect_inside h hr'
    have o := hone r hr'
    refine ⟨boxOf t (st1.colWidth.take t.grid.w) rh s inp.x r, ?_, hy, ?_⟩
    · rw [hcells, List.mem_flatMap]
      refine ⟨i, by rw [List.mem_range'_1]; omega, ?_⟩
      rw [mem_layRow h _ _ _ _ (by omega)]
      exact ⟨r, hr', by omega, by omega, Or.inl (by omega), rfl⟩
    · rw [hrh, he']
      simp only [boxOf]
      rw [o.1]
      simp only [total, Nat.sub_self, Nat.cast_zero, mul_zero, add_zero]
      rw [entry_take _ _ _ (by omega)]

/-- One cell over two columns. -/
private def across : Table := tbl [.row [⟨0, 1, 2⟩]] (text 10 30 600)

/-- With cells over several columns it is false: such a cell is measured at the width of its first
column. -/
theorem C148_tight_fails : ¬∀ (t : Table) (rs : List Rect), Cells t rs → Sane t → NoPercent t → t.fixed = false → Flows t →
    (∀ r ∈ rs, r.cell.rowSpan = 1 ∧ (t.box r.cell.id).height = none) → (∀ q ∈ t.rows, q.2 = none) → ∀ (inp : Input) (st' : Keep) (out : Out),
    Whole inp → inp.knownY = none → run t {} inp = some (st', out) →
    ∀ i, i < t.grid.h → entry out.rows i = 0 ∨ ∃ p ∈ out.cells, p.ay = i ∧ entry out.rows i = (t.box p.cell.id).tall p.w out.width := by
  intro h
  have hrun : run across {} { knownX := some 60 } = some ((run across {} { knownX := some 60 }).get (by decide +kernel)) := by simp
  have := h across [⟨⟨0, 1, 2⟩, 0, 0, some 1⟩] (cells_check (by decide +kernel))
    ⟨by decide, by decide, fun id w u => by simp only [across, tbl, text]; split; exacts [by norm_num, div_nonneg (by norm_num) (by linarith)], fun _ => by norm_num [across, tbl, text]⟩
    (fun _ _ _ => rfl) rfl
    (text_flows (mn := 10) (mx := 30) (area := 600) (by norm_num) (fun _ => rfl))
    (by decide) (by decide +kernel) _ _ _ ⟨rfl, rfl, rfl⟩ rfl hrun 0 (by decide +kernel)
  revert this
  decide +kernel

/-! ## C149 -/

/-- A table in one piece has every cell once. -/
theorem C149_each_once {t : Table} {rs : List Rect} (h : Cells t rs) (hsy : 0 ≤ t.sy) {st st' : Keep} {inp : Input} {out : Out} (hw : Whole inp)
    (hr : Reached t st) (he : run t st inp = some (st', out)) :
    (out.cells.map fun p => (p.cell, p.ax, p.ay)).Perm (rs.map fun r => (r.cell, r.x, r.y)) := by
  obtain ⟨s, hc, -, -⟩ := whole_band h hsy hw hr he
  exact each_once h hc

/-- Every cell is where its columns are, and as wide and as high as its columns and rows and the room
between them; cells of a row begin at the same height. -/
theorem C149_places {t : Table} {rs : List Rect} (h : Cells t rs) (hsy : 0 ≤ t.sy) {st st' : Keep} {inp : Input} {out : Out} (hw : Whole inp)
    (hr : Reached t st) (he : run t st inp = some (st', out)) :
    ∃ top : Nat → Rat, top 0 = inp.y + t.sy ∧ ∀ p ∈ out.cells, ∃ r ∈ rs, Of p r ∧ p.x = inp.x + t.sx + total (fun k => entry out.cols k + t.sx) 0 r.x ∧
      p.y = top r.y ∧ p.w = total (entry out.cols) r.x r.cell.colSpan + t.sx * (r.cell.colSpan - 1 : Nat) ∧
      p.h = total (entry out.rows) r.y r.cell.rowSpan + t.sy * (r.cell.rowSpan - 1 : Nat) := by
  obtain ⟨s, -, hb, P, hP0, -, hP⟩ := whole_band h hsy hw hr he
  refine ⟨P, hP0, fun p hp => ?_⟩
  obtain ⟨r, hr', h1, h2, rfl⟩ := hb.mem p hp
  have := (rect_inside h hr').2
  have := (h.rows r hr').1
  exact ⟨r, hr', ⟨rfl, rfl, rfl⟩, rfl, (hP r.y (by omega)).1, rfl, rfl⟩

/-- No two cells overlap, and none leaves the table at its top or bottom. -/
theorem C149_apart {t : Table} {rs : List Rect} (h : Cells t rs) (hsx : 0 ≤ t.sx) (hsy : 0 ≤ t.sy) {st st' : Keep} {inp : Input} {out : Out}
    (hw : Whole inp) (hr : Reached t st) (he : run t st inp = some (st', out)) (hcol : ∀ j, 0 ≤ entry out.cols j) :
    (∀ p ∈ out.cells, ∀ q ∈ out.cells, p ≠ q → Apart p q) ∧ ∀ p ∈ out.cells, inp.y + t.sy ≤ p.y ∧ p.y + p.h ≤ inp.y + out.height := by
  obtain ⟨s, -, hb, -⟩ := whole_band h hsy hw hr he
  exact ⟨band_apart h hsx (fun j _ => hcol j) hb, hb.within⟩

example : ∃ st' out, run spansTable {} { knownX := some 100 } = some (st', out) ∧ (∀ j, 0 ≤ entry out.cols j) ∧
    (∀ p ∈ out.cells, ∀ q ∈ out.cells, p ≠ q → Apart p q) ∧ Flows spansTable := by
  have hrun : run spansTable {} { knownX := some 100 } = some ((run spansTable {} { knownX := some 100 }).get (by decide +kernel)) := by simp
  have hc := (C144_columns (t := spansTable) rfl .new hrun).2
  exact ⟨_, _, hrun, hc, (C149_apart spans_cells spans_sane.sx spans_sane.sy ⟨rfl, rfl, rfl⟩ .new hrun hc).1,
    text_flows (mn := 10) (mx := 30) (area := 600) (by norm_num) (fun _ => rfl)⟩

/-! ## C150 -/

/-- A table that has been laid out in any ways, but not measured, comes out as if it had not been.
Partial: the automatic algorithm, paddings without percentages, no given height, the whole table. -/
theorem C150_history_partial {t : Table} {rs : List Rect} (h : Cells t rs) (hf : t.fixed = false) (hp : NoPercent t) {st st' : Keep}
    (hr : ReachedAuto t st) {inp : Input} (hm : inp.mode = .auto) (hw : Whole inp) (hk : inp.knownY = none) {out : Out}
    (he : run t st inp = some (st', out)) : ∃ st'', run t {} inp = some (st'', out) := by
  have := run_same h hf hp hr hm hw hk
  rw [he] at this
  cases hc : run t {} inp with
  | none => rw [hc] at this; cases this
  | some q =>
    rw [hc] at this
    simp only [Option.map_some, Option.some.injEq] at this
    exact ⟨q.1, by rw [← Prod.eta q, ← this]⟩

private def fixedTable : Table := { tbl [.row [c1 0]] (text 10 10 100) with fixed := true }

private theorem fixed_cells : Cells fixedTable [⟨c1 0, 0, 0, some 1⟩] := cells_check (by decide +kernel)

private theorem fixed_sane : Sane fixedTable :=
  ⟨by decide, by decide, fun id w u => by simp only [fixedTable, tbl, text]; split; exacts [by norm_num, div_nonneg (by norm_num) (by linarith)],
    fun _ => by simp [fixedTable, tbl, text]⟩

/-- With `table-layout: fixed` it is false: the widths of the first layout stay in front of the new ones. -/
theorem C150_fixed_fails : ¬∀ (t : Table) (rs : List Rect), Cells t rs → Sane t → NoPercent t → ∀ (st st' : Keep), ReachedAuto t st → ∀ inp : Input,
    inp.mode = .auto → Whole inp → inp.knownY = none → ∀ out, run t st inp = some (st', out) → ∃ st'', run t {} inp = some (st'', out) := by
  intro h
  have h1 : run fixedTable {} { knownX := some 100 } = some ((run fixedTable {} { knownX := some 100 }).get (by decide +kernel)) := by simp
  have h2 : run fixedTable ((run fixedTable {} { knownX := some 100 }).get (by decide +kernel)).1 { knownX := some 200 } =
    some ((run fixedTable ((run fixedTable {} { knownX := some 100 }).get (by decide +kernel)).1 { knownX := some 200 }).get (by decide +kernel)) := by simp
  obtain ⟨st'', h3⟩ := h fixedTable _ fixed_cells fixed_sane (fun _ _ _ => rfl) _ _ (.next .new rfl h1) { knownX := some 200 } rfl ⟨rfl, rfl, rfl⟩ rfl _ h2
  have h4 := congrArg (fun r => r.map fun q => q.2.cols) h3
  revert h4
  simp only [Option.map_some]
  decide +kernel

private def oneTable : Table := tbl [.row [c1 0]] (text 10 30 100)

private theorem one_cells : Cells oneTable [⟨c1 0, 0, 0, some 1⟩] := cells_check (by decide +kernel)

private theorem one_sane : Sane oneTable :=
  ⟨by decide, by decide, fun id w u => by simp only [oneTable, tbl, text]; split; exacts [by norm_num, div_nonneg (by norm_num) (by linarith)],
    fun _ => by norm_num [oneTable, tbl, text]⟩

/-- With a given height it is false: the rows that share what is missing are counted again with every
layout. -/
theorem C150_height_fails : ¬∀ (t : Table) (rs : List Rect), Cells t rs → Sane t → NoPercent t → t.fixed = false → ∀ (st st' : Keep), ReachedAuto t st →
    ∀ inp : Input, inp.mode = .auto → Whole inp → ∀ out, run t st inp = some (st', out) → ∃ st'', run t {} inp = some (st'', out) := by
  intro h
  have h1 : run oneTable {} { knownX := some 100, knownY := some 50 } = some ((run oneTable {} { knownX := some 100, knownY := some 50 }).get (by decide +kernel)) := by simp
  have h2 : run oneTable ((run oneTable {} { knownX := some 100, knownY := some 50 }).get (by decide +kernel)).1 { knownX := some 100, knownY := some 50 } =
    some ((run oneTable ((run oneTable {} { knownX := some 100, knownY := some 50 }).get (by decide +kernel)).1 { knownX := some 100, knownY := some 50 }).get (by decide +kernel)) := by simp
  obtain ⟨st'', h3⟩ := h oneTable _ one_cells one_sane (fun _ _ _ => rfl) rfl _ _ (.next .new rfl h1) { knownX := some 100, knownY := some 50 } rfl ⟨rfl, rfl, rfl⟩ _ h2
  have h4 := congrArg (fun r => r.map fun q => q.2.height) h3
  revert h4
  simp only [Option.map_some]
  decide +kernel

/-- When the table has been measured in between it is false: the layout takes the widths of the
measuring for its own. -/
theorem C150_measured_fails : ¬∀ (t : Table) (rs : List Rect), Cells t rs → Sane t → NoPercent t → t.fixed = false → ∀ (st st' : Keep), Reached t st →
    ∀ inp : Input, inp.mode = .auto → Whole inp → inp.knownY = none → ∀ out, run t st inp = some (st', out) → ∃ st'', run t {} inp = some (st'', out) := by
  intro h
  have h1 : run oneTable {} { knownX := some 100 } = some ((run oneTable {} { knownX := some 100 }).get (by decide +kernel)) := by simp
  have h2 : run oneTable ((run oneTable {} { knownX := some 100 }).get (by decide +kernel)).1 { mode := .min } =
    some ((run oneTable ((run oneTable {} { knownX := some 100 }).get (by decide +kernel)).1 { mode := .min }).get (by decide +kernel)) := by simp
  have h3 : run oneTable ((run oneTable ((run oneTable {} { knownX := some 100 }).get (by decide +kernel)).1 { mode := .min }).get (by decide +kernel)).1 { knownX := some 100 } =
    some ((run oneTable ((run oneTable ((run oneTable {} { knownX := some 100 }).get (by decide +kernel)).1 { mode := .min }).get (by decide +kernel)).1 { knownX := some 100 }).get (by decide +kernel)) := by simp
  obtain ⟨st'', h4⟩ := h oneTable _ one_cells one_sane (fun _ _ _ => rfl) rfl _ _ (.next (.next .new h1) h2) { knownX := some 100 } rfl ⟨rfl, rfl, rfl⟩ rfl _ h3
  have h5 := congrArg (fun r => r.map fun q => q.2.width) h4
  revert h5
  simp only [Option.map_some]
  decide +kernel

example : ∃ st, ReachedAuto oneTable st ∧ st ≠ {} ∧ ((run oneTable st { knownX := some 60 }).map fun q => q.2.width) = some 60 := by
  have h1 : run oneTable {} { knownX := some 100 } = some ((run oneTable {} { knownX := some 100 }).get (by decide +kernel)) := by simp
  exact ⟨_, .next .new rfl h1, by decide +kernel, by decide +kernel⟩

/-! ## C151 -/

/-- A table with as many rows as its grid, in each of which a cell ends, that is laid out for the first
time with a height no less than it has by itself: it has that height, and no row gets lower. Partial:
see the refutations. -/
theorem C151_height_partial {t : Table} {rs : List Rect} (h : Cells t rs) (hs : Sane t) (hrows : t.rows.length = t.grid.h)
    (hd : ∀ i, i < t.grid.h → ∃ r ∈ rs, r.y + r.cell.rowSpan = i + 1) {inp : Input} (hw : Whole inp) (h0 : inp.knownY = none) {k : Rat}
    {st1 st2 : Keep} {own out : Out} (he0 : run t {} inp = some (st1, own)) (he : run t {} { inp with knownY := some k } = some (st2, out))
    (hk : own.height ≤ k) : out.height = k ∧ ∀ i, entry own.rows i ≤ entry out.rows i :=
  given_height h hs hrows hd hw h0 he0 he hk

/-- The next layout does not give it that height. -/
theorem C151_again_fails : ¬∀ (t : Table) (rs : List Rect), Cells t rs → Sane t → NoPercent t → t.fixed = false → t.rows.length = t.grid.h →
    (∀ i, i < t.grid.h → ∃ r ∈ rs, r.y + r.cell.rowSpan = i + 1) → ∀ (st : Keep), ReachedAuto t st → ∀ (inp : Input) (k : Rat) (st1 st2 : Keep) (own out : Out),
    inp.mode = .auto → Whole inp → inp.knownY = none → run t {} inp = some (st1, own) → run t st { inp with knownY := some k } = some (st2, out) →
    own.height ≤ k → out.height = k := by
  intro h
  have h0 : run oneTable {} { knownX := some 100 } = some ((run oneTable {} { knownX := some 100 }).get (by decide +kernel)) := by simp
  have h2 : run oneTable ((run oneTable {} { knownX := some 100 }).get (by decide +kernel)).1 { knownX := some 100, knownY := some 50 } =
    some ((run oneTable ((run oneTable {} { knownX := some 100 }).get (by decide +kernel)).1 { knownX := some 100, knownY := some 50 }).get (by decide +kernel)) := by simp
  have := h oneTable _ one_cells one_sane (fun _ _ _ => rfl) rfl (by decide +kernel) (by decide +kernel) _ (.next .new rfl h0) { knownX := some 100 } 50 _ _ _ _
    rfl ⟨rfl, rfl, rfl⟩ rfl h0 h2 (by decide +kernel)
  revert this
  decide +kernel

/-- Rows that stand in the table itself are not among the rows that are counted: with them, the layout
divides by zero. -/
theorem C151_rows_fails : ¬∀ (t : Table) (rs : List Rect), Cells t rs → Sane t → NoPercent t → t.fixed = false → ∀ (inp : Input) (k : Rat),
    inp.mode = .auto → Whole inp → (run t {} inp).isSome → (run t {} { inp with knownY := some k }).isSome := by
  intro h
  have := h { oneTable with rows := [] } _ (cells_check (rs := [⟨c1 0, 0, 0, some 1⟩]) (by decide +kernel)) ⟨one_sane.sx, one_sane.sy, one_sane.tall, one_sane.content⟩ (fun _ _ _ => rfl) rfl
    { knownX := some 100 } 50 rfl ⟨rfl, rfl, rfl⟩ (by decide +kernel)
  revert this
  decide +kernel

/-- And such a table comes from `<table><tr><td>` in XHTML, or from boxes made with `display`. -/
example : (Verif.Table.build [.row [c1 0]]).map (·.rows) = some [] := by decide +kernel

example : look (run spansTable {} { knownX := some 100, knownY := some 60 }) =
    [[100, 60], [100 / 3, 100 / 3, 100 / 3], [51 / 2, 51 / 2], [2, 112 / 3, 3, 100 / 3, 51 / 2], [3, 218 / 3, 3, 100 / 3, 51 / 2],
      [1, 2, 3, 100 / 3, 54], [4, 112 / 3, 63 / 2, 206 / 3, 51 / 2]] := by decide +kernel

/-! ## C152 -/

/-- No cell reaches across the top of this row. -/
def CutAt (rs : List Rect) (i : Nat) : Prop := ∀ r ∈ rs, r.y + r.cell.rowSpan ≤ i ∨ i ≤ r.y

/-- A page with the rows from `start` to `e`, counted behind the header when header and footer are
repeated: no two cells on it overlap. Partial: no cell is cut by the page, the header or the footer, and
no row of the footer is higher than the row with the same number from the top. -/
theorem C152_page_partial {t : Table} {rs : List Rect} (h : Cells t rs) (hf : t.fixed = false) (hsx : 0 ≤ t.sx) (hsy : 0 ≤ t.sy)
    {st st' : Keep} {inp : Input} {out : Out} (hr : Reached t st) (he : run t st inp = some (st', out))
    (hrow : ∀ i, 0 ≤ entry out.rows i) {e : Nat} (hstop : inp.stop = some e) (hse : inp.start ≤ e) (heh : t.heads + e + t.feet ≤ t.grid.h)
    (hc : CutAt rs inp.start ∧ CutAt rs e) (hd : CutAt rs t.heads ∧ CutAt rs (inp.start + t.heads) ∧ CutAt rs (t.heads + e) ∧ CutAt rs (t.grid.h - t.feet))
    (hfoot : ∀ k, k < t.feet → entry out.rows (t.grid.h - t.feet + k) ≤ entry out.rows k) :
    (∀ p ∈ out.cells, ∀ q ∈ out.cells, p ≠ q → Apart p q) ∧ ∀ p ∈ out.cells, inp.y ≤ p.y ∧ p.y + p.h ≤ inp.y + out.height :=
  page_apart h hf hsx hsy hr he hrow hstop hse heh hc.1 hc.2 hd.1 hd.2.1 hd.2.2.1 hd.2.2.2 hfoot

/-- Header and footer are on every page when they are low enough for it: a quarter of the page each,
and together, the footer taken twice, no more than the page. -/
theorem C152_repeated {t : Table} {rs : List Rect} (h : Cells t rs) {st st' : Keep} {inp : Input} {out : Out} (hr : Reached t st)
    (he : run t st inp = some (st', out)) {page : Rat} (hp : inp.page = some page) (hht : t.heads + t.feet ≤ t.grid.h)
    {head foot : Rat} (hhead : total (entry out.rows) 0 t.heads + t.sy * (t.heads + 1) ≤ head)
    (hfoot : total (entry out.rows) (t.grid.h - t.feet) t.feet + t.sy * (t.heads + 1) ≤ foot) (h0 : 0 ≤ head) (h1 : 0 ≤ foot)
    (h4 : head * 4 ≤ page ∧ foot * 4 ≤ page) (h2 : head + foot * 2 ≤ page) :
    ∀ r ∈ rs, r.y + r.cell.rowSpan ≤ t.heads ∨ t.grid.h - t.feet ≤ r.y → ∃ p ∈ out.cells, Of p r :=
  repeated h hr he hp hht hhead hfoot h0 h1 h4 h2

/-- One column: a row of the header, one of the body, two of the footer, which are higher. -/
private def footed : Table :=
  { tbl [.row [c1 0], .row [c1 1], .row [c1 2], .row [c1 3]] (text 10 30 0) with
    heads := 1, feet := 2
    box := fun id => { text 10 30 0 with tall := fun _ _ => if id ≤ 1 then 1 else 50 } }

/-- Without the condition on the footer it is false: its rows are as far apart as the first rows of the
table are high. -/
theorem C152_page_fails : ¬∀ (t : Table) (rs : List Rect), Cells t rs → Sane t → NoPercent t → t.fixed = false → ∀ (inp : Input) (st' : Keep) (out : Out) (e : Nat),
    run t {} inp = some (st', out) → inp.stop = some e → inp.start ≤ e → t.heads + e + t.feet ≤ t.grid.h → (∀ i, CutAt rs i) → (∀ i, i < t.grid.h → 0 ≤ entry out.rows i) →
    ∀ p ∈ out.cells, ∀ q ∈ out.cells, p ≠ q → p.x + p.w ≤ q.x ∨ q.x + q.w ≤ p.x ∨ p.y + p.h ≤ q.y ∨ q.y + q.h ≤ p.y := by
  intro h
  have h1 : run footed {} { knownX := some 100, page := some 1000, stop := some 1 } = some ((run footed {} { knownX := some 100, page := some 1000, stop := some 1 }).get (by decide +kernel)) := by simp
  have := h footed [⟨c1 0, 0, 0, some 1⟩, ⟨c1 1, 0, 1, some 2⟩, ⟨c1 2, 0, 2, some 3⟩, ⟨c1 3, 0, 3, some 4⟩] (cells_check (by decide +kernel))
    ⟨by decide, by decide, fun id w u => by simp only [footed, tbl, text]; split <;> norm_num, fun _ => by norm_num [footed, tbl, text]⟩
    (fun _ _ _ => rfl) rfl _ _ _ 1 h1 rfl (by decide) (by decide +kernel)
    (fun i r hr => by simp only [List.mem_cons, List.not_mem_nil, or_false] at hr; rcases hr with rfl | rfl | rfl | rfl <;> simp only [c1] <;> omega)
    (by decide +kernel)
  revert this
  decide +kernel

/-- The same with rows of one height: the second body row, between header and footer. -/
private def even : Table :=
  { tbl [.row [c1 0], .row [c1 1], .row [c1 2], .row [c1 3], .row [c1 4]] (text 10 30 0) with
    heads := 1, feet := 2, sy := 2, box := fun _ => { text 10 30 0 with tall := fun _ _ => 10 } }

private def evenCells : List Rect := [⟨c1 0, 0, 0, some 1⟩, ⟨c1 1, 0, 1, some 2⟩, ⟨c1 2, 0, 2, some 3⟩, ⟨c1 3, 0, 3, some 4⟩, ⟨c1 4, 0, 4, some 5⟩]

example : Cells even evenCells ∧ (∀ i, CutAt evenCells i) ∧
    look (run even {} { knownX := some 100, page := some 1000, start := 1, stop := some 2 }) =
      [[100, 50], [100], [10, 10, 10, 10, 10], [0, 0, 2, 100, 10], [2, 0, 14, 100, 10], [3, 0, 26, 100, 10], [4, 0, 38, 100, 10]] :=
  ⟨cells_check (by decide +kernel),
    fun i r hr => by simp only [evenCells, List.mem_cons, List.not_mem_nil, or_false] at hr; rcases hr with rfl | rfl | rfl | rfl | rfl <;> simp only [c1] <;> omega,
    by decide +kernel⟩

/-! ## C153 -/

/-- The layout of a table does not break down. Partial: the automatic algorithm, no empty group of
columns, no cell with `rowspan=0`, and with a given height a row that is counted. -/
theorem C153_total_partial {t : Table} {rs : List Rect} (h : Cells t rs) {st : Keep} {inp : Input} (hf : t.fixed = false ∨ inp.knownX = none)
    (hg : ∀ g ∈ t.colGroups, g.1.start ≤ g.1.last) (hc : inp.capmin ≠ none) (hk : inp.knownY = none ∨ t.rows ≠ []) : (run t st inp).isSome :=
  never_stuck h hf hg hc hk

/-- A group of columns without columns, of one column, that says its width: a division by zero. -/
theorem C153_group_fails : ¬∀ (t : Table) (rs : List Rect), Cells t rs → Sane t → NoPercent t → t.fixed = false → ∀ inp : Input, inp.capmin ≠ none → inp.knownY = none →
    (run t {} inp).isSome := by
  intro h
  have := h { oneTable with colGroups := [(⟨1, 0⟩, some fun _ => 40)] } _ (cells_check (rs := [⟨c1 0, 0, 0, some 1⟩]) (by decide +kernel)) ⟨one_sane.sx, one_sane.sy, one_sane.tall, one_sane.content⟩ (fun _ _ _ => rfl) rfl
    { knownX := some 100 } (by simp) rfl
  revert this
  decide +kernel

/-- The range of columns of that group, as it is when the table is formed. -/
example : (Verif.Table.build [.colGroup [] 1, .row [c1 0]]).map (·.colGroups) = some [⟨1, 0⟩] := by decide +kernel

/-- With `table-layout: fixed`: columns without rows, and columns that all say they have no width. -/
theorem C153_fixed_fails :
    (∃ t : Table, Cells t [] ∧ t.fixed = true ∧ run t {} { knownX := some 100 } = none) ∧
    ∃ t : Table, Cells t [⟨c1 0, 0, 0, some 1⟩] ∧ t.fixed = true ∧ run t {} { knownX := some 100 } = none :=
  ⟨⟨{ tbl [.colGroup [1] 1] (text 10 10 10) with fixed := true }, cells_check (by decide +kernel), rfl, by decide +kernel⟩,
    ⟨{ fixedTable with cols := [(⟨0, 0⟩, some fun _ => 0)] }, cells_check (by decide +kernel), rfl, by decide +kernel⟩⟩

/-- A cell with `rowspan=0`. -/
theorem C153_zero_fails : run (tbl [.body [[⟨0, 0, 1⟩]]] (text 10 10 10)) {} { knownX := some 100 } = none := by decide +kernel

end Verif.Cells
