import Verif.Table.AxisLemmas
/-!
# Tables: theorems

C28 cells are placed as HTML says, C29 cells that span to the end of their group, C30 conflicting
borders, C71 no table panics, C72 ranges of columns, C73 ranges of rows, C74 resolving the borders
ends, C75 the span attributes.
-/
namespace Verif.Table
open Spec

/-- A cell of one slot. -/
private def c1 (id : Nat) : Cell := ⟨id, 1, 1⟩

/-! ## C71 -/

/-- Forming a table never reads or writes outside of the grid, whatever rows, groups, columns and
spans it has. -/
theorem C71_never_panics (items : List Item) : ∃ st, build items = some st := by
  obtain ⟨st, b, h, -, -⟩ := build_segs items
  exact ⟨st, h⟩

/-- What "panics" means: the accesses fail exactly outside of the size of the grid. -/
theorem C71_checked (g : Grid) (x y : Nat) (s : Slot) :
    ((g.get x y).isSome ↔ x < g.w ∧ y < g.h) ∧ ((g.set x y s).isSome ↔ x < g.w ∧ y < g.h) := by
  unfold Grid.get Grid.set
  constructor <;> split <;> simp <;> omega

example : ((build [.row [⟨1, 2, 2⟩]]).bind fun st => st.core.grid.get 2 0) = none := by decide

/-! ## C28 -/

/-- Where the code treats `rowspan=0` right (`Tame`; every table without `rowspan=0` is), the cells are
placed as HTML says: each at the first slot of its row no earlier cell covers, and the grid shows
exactly these rectangles. -/
theorem C28_cells_placed_partial (items : List Item) (hv : ∀ g ∈ groups items, ValidRows g)
    (ht : Tame (Ended items) (groups items)) :
    ∃ st rs, build items = some st ∧ Placed [] 0 (groups items) rs st.core.grid.h ∧ Shows st.core.grid rs := by
  obtain ⟨st, b, hb, hE, hr⟩ := build_segs items
  have hbl := start_blank items
  have ht' : Tame (b = true) (groups items) := by rw [propext hE]; exact ht
  obtain ⟨k, rs, e, hp, hi, hcl⟩ := segs_inv b (groups items) (st := start items) (above := []) hv ht'
    ⟨fun x y _ hy => by rw [hbl.h] at hy; omega, by simp, by simp⟩ (by simp) hbl.grow (by rw [hbl.cy, hbl.h])
  rw [hr] at e
  cases e
  refine ⟨st, rs, hb, ?_, shows_of_inv (by simpa using hi) (by simpa using hcl)⟩
  rw [hbl.cy] at hp
  exact hp

/-- Tables without `rowspan=0` are all covered. -/
theorem C28_no_zero_tame (ended : Prop) (gs : List (List (List Cell))) (h : ∀ g ∈ gs, ¬HasZero g) : Tame ended gs := by
  induction gs with
  | nil => trivial
  | cons g gs ih =>
    have h0 := h g (List.mem_cons_self ..)
    cases gs with
    | nil => intro hz; exact absurd hz h0
    | cons g' gs => exact ⟨fun hz => absurd hz h0, ih (fun g hg => h g (List.mem_cons_of_mem _ hg))⟩

/-- Every cell of the table has its rectangle, in order. -/
theorem C28_no_cell_lost {gs : List (List (List Cell))} {rs : List Rect} {h : Nat} (hp : Placed [] 0 gs rs h) :
    rs.map Rect.cell = gs.flatten.flatten := placed_cells hp

/-- A slot two cells share is one where the second one is wide and runs into the first one, which
reaches down from an earlier row. -/
theorem C28_overlaps {gs : List (List (List Cell))} {rs : List Rect} {h : Nat} (hp : Placed [] 0 gs rs h) :
    rs.Pairwise fun a r => ∀ x y, a.Covers x y → r.Covers x y → a.y < r.y ∧ r.x < x ∧ a.Covers x r.y :=
  (placed_clash hp (by simp)).2

/-- Two rows of a header, a body whose first cell spans two rows and whose last one goes down to its
end, a footer. -/
private def sample : List Item :=
  [.colGroup [1] 1, .foot [[⟨9, 1, 3⟩]], .body [[⟨1, 2, 1⟩, c1 2, ⟨3, 0, 1⟩], [⟨4, 2, 1⟩]], .head [[c1 7, c1 8]]]

example : (∀ g ∈ groups sample, ValidRows g) ∧ Tame (Ended sample) (groups sample) ∧
    ((build sample).map fun st => (st.core.grid.w, st.core.grid.h,
      (List.range 5).map fun y => (List.range 3).map fun x => ((st.core.grid.slot x y).box.map Cell.id).getD 0)) =
      some (3, 5, [[7, 8, 0], [1, 2, 3], [1, 4, 3], [0, 4, 3], [9, 9, 9]]) := by
  refine ⟨?_, ?_, by decide⟩
  · unfold ValidRows; decide
  · refine ⟨?_, fun _ => by decide, ?_⟩
    · rintro ⟨row, hr, c, hc, hz⟩; revert row c; decide
    · intro _; left; decide

/-- The witness of C28 and C29: a body with a cell that goes down to its end, and another body. -/
private def leak : List Item := [.body [[⟨1, 0, 1⟩]], .body [[c1 2]]]

/-- Without the condition on `rowspan=0` it is false. -/
theorem C28_cells_placed_fails : ¬∀ items : List Item, (∀ g ∈ groups items, ValidRows g) →
    ∃ st rs, build items = some st ∧ Placed [] 0 (groups items) rs st.core.grid.h ∧ Shows st.core.grid rs := by
  intro h
  obtain ⟨st, rs, hb, hp, hs⟩ := h leak (by unfold ValidRows; decide)
  have hslot : st.core.grid.slot 0 1 = ⟨0, 0, some ⟨1, 0, 1⟩⟩ ∧ 0 < st.core.grid.w ∧ 1 < st.core.grid.h := by
    have : (build leak).map (fun st => (st.core.grid.slot 0 1, decide (0 < st.core.grid.w), decide (1 < st.core.grid.h))) =
        some (⟨0, 0, some ⟨1, 0, 1⟩⟩, true, true) := by decide
    rw [hb] at this
    simpa using this
  have hcov : ∃ r ∈ rs, r.cell.id = 1 ∧ r.Covers 0 1 := by
    rcases hs.slots 0 1 hslot.2.1 hslot.2.2 with ⟨h1, -⟩ | ⟨r, hr, hc, he⟩
    · rw [hslot.1] at h1; cases h1
    · refine ⟨r, hr, ?_, hc⟩
      rw [hslot.1] at he
      simp only [Slot.mk.injEq, Option.some.injEq] at he
      rw [← he.2.2]
  obtain ⟨r, hr, hid, hc⟩ := hcov
  have hg : groups leak = [[[⟨1, 0, 1⟩]], [[c1 2]]] := by decide
  rw [hg] at hp
  cases hp with
  | @cons _ _ _ _ _ _ e _ h1 h2 h3 =>
    cases h1 with
    | cons a1 a2 =>
      cases a2
      cases a1 with
      | cons b1 b2 b3 b4 =>
        cases b4
        cases h3 with
        | cons k1 k2 k3 =>
          cases k3
          cases k1 with
          | cons l1 l2 =>
            cases l2
            cases l1 with
            | cons m1 m2 m3 m4 =>
              cases m4
              have he : e = 1 := by
                rcases h2.2.2 with h | ⟨q, hq, hb⟩
                · simpa using h
                · simp [rectAt] at hq; subst hq; simp at hb
              subst he
              simp [rectAt, Rect.close, c1] at hr
              rcases hr with rfl | rfl
              · have := hc.2.2.2 1 rfl
                omega
              · simp at hid

/-! ## C29 -/

/-- The table, cut at one group. -/
theorem placed_split {A B : List (List (List Cell))} {g : List (List Cell)} {above rs : List Rect} {y h : Nat}
    (hp : Placed above y (A ++ g :: B) rs h) (ha : ∀ a ∈ above, a.y < y ∧ ∃ b, a.bottom = some b ∧ b ≤ y) :
    ∃ rsA rsg rsB y' e, rs = rsA ++ rsg.map (Rect.close e) ++ rsB ∧ RowsPlaced (above ++ rsA) y' g rsg ∧
      (∀ a ∈ above ++ rsA, a.y < y' ∧ ∃ b, a.bottom = some b ∧ b ≤ y') ∧
      IsEnd e (y' + g.length) rsg ∧ ∀ r ∈ rsB, e ≤ r.y := by
  induction A generalizing above y rs with
  | nil =>
    cases hp with
    | @cons _ _ _ _ rs1 rs2 e _ h1 h2 h3 =>
      refine ⟨[], rs1, rs2, y, e, rfl, by simpa using h1, by simpa using ha, h2, ?_⟩
      refine (placed_clash h3 ?_).1
      have hle := h2.1
      obtain ⟨i1, -, -⟩ := rowsPlaced_clash h1 (fun a h => (ha a h).1)
      intro a ha'
      rcases List.mem_append.mp ha' with h' | h'
      · obtain ⟨k1, b, k2, k3⟩ := ha a h'
        exact ⟨by omega, b, k2, by omega⟩
      · obtain ⟨r, hr, rfl⟩ := List.mem_map.mp h'
        have := i1 r hr
        refine ⟨by simp only [Rect.close]; omega, r.bottom.getD e, rfl, ?_⟩
        cases hb : r.bottom with
        | none => simp
        | some b => exact h2.2.1 r hr b hb
  | cons a A ih =>
    cases hp with
    | @cons _ _ _ _ rs1 rs2 e _ h1 h2 h3 =>
      have hle := h2.1
      obtain ⟨i1, -, -⟩ := rowsPlaced_clash h1 (fun a h => (ha a h).1)
      obtain ⟨rsA, rsg, rsB, y', e', k1, k2, k3, k4, k5⟩ := ih h3 (by
        intro a ha'
        rcases List.mem_append.mp ha' with h' | h'
        · obtain ⟨k1, b, k2, k3⟩ := ha a h'
          exact ⟨by omega, b, k2, by omega⟩
        · obtain ⟨r, hr, rfl⟩ := List.mem_map.mp h'
          have := i1 r hr
          refine ⟨by simp only [Rect.close]; omega, r.bottom.getD e, rfl, ?_⟩
          cases hb : r.bottom with
          | none => simp
          | some b => exact h2.2.1 r hr b hb)
      refine ⟨rs1.map (Rect.close e) ++ rsA, rsg, rsB, y', e', by simp [k1], by simpa using k2, by simpa using k3, k4, k5⟩

theorem rowPlaced_open {above : List Rect} {y x : Nat} {cs : List Cell} {rs : List Rect} (h : RowPlaced above y x cs rs)
    (r : Rect) (hr : r ∈ rs) : r.bottom = if r.cell.rowSpan = 0 then none else some (r.y + r.cell.rowSpan) := by
  induction h with
  | nil => cases hr
  | cons h1 h2 h3 h4 ih =>
    rcases List.mem_cons.mp hr with rfl | hr
    · rfl
    · exact ih hr

theorem rowsPlaced_open {above : List Rect} {y : Nat} {rows : List (List Cell)} {rs : List Rect} (h : RowsPlaced above y rows rs)
    (r : Rect) (hr : r ∈ rs) : r.bottom = if r.cell.rowSpan = 0 then none else some (r.y + r.cell.rowSpan) := by
  induction h with
  | nil => cases hr
  | cons h1 h2 ih =>
    rcases List.mem_append.mp hr with hr | hr
    · exact rowPlaced_open h1 r hr
    · exact ih hr

/-- Where the code gets it right, the cells of a group that go down to its end stop at the first row
`e` below it (below its last row and everything the cells of the group reach into), the groups before
stop at its first row and the groups behind begin at `e`. -/
theorem C29_to_the_end_partial (items : List Item) (A B : List (List (List Cell))) (g : List (List Cell))
    (hg : groups items = A ++ g :: B) (hv : ∀ g ∈ groups items, ValidRows g) (ht : Tame (Ended items) (groups items)) :
    ∃ st before own behind y e, build items = some st ∧ Shows st.core.grid (before ++ own ++ behind) ∧
      own.map Rect.cell = g.flatten ∧ y + g.length ≤ e ∧
      (∀ r ∈ own, y ≤ r.y ∧ r.y < y + g.length ∧ (r.cell.rowSpan = 0 → r.bottom = some e)) ∧
      (e = y + g.length ∨ ∃ r ∈ own, r.cell.rowSpan ≠ 0 ∧ r.bottom = some e) ∧
      (∀ r ∈ own, r.cell.rowSpan ≠ 0 → r.bottom = some (r.y + r.cell.rowSpan) ∧ r.y + r.cell.rowSpan ≤ e) ∧
      (∀ r ∈ before, ∃ b, r.bottom = some b ∧ b ≤ y) ∧ (∀ r ∈ behind, e ≤ r.y) := by
  obtain ⟨st, rs, hb, hp, hs⟩ := C28_cells_placed_partial items hv ht
  rw [hg] at hp
  obtain ⟨rsA, rsg, rsB, y, e, k1, k2, k3, k4, k5⟩ := placed_split hp (by simp)
  obtain ⟨i1, -, -⟩ := rowsPlaced_clash k2 (fun a h => (k3 a h).1)
  refine ⟨st, rsA, rsg.map (Rect.close e), rsB, y, e, hb, k1 ▸ hs, ?_, k4.1, ?_, ?_, ?_, ?_, k5⟩
  · rw [← rowsPlaced_cells k2, List.map_map]; rfl
  · intro r hr
    obtain ⟨q, hq, rfl⟩ := List.mem_map.mp hr
    refine ⟨(i1 q hq).1, (i1 q hq).2, ?_⟩
    intro hz
    have := rowsPlaced_open k2 q hq
    rw [if_pos (show q.cell.rowSpan = 0 from hz)] at this
    simp [Rect.close, this]
  · rcases k4.2.2 with h | ⟨q, hq, hb⟩
    · exact .inl h
    · right
      refine ⟨_, List.mem_map_of_mem hq, ?_, by simp [Rect.close, hb]⟩
      have := rowsPlaced_open k2 q hq
      intro hz
      rw [if_pos (show q.cell.rowSpan = 0 from hz), hb] at this
      cases this
  · intro r hr hz
    obtain ⟨q, hq, rfl⟩ := List.mem_map.mp hr
    have := rowsPlaced_open k2 q hq
    rw [if_neg (show ¬q.cell.rowSpan = 0 from hz)] at this
    exact ⟨by simp [Rect.close, this], k4.2.1 q hq _ this⟩
  · intro r hr
    exact (k3 r (by simpa using hr)).2

example : groups sample = [[[c1 7, c1 8]]] ++ [[⟨1, 2, 1⟩, c1 2, ⟨3, 0, 1⟩], [⟨4, 2, 1⟩]] :: [[[⟨9, 1, 3⟩]]] := by decide

/-- A cell that goes down to the end of its body goes on into the next one. -/
theorem C29_leaks_fails :
    (build leak).map (fun st => (st.core.grid.slot 0 0, st.core.grid.slot 0 1, st.core.grid.slot 1 1)) =
      some (⟨0, 0, some ⟨1, 0, 1⟩⟩, ⟨0, 0, some ⟨1, 0, 1⟩⟩, ⟨1, 1, some (c1 2)⟩) := by decide

/-- When another cell reaches two rows below the last one, it stops one row too early. -/
theorem C29_stops_early_fails :
    (build [.body [[⟨1, 0, 1⟩, ⟨2, 3, 1⟩]]]).map (fun st => (st.core.grid.h, (st.core.grid.slot 0 1).box, (st.core.grid.slot 0 2).box)) =
      some (3, some ⟨1, 0, 1⟩, none) := by decide

/-! ## C30 -/

/-- The border taken is the first one no other border wins over, but for the comparison of styles. -/
theorem C30_winner_partial (bs : List Border) (hv : ∃ b ∈ bs, 0 < b.width ∨ b.style = .hidden) :
    Winner false bs (harmonize bs) := harmonize_winner bs hv

/-- Where the styles of the borders of the greatest width do not differ, it is the one CSS says. -/
theorem C30_same_style_partial (bs : List Border) (hv : ∃ b ∈ bs, 0 < b.width ∨ b.style = .hidden)
    (hs : ∀ a ∈ bs, ∀ b ∈ bs, a.width = b.width → (a.style = .hidden ↔ b.style = .hidden) → a.style = b.style) :
    Winner true bs (harmonize bs) := by
  have h := harmonize_winner bs hv
  obtain ⟨l, r, hsplit, hl, hr⟩ := h
  have hm : harmonize bs ∈ bs := by
    have : harmonize bs ∈ l ++ harmonize bs :: r := by simp
    rwa [← hsplit] at this
  refine ⟨l, r, hsplit, ?_, ?_⟩
  · intro a ha
    have := hl a ha
    unfold Wins at *
    grind
  · intro a ha hw
    apply hr a ha
    have ha' : a ∈ bs := by rw [hsplit]; simp [ha]
    unfold Wins at *
    rcases hw with hw | ⟨h1, hw⟩
    · exact .inl hw
    · rcases hw with hw | ⟨hw1, -, hw2⟩
      · exact .inr ⟨h1, .inl hw⟩
      · have := hs a ha' _ hm hw1 h1
        rw [this] at hw2
        omega

/-- A hidden border is hidden for all. -/
theorem C30_hidden (bs : List Border) (h : ∃ b ∈ bs, b.style = .hidden) : (harmonize bs).style = .hidden :=
  harmonize_hidden bs _ (.inr h)

/-- Borders that have no width leave none. -/
theorem C30_none (bs : List Border) (h : ∀ b ∈ bs, b.width = 0 ∧ b.style ≠ .hidden) : harmonize bs = ⟨0, .none, 0⟩ := by
  obtain ⟨l, r, hsplit, hl, hr⟩ := harmonize_fold bs noBorder
  show bs.foldl harmonizeStep noBorder = noBorder
  cases l with
  | nil => exact (List.cons.inj hsplit).1.symm
  | cons d l =>
    exfalso
    simp only [List.cons_append, List.cons.injEq] at hsplit
    have h1 := hl d (List.mem_cons_self ..)
    have h2 := h (bs.foldl harmonizeStep noBorder) (by
      have : bs.foldl harmonizeStep noBorder ∈ l ++ bs.foldl harmonizeStep noBorder :: r := by simp
      rwa [← hsplit.2] at this)
    rw [← hsplit.1] at h1
    unfold Wins noBorder at h1
    unfold noBorder at h2
    grind

example : harmonize [⟨1, .solid, 1⟩, ⟨3, .dotted, 2⟩, ⟨3, .dotted, 3⟩, ⟨2, .double, 4⟩] = ⟨3, .dotted, 2⟩ ∧
    harmonize [⟨5, .solid, 1⟩, ⟨1, .hidden, 2⟩, ⟨9, .solid, 3⟩] = ⟨1, .hidden, 2⟩ := by decide

/-- The styles never decide: a double border loses against a solid one of the same width before it. -/
theorem C30_style_fails : ¬∀ bs : List Border, (∃ b ∈ bs, 0 < b.width ∨ b.style = .hidden) → Winner true bs (harmonize bs) := by
  intro h
  obtain ⟨l, r, hsplit, -, hr⟩ := h [⟨1, .solid, 1⟩, ⟨1, .double, 2⟩] (by decide)
  have he : harmonize [⟨1, .solid, 1⟩, ⟨1, .double, 2⟩] = ⟨1, .solid, 1⟩ := by decide
  rw [he] at hsplit hr
  match l, r, hsplit with
  | [], [b], hs =>
    simp only [List.nil_append, List.cons.injEq, and_true, true_and] at hs
    apply hr b (by simp)
    rw [← hs]
    simp [Wins, strength]
  | [a], [], hs => simp at hs
  | [], b :: c :: r, hs => simp at hs
  | [a], b :: r, hs => simp at hs
  | a :: b :: l, r, hs => simp at hs

/-! ## C72 -/

/-- The columns have the ranges their spans say. The column groups have them if they all hold columns. -/
theorem C72_columns_partial (items : List Item) : ∃ st, build items = some st ∧
    st.cols = columnRanges 0 (leading items) ∧
    ((∀ g ∈ leading items, g.1 ≠ []) → st.colGroups = ranges 0 ((leading items).map spanned)) := by
  obtain ⟨st, hb⟩ := C71_never_panics items
  obtain ⟨h1, h2⟩ := build_cols items st hb
  obtain ⟨k1, k2⟩ := colGroups_spec items {}
  refine ⟨st, hb, ?_, ?_⟩
  · rw [h1, k1]; rfl
  · intro hg; rw [h2, k2 hg]; rfl

example : (build [.colGroup [1, 2] 1, .colGroup [1] 1, .row [c1 1]]).map (fun st => (st.cols, st.colGroups)) =
    some ([⟨0, 0⟩, ⟨1, 2⟩, ⟨3, 3⟩], [⟨0, 2⟩, ⟨3, 3⟩]) := by decide

/-- A column group that has only a span loses its first column. -/
theorem C72_colgroup_span_fails : ¬∀ items : List Item, ∀ st, build items = some st →
    st.colGroups = ranges 0 ((leading items).map spanned) := by
  intro h
  have e : (build [.colGroup [] 2]).map (·.colGroups) = some [⟨1, 1⟩] := by decide
  obtain ⟨st, hb⟩ := C71_never_panics [.colGroup [] 2]
  have := h _ st hb
  rw [hb] at e
  simp only [Option.map_some, Option.some.injEq] at e
  rw [e] at this
  exact absurd this (by decide)

/-! ## C73 -/

/-- In a table made of groups in which no cell spans several rows, every row has the range of its own
row. -/
theorem C73_rows_partial (items : List Item) (hg : ∀ i ∈ items, ∀ cells, i ≠ .row cells) (h1 : ∀ g ∈ groups items, OneRow g) :
    ∃ st, build items = some st ∧ st.rows = ownRows 0 (groups items).flatten.length := build_own items hg h1

example : (build [.foot [[c1 5]], .body [[c1 1, ⟨2, 0, 2⟩], [c1 3]]]).map (·.rows) = some [⟨0, 0⟩, ⟨1, 1⟩, ⟨2, 2⟩] := by decide

/-- With a cell of two rows, the first row takes both and the second one none. -/
theorem C73_row_span_fails : ¬∀ items : List Item, (∀ i ∈ items, ∀ cells, i ≠ .row cells) → ∀ st, build items = some st →
    st.rows = ownRows 0 (groups items).flatten.length := by
  intro h
  have e : (build [.body [[⟨1, 2, 1⟩, c1 2], [c1 3]]]).map (·.rows) = some [⟨0, 1⟩, ⟨2, 1⟩] := by decide
  obtain ⟨st, hb⟩ := C71_never_panics [.body [[⟨1, 2, 1⟩, c1 2], [c1 3]]]
  have := h _ (by simp) st hb
  rw [hb] at e
  simp only [Option.map_some, Option.some.injEq] at e
  rw [e] at this
  exact absurd this (by decide)

/-- Rows that stand in the table itself have no range at all. -/
theorem C73_direct_row_fails : (build [.row [c1 1]]).map (·.rows) = some [] := by decide

/-! ## C74 -/

/-- In a table without `rowspan=0`, the loop over a column that gives the cells their outer border
ends. -/
theorem C74_edge_ends_partial (items : List Item) (hv : ∀ g ∈ groups items, ValidRows g)
    (hz : ∀ g ∈ groups items, ¬HasZero g) :
    ∃ st, build items = some st ∧ ∀ j, j < st.core.grid.w → ∃ n l, verticalEdge st.core.grid j n 0 = some l := by
  obtain ⟨st, rs, hb, hp, hs⟩ := C28_cells_placed_partial items hv (C28_no_zero_tame _ _ hz)
  refine ⟨st, hb, ?_⟩
  intro j hj
  refine ⟨st.core.grid.h + 1, verticalEdge_ends st.core.grid j hj ?_ _ 0 (by omega)⟩
  intro i hi c hc
  rcases hs.slots j i hj hi with ⟨h1, -⟩ | ⟨r, hr, -, he⟩
  · rw [h1] at hc; cases hc
  · rw [he] at hc
    simp only [Option.some.injEq] at hc
    have hm : c ∈ (groups items).flatten.flatten := by
      rw [← placed_cells hp, ← hc]; exact List.mem_map_of_mem hr
    obtain ⟨row, hrow, hcr⟩ := List.mem_flatten.mp hm
    obtain ⟨g, hg, hrg⟩ := List.mem_flatten.mp hrow
    rcases Nat.eq_zero_or_pos c.rowSpan with h0 | h0
    · exact absurd ⟨row, hrg, c, hcr, h0⟩ (hz g hg)
    · exact h0

example : (build [.body [[⟨1, 2, 1⟩, c1 2], [c1 3], [c1 4]]]).bind (fun st => verticalEdge st.core.grid 0 9 0) = some [0, 2] := by decide

/-- With `rowspan=0` it goes round for ever. -/
theorem C74_edge_ends_fails : ¬∀ items : List Item, ∀ st, build items = some st → ∀ j, j < st.core.grid.w →
    ∃ n l, verticalEdge st.core.grid j n 0 = some l := by
  intro h
  obtain ⟨st, hb⟩ := C71_never_panics [.body [[⟨1, 0, 1⟩]]]
  have e : (build [.body [[⟨1, 0, 1⟩]]]).map (fun st => (st.core.grid.w, st.core.grid.h, st.core.grid.slot 0 0)) =
      some (1, 1, ⟨0, 0, some ⟨1, 0, 1⟩⟩) := by decide
  rw [hb] at e
  simp only [Option.map_some, Option.some.injEq, Prod.mk.injEq] at e
  obtain ⟨n, l, hl⟩ := h _ st hb 0 (by omega)
  have hno : ∀ n, verticalEdge st.core.grid 0 n 0 = none := by
    intro n
    induction n with
    | zero => rfl
    | succ n ih =>
      unfold verticalEdge
      have hg : st.core.grid.get 0 0 = some (st.core.grid.slot 0 0) := by unfold Grid.get; rw [if_neg (by omega)]
      rw [if_pos (by omega), hg, e.2.2]
      simp only [Option.bind_some, Nat.zero_add, ih, Option.map_none]
  rw [hno n] at hl
  cases hl

/-! ## C75 -/

/-- Where it is right: column spans up to 1000 and row spans that are numbers of at least 0. -/
theorem C75_spans_partial (v : Option Int) :
    ((∀ n, v = some n → n ≤ 1000) → colSpanOf v = htmlColSpan v) ∧
    ((∃ n, v = some n ∧ 0 ≤ n) → rowSpanOf v = htmlRowSpan v) := by
  constructor
  · intro h
    cases v with
    | none => rfl
    | some n =>
      have := h n rfl
      simp only [colSpanOf, htmlColSpan, Option.getD_some]
      by_cases h0 : n ≤ 0
      · rw [if_pos (.inl h0), if_pos h0]; rfl
      · rw [if_neg (by omega), if_neg h0]; omega
  · rintro ⟨n, rfl, h0⟩
    simp only [rowSpanOf, htmlRowSpan, Option.getD_some]
    rw [if_neg (show ¬n < 0 by omega), if_neg (show ¬n < 0 by omega)]
    split <;> omega

/-- Whatever the attribute says, a cell spans at least one column: the condition of C28 and C74. -/
theorem C75_colspan_positive (v : Option Int) : 1 ≤ colSpanOf v ∧ colSpanOf v ≤ 1000 := by
  unfold colSpanOf
  simp only
  split <;> omega

example : colSpanOf (some 3) = 3 ∧ colSpanOf none = 1 ∧ rowSpanOf (some 70000) = 65534 := by decide

/-- A `colspan` of 1001 counts as 1, not as 1000; a `rowspan` that is not a number or is negative
counts as 0, "to the end of the group", not as 1. -/
theorem C75_spans_fails : colSpanOf (some 1001) ≠ htmlColSpan (some 1001) ∧ rowSpanOf none ≠ htmlRowSpan none ∧
    rowSpanOf (some (-1)) ≠ htmlRowSpan (some (-1)) := by decide

end Verif.Table
