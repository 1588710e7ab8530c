import Verif.Table.Spec
/-! # The grid of a table: the loops -/
namespace Verif.Table
open Spec

theorem mem_range {a n x : Nat} : x ∈ range a n ↔ a ≤ x ∧ x < a + n := by
  unfold range; simp [List.mem_range'_1]

theorem fill_spec (s : Slot) (ps : List (Nat × Nat)) (g : Grid) (h : ∀ p ∈ ps, p.1 < g.w ∧ p.2 < g.h) :
    ∃ g', g.fill s ps = some g' ∧ g'.w = g.w ∧ g'.h = g.h ∧
      ∀ x y, g'.slot x y = if (x, y) ∈ ps then s else g.slot x y := by
  induction ps generalizing g with
  | nil => exact ⟨g, rfl, rfl, rfl, by simp⟩
  | cons p ps ih =>
    obtain ⟨px, py⟩ := p
    have hp := h _ (List.mem_cons_self ..)
    simp only at hp
    have hs : g.set px py s = some { g with slot := fun x' y' => if x' = px ∧ y' = py then s else g.slot x' y' } := by
      unfold Grid.set; rw [if_neg (by omega)]
    obtain ⟨g', e, hw, hh, hsl⟩ := ih { g with slot := fun x' y' => if x' = px ∧ y' = py then s else g.slot x' y' }
      (fun p hp => h p (List.mem_cons_of_mem _ hp))
    refine ⟨g', ?_, hw, hh, ?_⟩
    · simp only [Grid.fill, hs, Option.bind_some]; exact e
    · intro x y
      rw [hsl x y]
      simp only [List.mem_cons, Prod.mk.injEq]
      by_cases h1 : (x, y) ∈ ps <;> by_cases h2 : x = px ∧ y = py <;> simp [h1, h2]

theorem growOne_eq (y : Nat) (k : Grow) (xs : List Nat) (g : Grid) (h1 : k.ax < g.w) (h2 : k.ay < g.h) (h3 : k.ay ≠ y) :
    growOne g y k xs = g.fill (g.slot k.ax k.ay) (xs.map fun x => (x, y)) := by
  induction xs generalizing g with
  | nil => rfl
  | cons x xs ih =>
    have hg : g.get k.ax k.ay = some (g.slot k.ax k.ay) := by unfold Grid.get; rw [if_neg (by omega)]
    simp only [growOne, hg, Option.bind_some, List.map_cons, Grid.fill]
    unfold Grid.set
    split
    · rfl
    · simp only [Option.bind_some]
      refine (ih _ ?_ ?_).trans ?_
      · exact h1
      · exact h2
      · simp only
        rw [if_neg (by omega)]

/-- The column is one of the growing cell. -/
def Grow.Col (k : Grow) (x : Nat) : Prop := k.x ≤ x ∧ x < k.x + k.width

theorem growAll_spec (y : Nat) (ks : List Grow) (g : Grid) (hy : y < g.h)
    (h : ∀ k ∈ ks, k.ax < g.w ∧ k.ay < y ∧ k.x + k.width ≤ g.w) :
    ∃ g', growAll y ks g = some g' ∧ g'.w = g.w ∧ g'.h = g.h ∧
      ∀ x y', (y' = y ∧ ∃ k ∈ ks, k.Col x ∧ g'.slot x y' = g.slot k.ax k.ay) ∨
        (g'.slot x y' = g.slot x y' ∧ ¬(y' = y ∧ ∃ k ∈ ks, k.Col x)) := by
  induction ks generalizing g with
  | nil => exact ⟨g, rfl, rfl, rfl, by simp⟩
  | cons k ks ih =>
    have hk := h _ (List.mem_cons_self ..)
    obtain ⟨g1, e1, hw1, hh1, hs1⟩ := fill_spec (g.slot k.ax k.ay) ((range k.x k.width).map fun x => (x, y)) g (by
      intro p hp
      simp only [List.mem_map, mem_range] at hp
      obtain ⟨x, hx, rfl⟩ := hp
      exact ⟨by simp only; omega, hy⟩)
    obtain ⟨g2, e2, hw2, hh2, hs2⟩ := ih g1 (by omega) (fun k' hk' => by
      have := h k' (List.mem_cons_of_mem _ hk'); omega)
    refine ⟨g2, ?_, by omega, by omega, ?_⟩
    · simp only [growAll]
      rw [growOne_eq y k _ g hk.1 (by omega) (by omega), e1]
      exact e2
    · intro x y'
      have hm : ∀ x y', (x, y') ∈ (range k.x k.width).map (fun x => (x, y)) ↔ y' = y ∧ k.Col x := by
        intro x y'
        simp only [List.mem_map, mem_range, Prod.mk.injEq, Grow.Col]
        constructor
        · rintro ⟨a, ha, rfl, rfl⟩; exact ⟨rfl, ha⟩
        · rintro ⟨rfl, hc⟩; exact ⟨x, hc, rfl, rfl⟩
      have hrow : ∀ k' ∈ ks, g1.slot k'.ax k'.ay = g.slot k'.ax k'.ay := by
        intro k' hk'
        have := h k' (List.mem_cons_of_mem _ hk')
        rw [hs1, if_neg (by rw [hm]; omega)]
      rcases hs2 x y' with ⟨hy', k', hk', hc, hsl⟩ | ⟨hsl, hn⟩
      · exact .inl ⟨hy', k', List.mem_cons_of_mem _ hk', hc, by rw [hsl, hrow k' hk']⟩
      · rw [hs1] at hsl
        by_cases hc : y' = y ∧ k.Col x
        · rw [if_pos ((hm x y').mpr hc)] at hsl
          exact .inl ⟨hc.1, k, List.mem_cons_self .., hc.2, hsl⟩
        · rw [if_neg (by rw [hm]; exact hc)] at hsl
          refine .inr ⟨hsl, ?_⟩
          rintro ⟨h1, k', hk', hc'⟩
          rcases List.mem_cons.mp hk' with rfl | hk'
          · exact hc ⟨h1, hc'⟩
          · exact hn ⟨h1, k', hk', hc'⟩

theorem skipOccupied_spec (g : Grid) (y n x : Nat) (hy : y < g.h) (hn : n = g.w - x) (hx : x ≤ g.w) :
    ∃ x', skipOccupied g y n x = some x' ∧ x ≤ x' ∧ x' ≤ g.w ∧ (∀ i, x ≤ i → i < x' → (g.slot i y).box ≠ none) ∧
      (x' < g.w → (g.slot x' y).box = none) := by
  induction n generalizing x with
  | zero => exact ⟨x, rfl, by omega, by omega, by omega, by omega⟩
  | succ n ih =>
    unfold skipOccupied
    rw [if_pos (by omega)]
    have hg : g.get x y = some (g.slot x y) := by unfold Grid.get; rw [if_neg (by omega)]
    rw [hg]
    simp only [Option.bind_some]
    split
    · rename_i hs
      obtain ⟨x', e, h1, h2, h3, h4⟩ := ih (x + 1) (by omega) (by omega)
      refine ⟨x', e, by omega, h2, ?_, h4⟩
      intro i hi hi'
      by_cases h : i = x
      · subst h; intro hc; rw [hc] at hs; simp at hs
      · exact h3 i (by omega) hi'
    · rename_i hs
      refine ⟨x, rfl, by omega, hx, by omega, fun _ => ?_⟩
      cases h : (g.slot x y).box with
      | none => rfl
      | some c => rw [h] at hs; simp at hs

/-! ## Bounds: no access outside of the grid -/

/-- What every access relies on. -/
structure Bounds (st : Core) : Prop where
  cy : st.cy ≤ st.grid.h
  grow : ∀ k ∈ st.growing, k.ax < st.grid.w ∧ k.ay < st.cy ∧ k.x + k.width ≤ st.grid.w

/-- Inside of a row. -/
structure RowBounds (st : Core) (x : Nat) : Prop where
  cy : st.cy < st.grid.h
  x : x ≤ st.grid.w
  grow : ∀ k ∈ st.growing, k.ax < st.grid.w ∧ k.ay ≤ st.cy ∧ k.x + k.width ≤ st.grid.w

/-- The grid made large enough for a cell, table.cpp lines 165–185. -/
def room (g : Grid) (x cy : Nat) (c : Cell) : Grid :=
  let g := if x = g.w then g.increaseWidth 1 else g
  let g := if g.w < x + c.colSpan then g.increaseWidth (x + c.colSpan - g.w) else g
  if g.h < cy + (if c.rowSpan = 0 then 1 else c.rowSpan) then g.increaseHeight (cy + (if c.rowSpan = 0 then 1 else c.rowSpan) - g.h) else g

theorem room_spec (g : Grid) (x cy : Nat) (c : Cell) (hc : 1 ≤ c.colSpan) (hx : x ≤ g.w) :
    (room g x cy c).w = max g.w (x + c.colSpan) ∧
    (room g x cy c).h = max g.h (cy + (if c.rowSpan = 0 then 1 else c.rowSpan)) ∧
    ∀ x' y', x' < (room g x cy c).w → y' < (room g x cy c).h →
      (x' < g.w ∧ y' < g.h ∧ (room g x cy c).slot x' y' = g.slot x' y') ∨
      ((g.w ≤ x' ∨ g.h ≤ y') ∧ ((room g x cy c).slot x' y').box = none) := by
  unfold room
  generalize (if c.rowSpan = 0 then 1 else c.rowSpan) = s
  simp only [Grid.increaseWidth, Grid.increaseHeight]
  by_cases h1 : x = g.w
  · subst h1
    simp only [if_true]
    by_cases h2 : g.w + 1 < g.w + c.colSpan <;> by_cases h3 : g.h < cy + s <;>
      simp only [h2, h3, if_true, if_false] <;> refine ⟨by omega, by omega, ?_⟩ <;> intro x' y' hx' hy' <;>
      by_cases hin : x' < g.w ∧ y' < g.h
    all_goals first
      | (exact .inl ⟨hin.1, hin.2, rfl⟩)
      | (exact .inl hin)
      | (exact .inl ⟨hin.1, hin.2, trivial⟩)
      | (left; refine ⟨hin.1, hin.2, ?_⟩; (repeat rw [if_neg (by omega)]); done)
      | (right; refine ⟨by omega, ?_⟩; (repeat' split) <;> first | rfl | omega)
  · simp only [h1, if_false]
    by_cases h2 : g.w < x + c.colSpan <;> by_cases h3 : g.h < cy + s <;>
      simp only [h2, h3, if_true, if_false] <;> refine ⟨by omega, by omega, ?_⟩ <;> intro x' y' hx' hy' <;>
      by_cases hin : x' < g.w ∧ y' < g.h
    all_goals first
      | (exact .inl ⟨hin.1, hin.2, rfl⟩)
      | (exact .inl hin)
      | (exact .inl ⟨hin.1, hin.2, trivial⟩)
      | (left; refine ⟨hin.1, hin.2, ?_⟩; (repeat rw [if_neg (by omega)]); done)
      | (right; refine ⟨by omega, ?_⟩; (repeat' split) <;> first | rfl | omega)

theorem room_size (g : Grid) (x cy : Nat) (c : Cell) :
    g.w ≤ (room g x cy c).w ∧ x + c.colSpan ≤ (room g x cy c).w ∧ (x ≤ g.w → x < (room g x cy c).w) ∧
    (room g x cy c).h = max g.h (cy + (if c.rowSpan = 0 then 1 else c.rowSpan)) := by
  unfold room
  generalize (if c.rowSpan = 0 then 1 else c.rowSpan) = s
  simp only [Grid.increaseWidth, Grid.increaseHeight]
  by_cases h1 : x = g.w
  · subst h1
    simp only [if_true]
    by_cases h2 : g.w + 1 < g.w + c.colSpan <;> by_cases h3 : g.h < cy + s <;>
      simp only [h2, h3, if_true, if_false] <;> omega
  · simp only [h1, if_false]
    by_cases h2 : g.w < x + c.colSpan <;> by_cases h3 : g.h < cy + s <;>
      simp only [h2, h3, if_true, if_false] <;> omega

/-- One cell: where it goes and what is written. -/
theorem placeCell_spec (st : Core) (x : Nat) (c : Cell) (h : RowBounds st x) :
    ∃ x' g', placeCell st x c = some ({ st with
        grid := g', growing := if c.rowSpan = 0 then st.growing ++ [⟨x', st.cy, x', c.colSpan⟩] else st.growing }, x' + c.colSpan) ∧
      x ≤ x' ∧ x' ≤ st.grid.w ∧ (∀ i, x ≤ i → i < x' → (st.grid.slot i st.cy).box ≠ none) ∧
      (x' < st.grid.w → (st.grid.slot x' st.cy).box = none) ∧
      g'.w = (room st.grid x' st.cy c).w ∧ g'.h = (room st.grid x' st.cy c).h ∧
      ∀ i j, g'.slot i j = if x' ≤ i ∧ i < x' + c.colSpan ∧ st.cy ≤ j ∧ j < st.cy + (if c.rowSpan = 0 then 1 else c.rowSpan)
        then ⟨x', st.cy, some c⟩ else (room st.grid x' st.cy c).slot i j := by
  obtain ⟨x', e, h1, h2, h3, h4⟩ := skipOccupied_spec st.grid st.cy _ x h.cy rfl h.x
  have hr := room_size st.grid x' st.cy c
  have hm : ∀ i j, (i, j) ∈ ((range x' c.colSpan).flatMap fun x => (range st.cy (if c.rowSpan = 0 then 1 else c.rowSpan)).map fun y => (x, y)) ↔
      (x' ≤ i ∧ i < x' + c.colSpan ∧ st.cy ≤ j ∧ j < st.cy + (if c.rowSpan = 0 then 1 else c.rowSpan)) := by
    intro i j
    simp only [List.mem_flatMap, List.mem_map, mem_range, Prod.mk.injEq]
    constructor
    · rintro ⟨a, ha, b, hb, rfl, rfl⟩; exact ⟨ha.1, ha.2, hb.1, hb.2⟩
    · rintro ⟨a, b, d, f⟩; exact ⟨i, ⟨a, b⟩, j, ⟨d, f⟩, rfl, rfl⟩
  obtain ⟨g', e', hw, hh, hs⟩ := fill_spec ⟨x', st.cy, some c⟩
    ((range x' c.colSpan).flatMap fun x => (range st.cy (if c.rowSpan = 0 then 1 else c.rowSpan)).map fun y => (x, y))
    (room st.grid x' st.cy c) (by
      rintro ⟨i, j⟩ hp
      rw [hm] at hp
      simp only
      omega)
  refine ⟨x', g', ?_, h1, h2, h3, h4, hw, hh, ?_⟩
  · unfold placeCell
    rw [e]
    simp only [Option.bind_some]
    have e'' := e'
    unfold room at e''
    simp only at e''
    rw [e'']
    rfl
  · intro i j
    rw [hs i j]
    by_cases hc : x' ≤ i ∧ i < x' + c.colSpan ∧ st.cy ≤ j ∧ j < st.cy + (if c.rowSpan = 0 then 1 else c.rowSpan)
    · rw [if_pos ((hm i j).mpr hc), if_pos hc]
    · rw [if_neg (fun h => hc ((hm i j).mp h)), if_neg hc]

theorem placeCells_bounds (cs : List Cell) (st : Core) (x : Nat) (h : RowBounds st x) :
    ∃ st', placeCells st x cs = some st' ∧ st'.cy = st.cy ∧ ∃ x', RowBounds st' x' := by
  induction cs generalizing st x with
  | nil => exact ⟨st, rfl, rfl, x, h⟩
  | cons c cs ih =>
    obtain ⟨x', g', e, h1, h2, h3, h4, hw, hh, hs⟩ := placeCell_spec st x c h
    have hr := room_size st.grid x' st.cy c
    have hb : RowBounds { st with
        grid := g', growing := if c.rowSpan = 0 then st.growing ++ [⟨x', st.cy, x', c.colSpan⟩] else st.growing } (x' + c.colSpan) := by
      have := h.cy
      refine ⟨?_, ?_, ?_⟩
      · show st.cy < g'.h; omega
      · show x' + c.colSpan ≤ g'.w; omega
      · intro k hk
        show k.ax < g'.w ∧ k.ay ≤ st.cy ∧ k.x + k.width ≤ g'.w
        have old : ∀ k ∈ st.growing, k.ax < g'.w ∧ k.ay ≤ st.cy ∧ k.x + k.width ≤ g'.w := by
          intro k hk; have := h.grow k hk; omega
        simp only at hk
        split at hk
        · rcases List.mem_append.mp hk with hk | hk
          · exact old k hk
          · simp only [List.mem_singleton] at hk
            subst hk
            refine ⟨?_, Nat.le_refl _, ?_⟩ <;> simp only <;> omega
        · exact old k hk
    obtain ⟨st', e', hcy, hx⟩ := ih _ _ hb
    refine ⟨st', ?_, hcy, hx⟩
    simp only [placeCells, e, Option.bind_some]
    exact e'

/-- The beginning of a row, table.cpp lines 150–155. -/
theorem rowStart_spec (st : Core) (h : Bounds st) :
    ∃ g', growAll st.cy st.growing (if st.grid.h = st.cy then st.grid.increaseHeight 1 else st.grid) = some g' ∧
      g'.w = st.grid.w ∧ g'.h = max st.grid.h (st.cy + 1) ∧
      (∀ x y, (y = st.cy ∧ ∃ k ∈ st.growing, k.Col x ∧ g'.slot x y = st.grid.slot k.ax k.ay) ∨
        ((g'.slot x y = if st.grid.h = st.cy ∧ y = st.cy then ⟨x, y, none⟩ else st.grid.slot x y) ∧
          ¬(y = st.cy ∧ ∃ k ∈ st.growing, k.Col x))) := by
  have hcy := h.cy
  let g0 := if st.grid.h = st.cy then st.grid.increaseHeight 1 else st.grid
  have hw0 : g0.w = st.grid.w := by simp only [g0]; split <;> rfl
  have hh0 : g0.h = max st.grid.h (st.cy + 1) := by
    simp only [g0]; split
    · simp only [Grid.increaseHeight]; omega
    · omega
  have hs0 : ∀ x y, g0.slot x y = if st.grid.h = st.cy ∧ y = st.cy then ⟨x, y, none⟩ else st.grid.slot x y := by
    intro x y
    simp only [g0]
    by_cases h1 : st.grid.h = st.cy
    · simp only [h1, if_true, Grid.increaseHeight]
      by_cases h2 : y = st.cy
      · rw [if_pos (by omega), if_pos ⟨trivial, h2⟩]
      · rw [if_neg (by omega), if_neg (by intro h; exact h2 h.2)]
    · simp [h1]
  obtain ⟨g', e, hw, hh, hs⟩ := growAll_spec st.cy st.growing g0 (by omega) (by
    intro k hk; have := h.grow k hk; omega)
  refine ⟨g', e, by omega, by omega, ?_⟩
  intro x y
  rcases hs x y with ⟨hy, k, hk, hc, hsl⟩ | ⟨hsl, hn⟩
  · left
    refine ⟨hy, k, hk, hc, ?_⟩
    have := h.grow k hk
    rw [hsl, hs0, if_neg (by omega)]
  · right
    exact ⟨by rw [hsl, hs0], hn⟩

theorem processRow_bounds (st : Core) (cells : List Cell) (h : Bounds st) :
    ∃ st', processRow st cells = some st' ∧ Bounds st' := by
  obtain ⟨g', e, hw, hh, -⟩ := rowStart_spec st h
  have hb : RowBounds { st with grid := g' } 0 := by
    refine ⟨?_, Nat.zero_le _, ?_⟩
    · show st.cy < g'.h; omega
    · intro k hk
      have := h.grow k hk
      show k.ax < g'.w ∧ k.ay ≤ st.cy ∧ k.x + k.width ≤ g'.w
      omega
  obtain ⟨st', e', hcy, x', hb'⟩ := placeCells_bounds cells _ _ hb
  refine ⟨{ st' with cy := st'.cy + 1 }, ?_, ?_⟩
  · unfold processRow
    simp only [e, Option.bind_some, e']
  · refine ⟨hb'.cy, ?_⟩
    intro k hk
    have := hb'.grow k hk
    simp only
    omega

theorem endLoop_bounds (n : Nat) (st : Core) (h : Bounds st) :
    ∃ st', endLoop n st = some st' ∧ Bounds st' := by
  induction n generalizing st with
  | zero => exact ⟨st, rfl, h⟩
  | succ n ih =>
    unfold endLoop
    split
    · rename_i hlt
      obtain ⟨g', e, hw, hh, -⟩ := growAll_spec st.cy st.growing st.grid hlt (by
        intro k hk; have := h.grow k hk; omega)
      simp only [e, Option.bind_some]
      apply ih
      refine ⟨?_, by simp⟩
      show st.cy + 1 ≤ g'.h
      omega
    · exact ⟨st, rfl, h⟩

theorem endRowGroup_bounds (st : Core) (h : Bounds st) : ∃ st', endRowGroup st = some st' ∧ Bounds st' :=
  endLoop_bounds _ _ h

theorem groupRows_bounds (rows : List (List Cell)) (st : St) (h : Bounds st.core) :
    ∃ st', groupRows st rows = some st' ∧ Bounds st'.core := by
  induction rows generalizing st with
  | nil => exact ⟨st, rfl, h⟩
  | cons r rs ih =>
    obtain ⟨k, e, hk⟩ := processRow_bounds st.core r h
    simp only [groupRows, e, Option.bind_some]
    exact ih _ hk

theorem processRowGroup_bounds (st : St) (rows : List (List Cell)) (h : Bounds st.core) :
    ∃ st', processRowGroup st rows = some st' ∧ Bounds st'.core := by
  obtain ⟨st', e, h'⟩ := groupRows_bounds rows st h
  obtain ⟨k, e', hk⟩ := endRowGroup_bounds _ h'
  refine ⟨{ st' with
      core := k
      rowGroups := if st'.core.grid.h > st.core.grid.h then
        st'.rowGroups ++ [⟨st.core.grid.h, st'.core.grid.h - 1⟩] else st'.rowGroups }, ?_, hk⟩
  simp only [processRowGroup, e, e', Option.bind_some]

theorem rowsLoop_bounds (items : List Item) (st : St) (hd : Bool) (fs : List (List (List Cell))) (h : Bounds st.core) :
    ∃ st' fs', rowsLoop st hd fs items = some (st', fs') ∧ Bounds st'.core := by
  induction items generalizing st hd fs with
  | nil => exact ⟨st, fs, rfl, h⟩
  | cons i rest ih =>
    cases i with
    | colGroup a b => exact ih st hd fs h
    | row cells =>
      obtain ⟨k, e, hk⟩ := processRow_bounds st.core cells h
      simp only [rowsLoop, e, Option.bind_some]
      exact ih _ _ _ hk
    | foot rows =>
      obtain ⟨k, e, hk⟩ := endRowGroup_bounds st.core h
      simp only [rowsLoop, e, Option.bind_some]
      exact ih _ _ _ hk
    | head rows =>
      obtain ⟨k, e, hk⟩ := endRowGroup_bounds st.core h
      simp only [rowsLoop, e, Option.bind_some]
      split
      · obtain ⟨st', e', h'⟩ := processRowGroup_bounds { st with core := k } rows hk
        simp only [e', Option.bind_some]
        exact ih _ _ _ h'
      · exact ih _ _ _ hk
    | body rows =>
      obtain ⟨k, e, hk⟩ := endRowGroup_bounds st.core h
      obtain ⟨st', e', h'⟩ := processRowGroup_bounds { st with core := k } rows hk
      simp only [rowsLoop, e, e', Option.bind_some]
      exact ih _ _ _ h'

theorem footLoop_bounds (fs : List (List (List Cell))) (st : St) (h : Bounds st.core) :
    ∃ st', footLoop st fs = some st' ∧ Bounds st'.core := by
  induction fs generalizing st with
  | nil => exact ⟨st, rfl, h⟩
  | cons rows rest ih =>
    obtain ⟨st', e', h'⟩ := processRowGroup_bounds st rows h
    simp only [footLoop, e', Option.bind_some]
    exact ih _ h'

/-- The column groups leave the rows alone. -/
structure Blank (k : Core) : Prop where
  cy : k.cy = 0
  h : k.grid.h = 0
  grow : k.growing = []

theorem groupCols_blank (cols : List Nat) (st : St) (h : Blank st.core) : Blank (groupCols st cols).core := by
  induction cols generalizing st with
  | nil => exact h
  | cons c cs ih => exact ih _ ⟨h.cy, h.h, h.grow⟩

theorem colGroups_blank (items : List Item) (st : St) (h : Blank st.core) : Blank (colGroups st items).1.core := by
  induction items generalizing st with
  | nil => exact h
  | cons i rest ih =>
    cases i with
    | colGroup cols span =>
      apply ih
      cases cols with
      | nil => exact ⟨h.cy, h.h, h.grow⟩
      | cons c cs => exact groupCols_blank (c :: cs) st h
    | _ => exact h

theorem Blank.bounds {k : Core} (h : Blank k) : Bounds k :=
  ⟨by rw [h.cy, h.h]; exact Nat.le_refl _, by rw [h.grow]; simp⟩

end Verif.Table
