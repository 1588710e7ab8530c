import Verif.Table.Lemmas
/-! # The grid of a table shows the rectangles -/
namespace Verif.Table
open Spec

/-- `Rect.Covers` with open rectangles ending at `k`. -/
def Cov (k : Nat) (r : Rect) (x y : Nat) : Prop :=
  r.x ≤ x ∧ x < r.x + r.cell.colSpan ∧ r.y ≤ y ∧ y < r.bottom.getD k

/-- The slot of a rectangle. -/
def slotOf (r : Rect) : Slot := ⟨r.x, r.y, some r.cell⟩

structure Inv (k : Nat) (g : Grid) (rs : List Rect) : Prop where
  slots : ∀ x y, x < g.w → y < g.h →
    ((g.slot x y).box = none ∧ ∀ r ∈ rs, ¬Cov k r x y) ∨ ∃ r ∈ rs, Cov k r x y ∧ g.slot x y = slotOf r
  first : ∀ r ∈ rs, g.slot r.x r.y = slotOf r
  size : ∀ r ∈ rs, 1 ≤ r.cell.colSpan ∧ r.x + r.cell.colSpan ≤ g.w ∧ r.y < k ∧ r.y < g.h ∧
    ∀ b, r.bottom = some b → r.y < b ∧ b ≤ g.h

/-- The growing cells of the open rectangles. -/
def opens (rs : List Rect) : List Grow :=
  (rs.filter fun r => r.bottom.isNone).map fun r => ⟨r.x, r.y, r.x, r.cell.colSpan⟩

theorem mem_opens {rs : List Rect} {k : Grow} : k ∈ opens rs ↔ ∃ r ∈ rs, r.bottom = none ∧ k = ⟨r.x, r.y, r.x, r.cell.colSpan⟩ := by
  unfold opens
  simp only [List.mem_map, List.mem_filter, Option.isNone_iff_eq_none]
  constructor
  · rintro ⟨r, ⟨h1, h2⟩, rfl⟩; exact ⟨r, h1, h2, rfl⟩
  · rintro ⟨r, h1, h2, rfl⟩; exact ⟨r, ⟨h1, h2⟩, rfl⟩

theorem opens_append (a b : List Rect) : opens (a ++ b) = opens a ++ opens b := by
  unfold opens; rw [List.filter_append, List.map_append]

theorem cov_row {k : Nat} {r : Rect} {i : Nat} : Cov (k + 1) r i k ↔ r.Covers i k := by
  unfold Cov Rect.Covers
  cases hb : r.bottom with
  | none => simp
  | some b => simp

theorem cov_mono {k k' : Nat} {r : Rect} {x y : Nat} (h : k ≤ k') (hc : Cov k r x y) : Cov k' r x y := by
  unfold Cov at *
  cases hb : r.bottom with
  | none => rw [hb] at hc; simp only [Option.getD_none] at *; omega
  | some b => rw [hb] at hc; exact hc

theorem bounds_of_inv {st : Core} {rs : List Rect} (h : Inv st.cy st.grid rs) (hg : st.growing = opens rs)
    (hcy : st.cy ≤ st.grid.h) : Bounds st := by
  refine ⟨hcy, ?_⟩
  intro k hk
  rw [hg, mem_opens] at hk
  obtain ⟨r, hr, hb, rfl⟩ := hk
  have := h.size r hr
  simp only
  omega

theorem Inv.mono_k {k k' : Nat} {g : Grid} {rs : List Rect} (h : Inv k g rs) (hk : k ≤ k')
    (ho : k = k' ∨ opens rs = []) : Inv k' g rs := by
  rcases ho with rfl | ho
  · exact h
  · have hb : ∀ r ∈ rs, ∀ x y, Cov k r x y ↔ Cov k' r x y := by
      intro r hr x y
      cases hb : r.bottom with
      | none =>
        exfalso
        have : (⟨r.x, r.y, r.x, r.cell.colSpan⟩ : Grow) ∈ opens rs := mem_opens.mpr ⟨r, hr, hb, rfl⟩
        rw [ho] at this
        cases this
      | some b => unfold Cov; rw [hb]; rfl
    refine ⟨?_, h.first, ?_⟩
    · intro x y hx hy
      rcases h.slots x y hx hy with ⟨h1, h2⟩ | ⟨r, hr, hc, hs⟩
      · exact .inl ⟨h1, fun r hr hc => h2 r hr ((hb r hr x y).mpr hc)⟩
      · exact .inr ⟨r, hr, (hb r hr x y).mp hc, hs⟩
    · intro r hr
      have := h.size r hr
      exact ⟨this.1, this.2.1, by omega, this.2.2.2⟩

/-- Growing the open rectangles by a row. -/
theorem grow_inv {k : Nat} {g g' : Grid} {rs : List Rect} (h : Inv k g rs) (hkh : k ≤ g.h)
    (hw : g'.w = g.w) (hh : g'.h = max g.h (k + 1))
    (hs : ∀ x y, (y = k ∧ ∃ o ∈ opens rs, o.Col x ∧ g'.slot x y = g.slot o.ax o.ay) ∨
        ((g'.slot x y = if g.h = k ∧ y = k then ⟨x, y, none⟩ else g.slot x y) ∧
          ¬(y = k ∧ ∃ o ∈ opens rs, o.Col x))) : Inv (k + 1) g' rs := by
  refine ⟨?_, ?_, ?_⟩
  · intro x y hx hy
    rcases hs x y with ⟨rfl, o, ho, hc, hsl⟩ | ⟨hsl, hn⟩
    · obtain ⟨r, hr, hb, rfl⟩ := mem_opens.mp ho
      right
      refine ⟨r, hr, ?_, by rw [hsl]; exact h.first r hr⟩
      have := h.size r hr
      unfold Cov
      rw [hb]
      unfold Grow.Col at hc
      simp only [Option.getD_none] at *
      omega
    · have hno : ∀ r ∈ rs, Cov (k + 1) r x y → y < k ∨ (y = k → ∃ b, r.bottom = some b ∧ k < b) := by
        intro r hr hc
        by_cases hyk : y < k
        · exact .inl hyk
        · right
          rintro rfl
          cases hb : r.bottom with
          | none =>
            exfalso
            apply hn
            refine ⟨rfl, ⟨r.x, r.y, r.x, r.cell.colSpan⟩, mem_opens.mpr ⟨r, hr, hb, rfl⟩, ?_⟩
            unfold Cov at hc
            unfold Grow.Col
            simp only
            omega
          | some b =>
            refine ⟨b, rfl, ?_⟩
            unfold Cov at hc
            rw [hb] at hc
            simp only [Option.getD_some] at hc
            omega
      by_cases hz : g.h = k ∧ y = k
      · rw [if_pos hz] at hsl
        left
        refine ⟨by rw [hsl], ?_⟩
        intro r hr hc
        rcases hno r hr hc with h1 | h1
        · omega
        · obtain ⟨b, hb, hlt⟩ := h1 hz.2
          have := (h.size r hr).2.2.2.2 b hb
          omega
      · rw [if_neg hz] at hsl
        rcases h.slots x y (by omega) (by omega) with ⟨h1, h2⟩ | ⟨r, hr, hc, hs'⟩
        · left
          refine ⟨by rw [hsl]; exact h1, ?_⟩
          intro r hr hc
          apply h2 r hr
          unfold Cov at hc ⊢
          cases hb : r.bottom with
          | some b => rw [hb] at hc; exact hc
          | none =>
            have := hno r hr hc
            rw [hb] at this hc
            simp only [Option.getD_none] at *
            rcases this with h | h
            · omega
            · by_cases hyk : y = k
              · obtain ⟨b, hb', -⟩ := h hyk; cases hb'
              · omega
        · exact .inr ⟨r, hr, cov_mono (by omega) hc, by rw [hsl]; exact hs'⟩
  · intro r hr
    have hsz := h.size r hr
    rcases hs r.x r.y with ⟨h1, -⟩ | ⟨hsl, -⟩
    · omega
    · rw [hsl, if_neg (by omega)]; exact h.first r hr
  · intro r hr
    have hsz := h.size r hr
    refine ⟨hsz.1, by omega, by omega, by omega, ?_⟩
    intro b hb
    have := hsz.2.2.2.2 b hb
    omega

theorem rectAt_bottom (c : Cell) (x y k : Nat) (hk : k = y + 1) :
    (rectAt c x y).bottom.getD k = y + (if c.rowSpan = 0 then 1 else c.rowSpan) := by
  unfold rectAt
  split <;> simp [hk]

/-- One cell. -/
theorem placeCell_inv {st : Core} {x : Nat} {c : Cell} {above cur : List Rect} (hb : RowBounds st x)
    (hc : 1 ≤ c.colSpan) (h : Inv (st.cy + 1) st.grid (above ++ cur)) (ha : ∀ r ∈ above, r.y < st.cy)
    (hcur : ∀ r ∈ cur, r.y = st.cy ∧ r.x + r.cell.colSpan ≤ x) (hg : st.growing = opens (above ++ cur)) :
    ∃ st' x', placeCell st x c = some (st', x' + c.colSpan) ∧ st'.cy = st.cy ∧ RowBounds st' (x' + c.colSpan) ∧
      Inv (st.cy + 1) st'.grid (above ++ (cur ++ [rectAt c x' st.cy])) ∧
      st'.growing = opens (above ++ (cur ++ [rectAt c x' st.cy])) ∧
      x ≤ x' ∧ (∀ i, x ≤ i → i < x' → ∃ r ∈ above, r.Covers i st.cy) ∧ (∀ r ∈ above, ¬r.Covers x' st.cy) ∧
      st'.grid.h = max st.grid.h (st.cy + (if c.rowSpan = 0 then 1 else c.rowSpan)) := by
  obtain ⟨x', g', e, h1, h2, h3, h4, hw, hh, hs⟩ := placeCell_spec st x c hb
  obtain ⟨hrw, hrh, hrs⟩ := room_spec st.grid x' st.cy c hc h2
  have hcy := hb.cy
  have hpos : 1 ≤ (if c.rowSpan = 0 then 1 else c.rowSpan) := by split <;> omega
  refine ⟨_, x', e, rfl, ?_, ?_, ?_, h1, ?_, ?_, by simp only; omega⟩
  · refine ⟨by simp only; omega, by simp only; omega, ?_⟩
    intro k hk
    simp only at hk ⊢
    have old : ∀ k ∈ st.growing, k.ax < g'.w ∧ k.ay ≤ st.cy ∧ k.x + k.width ≤ g'.w := by
      intro k hk; have := hb.grow k hk; omega
    split at hk
    · rcases List.mem_append.mp hk with hk | hk
      · exact old k hk
      · simp only [List.mem_singleton] at hk
        subst hk
        simp only
        omega
    · exact old k hk
  · rw [← List.append_assoc]
    refine ⟨?_, ?_, ?_⟩
    · intro i j hi hj
      simp only at hi hj ⊢
      rw [hs i j]
      by_cases hin : x' ≤ i ∧ i < x' + c.colSpan ∧ st.cy ≤ j ∧ j < st.cy + (if c.rowSpan = 0 then 1 else c.rowSpan)
      · rw [if_pos hin]
        right
        refine ⟨rectAt c x' st.cy, by simp, ?_, rfl⟩
        unfold Cov
        rw [rectAt_bottom _ _ _ _ rfl]
        exact hin
      · rw [if_neg hin]
        have hnew : ¬Cov (st.cy + 1) (rectAt c x' st.cy) i j := by
          intro hc'
          unfold Cov at hc'
          rw [rectAt_bottom _ _ _ _ rfl] at hc'
          exact hin hc'
        rcases hrs i j (by omega) (by omega) with ⟨a1, a2, a3⟩ | ⟨a1, a2⟩
        · rw [a3]
          rcases h.slots i j a1 a2 with ⟨b1, b2⟩ | ⟨r, hr, b1, b2⟩
          · left
            refine ⟨b1, ?_⟩
            intro r hr
            rcases List.mem_append.mp hr with hr | hr
            · exact b2 r hr
            · simp only [List.mem_singleton] at hr; subst hr; exact hnew
          · exact .inr ⟨r, List.mem_append_left _ hr, b1, b2⟩
        · left
          refine ⟨a2, ?_⟩
          intro r hr
          rcases List.mem_append.mp hr with hr | hr
          · intro hc'
            have hsz := h.size r hr
            unfold Cov at hc'
            cases hbt : r.bottom with
            | none => rw [hbt] at hc'; simp only [Option.getD_none] at hc'; omega
            | some b =>
              have := hsz.2.2.2.2 b hbt
              rw [hbt] at hc'; simp only [Option.getD_some] at hc'; omega
          · simp only [List.mem_singleton] at hr; subst hr; exact hnew
    · intro r hr
      simp only
      rw [hs]
      rcases List.mem_append.mp hr with hr | hr
      · have hsz := h.size r hr
        have hout : ¬(x' ≤ r.x ∧ r.x < x' + c.colSpan ∧ st.cy ≤ r.y ∧ r.y < st.cy + (if c.rowSpan = 0 then 1 else c.rowSpan)) := by
          rcases List.mem_append.mp hr with hr | hr
          · have := ha r hr; omega
          · have := hcur r hr; omega
        rw [if_neg hout]
        rcases hrs r.x r.y (by omega) (by omega) with ⟨a1, a2, a3⟩ | ⟨a1, a2⟩
        · rw [a3]; exact h.first r hr
        · omega
      · simp only [List.mem_singleton] at hr
        subst hr
        rw [if_pos ?_]
        · rfl
        · simp only [rectAt]; omega
    · intro r hr
      simp only
      rcases List.mem_append.mp hr with hr | hr
      · have hsz := h.size r hr
        refine ⟨hsz.1, by omega, hsz.2.2.1, by omega, ?_⟩
        intro b hbt
        have := hsz.2.2.2.2 b hbt
        omega
      · simp only [List.mem_singleton] at hr
        subst hr
        refine ⟨hc, ?_, ?_, ?_, ?_⟩
        · simp only [rectAt]; omega
        · simp only [rectAt]; omega
        · simp only [rectAt]; omega
        · intro b hbt
          simp only [rectAt] at hbt ⊢
          split at hbt
          · cases hbt
          · rename_i hz
            rw [if_neg hz] at hrh
            cases hbt
            omega
  · rw [← List.append_assoc, opens_append, ← hg]
    simp only [opens, rectAt]
    split <;> simp
  · intro i hi hi'
    have hoc := h3 i hi hi'
    rcases h.slots i st.cy (by omega) hcy with ⟨b1, -⟩ | ⟨r, hr, b1, -⟩
    · exact absurd b1 hoc
    · rcases List.mem_append.mp hr with hr | hr
      · exact ⟨r, hr, cov_row.mp b1⟩
      · have := hcur r hr
        unfold Cov at b1
        omega
  · intro r hr hcov
    have hy := ha r hr
    have hsz := h.size r (List.mem_append_left _ hr)
    have hcov' := cov_row.mpr hcov
    by_cases hx : x' < st.grid.w
    · have hfree := h4 hx
      rcases h.slots x' st.cy hx hcy with ⟨-, b2⟩ | ⟨r', hr', b1, b2⟩
      · exact b2 r (List.mem_append_left _ hr) hcov'
      · rw [b2] at hfree; simp [slotOf] at hfree
    · unfold Cov at hcov'
      omega

/-- How far below the row a row reaches. -/
def spillRow (s : Nat) (row : List Cell) : Nat := row.foldl (fun s c => max s (c.rowSpan - 1)) s

/-- The height comes from the rows or from a rectangle. -/
def Reach (h cy : Nat) (seg : List Rect) : Prop := h = cy ∨ ∃ r ∈ seg, r.bottom = some h

theorem placeCells_inv (cs : List Cell) {st : Core} {x s : Nat} {above cur seg : List Rect} (hb : RowBounds st x)
    (hc : ∀ c ∈ cs, 1 ≤ c.colSpan) (h : Inv (st.cy + 1) st.grid (above ++ cur)) (ha : ∀ r ∈ above, r.y < st.cy)
    (hcur : ∀ r ∈ cur, r.y = st.cy ∧ r.x + r.cell.colSpan ≤ x) (hg : st.growing = opens (above ++ cur))
    (hh : st.grid.h = st.cy + 1 + s) (hr : Reach st.grid.h (st.cy + 1) seg) :
    ∃ st' new, placeCells st x cs = some st' ∧ st'.cy = st.cy ∧ RowPlaced above st.cy x cs new ∧
      Inv (st.cy + 1) st'.grid (above ++ (cur ++ new)) ∧ st'.growing = opens (above ++ (cur ++ new)) ∧
      st'.grid.h = st.cy + 1 + spillRow s cs ∧ Reach st'.grid.h (st.cy + 1) (seg ++ new) := by
  induction cs generalizing st x s cur seg with
  | nil => exact ⟨st, [], rfl, rfl, .nil, by simpa using h, by simpa using hg, hh, by simpa using hr⟩
  | cons c cs ih =>
    have hc1 := hc c (List.mem_cons_self ..)
    obtain ⟨st1, x', e, hcy, hb1, hi1, hg1, hx, hf1, hf2, hh1⟩ := placeCell_inv hb hc1 h ha hcur hg
    have hcur1 : ∀ r ∈ cur ++ [rectAt c x' st.cy], r.y = st1.cy ∧ r.x + r.cell.colSpan ≤ x' + c.colSpan := by
      intro r hr
      rcases List.mem_append.mp hr with hr | hr
      · have := hcur r hr; omega
      · simp only [List.mem_singleton] at hr; subst hr; simp only [rectAt]; omega
    have hh1' : st1.grid.h = st1.cy + 1 + max s (c.rowSpan - 1) := by
      rw [hh1, hcy, hh]
      split <;> omega
    have hr1 : Reach st1.grid.h (st1.cy + 1) (seg ++ [rectAt c x' st.cy]) := by
      rw [hcy]
      by_cases hm : st.cy + (if c.rowSpan = 0 then 1 else c.rowSpan) ≤ st.grid.h
      · have : st1.grid.h = st.grid.h := by omega
        rw [this]
        rcases hr with h | ⟨r, hr, hbt⟩
        · exact .inl h
        · exact .inr ⟨r, List.mem_append_left _ hr, hbt⟩
      · right
        refine ⟨_, List.mem_append_right _ (List.mem_singleton.mpr rfl), ?_⟩
        simp only [rectAt]
        split
        · rename_i hz; rw [if_pos hz] at hm; omega
        · rename_i hz; rw [if_neg hz] at hm hh1; congr 1; omega
    obtain ⟨st', new, e', hcy', hp, hi', hg', hh', hr'⟩ := ih hb1 (fun c hc' => hc c (List.mem_cons_of_mem _ hc'))
      (by rw [hcy]; exact hi1) (by rw [hcy]; exact ha) hcur1 hg1 hh1' hr1
    rw [hcy] at hp hi' hh' hr' hcy'
    refine ⟨st', rectAt c x' st.cy :: new, ?_, hcy', .cons hx hf1 hf2 hp, ?_, ?_, hh', ?_⟩
    · simp only [placeCells, e, Option.bind_some]; exact e'
    · simpa using hi'
    · simpa using hg'
    · simpa using hr'

theorem processRow_inv (cells : List Cell) {st : Core} {s : Nat} {rs seg : List Rect} (hc : ∀ c ∈ cells, 1 ≤ c.colSpan)
    (h : Inv st.cy st.grid rs) (hg : st.growing = opens rs) (hh : st.grid.h = st.cy + s) (hr : Reach st.grid.h st.cy seg) :
    ∃ st' new, processRow st cells = some st' ∧ st'.cy = st.cy + 1 ∧ RowPlaced rs st.cy 0 cells new ∧
      Inv st'.cy st'.grid (rs ++ new) ∧ st'.growing = opens (rs ++ new) ∧
      st'.grid.h = st'.cy + spillRow (s - 1) cells ∧ Reach st'.grid.h st'.cy (seg ++ new) := by
  have hbd := bounds_of_inv h hg (by omega)
  obtain ⟨g', e, hw', hh', hs'⟩ := rowStart_spec st hbd
  rw [hg] at hs'
  have hi := grow_inv h (by omega) hw' hh' hs'
  have hrb : RowBounds { st with grid := g' } 0 := by
    refine ⟨by simp only; omega, Nat.zero_le _, ?_⟩
    intro k hk
    have := hbd.grow k hk
    simp only
    omega
  obtain ⟨st1, new, e1, hcy1, hp, hi1, hg1, hh1, hr1⟩ := placeCells_inv cells (above := rs) (cur := []) (s := s - 1) (seg := seg) hrb hc
    (by simpa using hi) (fun r hr => (h.size r hr).2.2.1) (by simp) (by simpa using hg) (by simp only; omega) (by
      simp only
      rcases hr with h | ⟨r, hr, hbt⟩
      · left; omega
      · by_cases hz : st.grid.h = st.cy
        · left; omega
        · right; exact ⟨r, hr, by rw [hbt]; congr 1; omega⟩)
  refine ⟨{ st1 with cy := st1.cy + 1 }, new, ?_, by simp only [hcy1], hp, ?_, ?_, ?_, ?_⟩
  · unfold processRow
    simp only [e, Option.bind_some, e1]
  · simp only [hcy1]; simpa using hi1
  · simpa using hg1
  · simp only [hcy1]; exact hh1
  · simp only [hcy1]; exact hr1

/-- The rows of a group. -/
def coreRows (st : Core) : List (List Cell) → Option Core
  | [] => some st
  | r :: rs => (processRow st r).bind fun st => coreRows st rs

theorem coreRows_append (a b : List (List Cell)) (st : Core) :
    coreRows st (a ++ b) = (coreRows st a).bind fun st => coreRows st b := by
  induction a generalizing st with
  | nil => rfl
  | cons r rs ih =>
    simp only [List.cons_append, coreRows]
    cases processRow st r with
    | none => rfl
    | some st' => exact ih st'

theorem coreRows_inv (rows : List (List Cell)) {st : Core} {s : Nat} {rs seg : List Rect} (hc : ValidRows rows)
    (h : Inv st.cy st.grid rs) (hg : st.growing = opens rs) (hh : st.grid.h = st.cy + s) (hr : Reach st.grid.h st.cy seg) :
    ∃ st' new, coreRows st rows = some st' ∧ st'.cy = st.cy + rows.length ∧ RowsPlaced rs st.cy rows new ∧
      Inv st'.cy st'.grid (rs ++ new) ∧ st'.growing = opens (rs ++ new) ∧
      st'.grid.h = st'.cy + rows.foldl (fun s row => row.foldl (fun s c => max s (c.rowSpan - 1)) (s - 1)) s ∧
      Reach st'.grid.h st'.cy (seg ++ new) := by
  induction rows generalizing st s rs seg with
  | nil => exact ⟨st, [], rfl, rfl, .nil, by simpa using h, by simpa using hg, hh, by simpa using hr⟩
  | cons row rows ih =>
    obtain ⟨st1, new1, e1, hcy1, hp1, hi1, hg1, hh1, hr1⟩ := processRow_inv row (hc row (List.mem_cons_self ..)) h hg hh hr
    obtain ⟨st2, new2, e2, hcy2, hp2, hi2, hg2, hh2, hr2⟩ := ih (fun r hr => hc r (List.mem_cons_of_mem _ hr)) hi1 hg1 hh1 hr1
    rw [hcy1] at hp2
    refine ⟨st2, new1 ++ new2, ?_, ?_, .cons hp1 hp2, by simpa using hi2, by simpa using hg2, hh2, by simpa using hr2⟩
    · simp only [coreRows, e1, Option.bind_some, e2]
    · simp only [List.length_cons]; omega

/-! ## The end of a group -/

theorem growAll_nil (y : Nat) (g : Grid) : growAll y [] g = some g := rfl

theorem endLoop_nil (n : Nat) (st : Core) (hg : st.growing = []) (hn : n = st.grid.h - st.cy) (hcy : st.cy ≤ st.grid.h) :
    endLoop n st = some { st with cy := st.grid.h } := by
  induction n generalizing st with
  | zero =>
    have : st.cy = st.grid.h := by omega
    rw [endLoop, ← this]
  | succ n ih =>
    unfold endLoop
    rw [if_pos (by omega), hg, growAll_nil]
    simp only [Option.bind_some]
    rw [ih _ rfl (by simp only; omega) (by simp only; omega)]


theorem endRowGroup_inv {st : Core} {rs : List Rect} (h : Inv st.cy st.grid rs) (hg : st.growing = opens rs)
    (hcy : st.cy ≤ st.grid.h) (ht : opens rs = [] ∨ st.grid.h ≤ st.cy + 1) :
    ∃ st', endRowGroup st = some st' ∧ st'.cy = st.grid.h ∧ st'.grid.h = st.grid.h ∧ Inv st.grid.h st'.grid rs ∧
      (opens rs = [] ∨ st.grid.h = st.cy + 1 → st'.growing = []) := by
  unfold endRowGroup
  by_cases hn : opens rs = []
  · refine ⟨_, endLoop_nil _ st (by rw [hg, hn]) rfl hcy, rfl, rfl, h.mono_k hcy (.inr hn), fun _ => ?_⟩
    simp only [hg, hn]
  · have hle : st.grid.h ≤ st.cy + 1 := by rcases ht with h | h; exact absurd h hn; exact h
    by_cases hz : st.grid.h = st.cy
    · refine ⟨st, ?_, hz.symm, rfl, by rw [hz]; exact h, fun h' => ?_⟩
      · rw [hz, Nat.sub_self]; rfl
      · rcases h' with h' | h'
        · exact absurd h' hn
        · omega
    · have h1 : st.grid.h - st.cy = 0 + 1 := by omega
      rw [h1]
      unfold endLoop
      rw [if_pos (by omega)]
      have hbd := bounds_of_inv h hg hcy
      obtain ⟨g', e, hw', hh', hs'⟩ := growAll_spec st.cy st.growing st.grid (by omega) (by
        intro k hk; have := hbd.grow k hk; omega)
      rw [hg] at hs'
      have hi := grow_inv h hcy hw' (by omega) (g' := g') (by
        intro x y
        rw [if_neg (by omega)]
        exact hs' x y)
      simp only [e, Option.bind_some, endLoop]
      refine ⟨_, rfl, by simp only; omega, hh', ?_, fun _ => rfl⟩
      have : st.grid.h = st.cy + 1 := by omega
      rw [this]
      exact hi

theorem close_some {e : Nat} {r : Rect} (h : r.bottom.isSome) : r.close e = r := by
  unfold Rect.close
  cases hb : r.bottom with
  | none => rw [hb] at h; cases h
  | some b => cases r; simp only at hb; subst hb; rfl

theorem inv_close {e : Nat} {g : Grid} {a rs : List Rect} (h : Inv e g (a ++ rs)) (he : e = g.h) :
    Inv e g (a ++ rs.map (Rect.close e)) := by
  have hcov : ∀ (r : Rect) x y, Cov e (r.close e) x y ↔ Cov e r x y := by
    intro r x y; unfold Cov Rect.close; simp
  refine ⟨?_, ?_, ?_⟩
  · intro x y hx hy
    rcases h.slots x y hx hy with ⟨h1, h2⟩ | ⟨r, hr, hc, hs⟩
    · left
      refine ⟨h1, ?_⟩
      intro r hr hc
      rcases List.mem_append.mp hr with hr | hr
      · exact h2 r (List.mem_append_left _ hr) hc
      · obtain ⟨r', hr', rfl⟩ := List.mem_map.mp hr
        exact h2 r' (List.mem_append_right _ hr') ((hcov _ _ _).mp hc)
    · right
      rcases List.mem_append.mp hr with hr | hr
      · exact ⟨r, List.mem_append_left _ hr, hc, hs⟩
      · exact ⟨r.close e, List.mem_append_right _ (List.mem_map_of_mem hr), (hcov _ _ _).mpr hc, hs⟩
  · intro r hr
    rcases List.mem_append.mp hr with hr | hr
    · exact h.first r (List.mem_append_left _ hr)
    · obtain ⟨r', hr', rfl⟩ := List.mem_map.mp hr
      exact h.first r' (List.mem_append_right _ hr')
  · intro r hr
    rcases List.mem_append.mp hr with hr | hr
    · exact h.size r (List.mem_append_left _ hr)
    · obtain ⟨r', hr', rfl⟩ := List.mem_map.mp hr
      have := h.size r' (List.mem_append_right _ hr')
      refine ⟨this.1, this.2.1, this.2.2.1, this.2.2.2.1, ?_⟩
      intro b hb
      simp only [Rect.close, Option.some.injEq] at hb ⊢
      cases hb' : r'.bottom with
      | none => rw [hb'] at hb; simp only [Option.getD_none] at hb; omega
      | some b' =>
        have := this.2.2.2.2 b' hb'
        rw [hb'] at hb; simp only [Option.getD_some] at hb; omega

theorem rowPlaced_zero {above : List Rect} {y x : Nat} {cs : List Cell} {rs : List Rect} (h : RowPlaced above y x cs rs)
    (r : Rect) (hr : r ∈ rs) (hb : r.bottom = none) : ∃ c ∈ cs, c.rowSpan = 0 := by
  induction h with
  | nil => cases hr
  | cons h1 h2 h3 h4 ih =>
    rcases List.mem_cons.mp hr with rfl | hr
    · refine ⟨_, List.mem_cons_self .., ?_⟩
      simp only [rectAt] at hb
      split at hb
      · assumption
      · cases hb
    · obtain ⟨c, hc, hz⟩ := ih hr
      exact ⟨c, List.mem_cons_of_mem _ hc, hz⟩

theorem rowsPlaced_zero {above : List Rect} {y : Nat} {rows : List (List Cell)} {rs : List Rect} (h : RowsPlaced above y rows rs)
    (r : Rect) (hr : r ∈ rs) (hb : r.bottom = none) : HasZero rows := by
  induction h with
  | nil => cases hr
  | cons h1 h2 ih =>
    rcases List.mem_append.mp hr with hr | hr
    · obtain ⟨c, hc, hz⟩ := rowPlaced_zero h1 r hr hb
      exact ⟨_, List.mem_cons_self .., c, hc, hz⟩
    · obtain ⟨row, hrow, c, hc, hz⟩ := ih hr
      exact ⟨row, List.mem_cons_of_mem _ hrow, c, hc, hz⟩

/-! ## All groups -/

/-- The groups of rows one after the other; the last one is ended or not. -/
def runSegs (ended : Bool) (st : Core) : List (List (List Cell)) → Option Core
  | [] => some st
  | g :: gs => (coreRows st g).bind fun st =>
    if gs = [] ∧ ended = false then some st else (endRowGroup st).bind fun st => runSegs ended st gs

theorem close_isSome {e : Nat} {rs : List Rect} : ∀ r ∈ rs.map (Rect.close e), r.bottom.isSome := by
  intro r hr
  obtain ⟨r', -, rfl⟩ := List.mem_map.mp hr
  rfl

theorem opens_closed {rs : List Rect} (h : ∀ r ∈ rs, r.bottom.isSome) : opens rs = [] := by
  unfold opens
  rw [List.filter_eq_nil_iff.mpr ?_]
  · rfl
  · intro r hr; have := h r hr; cases hb : r.bottom <;> simp_all

/-- One group, up to its end. -/
theorem seg_inv (g : List (List Cell)) {st : Core} {above : List Rect} (hv : ValidRows g) (h : Inv st.cy st.grid above)
    (hcl : ∀ r ∈ above, r.bottom.isSome) (hg : st.growing = []) (hh : st.cy = st.grid.h) :
    ∃ st' rs, coreRows st g = some st' ∧ st'.cy ≤ st'.grid.h ∧ st'.grid.h = st'.cy + spill g ∧ RowsPlaced above st.cy g rs ∧
      IsEnd st'.grid.h (st.cy + g.length) rs ∧ Inv st'.cy st'.grid (above ++ rs) ∧ st'.growing = opens (above ++ rs) ∧
      (opens (above ++ rs) = [] ∨ HasZero g) := by
  obtain ⟨st', rs, e, hcy, hp, hi, hg', hh', hr⟩ := coreRows_inv g hv h (by rw [hg, opens_closed hcl]) (s := 0) (by omega)
    (seg := []) (.inl hh.symm)
  refine ⟨st', rs, e, by omega, hh', hp, ⟨by omega, ?_, ?_⟩, hi, hg', ?_⟩
  · intro r hr' b hb
    exact ((hi.size r (List.mem_append_right _ hr')).2.2.2.2 b hb).2
  · rw [← hcy]; simpa [Reach] using hr
  · by_cases hz : opens (above ++ rs) = []
    · exact .inl hz
    · right
      obtain ⟨k, hk⟩ := List.exists_mem_of_ne_nil _ hz
      obtain ⟨r, hr', hb, -⟩ := mem_opens.mp hk
      rcases List.mem_append.mp hr' with hr' | hr'
      · have := hcl r hr'; rw [hb] at this; cases this
      · exact rowsPlaced_zero hp r hr' hb

theorem segs_inv (ended : Bool) (segs : List (List (List Cell))) {st : Core} {above : List Rect} (hv : ∀ g ∈ segs, ValidRows g)
    (ht : Tame (ended = true) segs) (h : Inv st.cy st.grid above)
    (hcl : ∀ r ∈ above, r.bottom.isSome) (hg : st.growing = []) (hh : st.cy = st.grid.h) :
    ∃ st' rs, runSegs ended st segs = some st' ∧ Placed above st.cy segs rs st'.grid.h ∧
      Inv st'.grid.h st'.grid (above ++ rs) ∧ ∀ r ∈ above ++ rs, r.bottom.isSome := by
  induction segs generalizing st above with
  | nil =>
    refine ⟨st, [], rfl, ?_, by rw [← hh]; simpa using h, by simpa using hcl⟩
    rw [← hh]; exact .nil
  | cons g gs ih =>
    obtain ⟨st1, rs1, e1, hle, hsp, hp1, hend, hi1, hg1, hz1⟩ := seg_inv g (hv g (List.mem_cons_self ..)) h hcl hg hh
    have hclose : ∀ r ∈ above ++ rs1.map (Rect.close st1.grid.h), r.bottom.isSome := by
      intro r hr
      rcases List.mem_append.mp hr with hr | hr
      · exact hcl r hr
      · exact close_isSome r hr
    cases gs with
    | nil =>
      simp only [Tame] at ht
      have hpl : Placed above st.cy [g] (rs1.map (Rect.close st1.grid.h)) st1.grid.h := by
        have := Placed.cons hp1 hend (Placed.nil (above := above ++ rs1.map (Rect.close st1.grid.h)))
        simpa using this
      cases ended with
      | false =>
        refine ⟨st1, _, ?_, hpl, ?_, hclose⟩
        · simp [runSegs, e1]
        · apply inv_close _ rfl
          refine hi1.mono_k hle ?_
          rcases hz1 with hz | hz
          · exact .inr hz
          · rcases ht hz with h' | h'
            · left; omega
            · cases h'.2
      | true =>
        obtain ⟨st2, e2, hcy2, hh2, hi2, -⟩ := endRowGroup_inv hi1 hg1 hle (by
          rcases hz1 with hz | hz
          · exact .inl hz
          · right; rcases ht hz with h' | h' <;> omega)
        refine ⟨st2, _, ?_, by rw [hh2]; exact hpl, ?_, hclose⟩
        · simp [runSegs, e1, e2]
        · rw [hh2]; exact inv_close hi2 hh2.symm
    | cons g' gs =>
      obtain ⟨ht1, ht2⟩ := ht
      have hone : opens (above ++ rs1) = [] ∨ st1.grid.h = st1.cy + 1 := by
        rcases hz1 with hz | hz
        · exact .inl hz
        · right; have := ht1 hz; omega
      obtain ⟨st2, e2, hcy2, hh2, hi2, hgr2⟩ := endRowGroup_inv hi1 hg1 hle (by
        rcases hone with h | h
        · exact .inl h
        · right; omega)
      have hi3 := inv_close hi2 hh2.symm
      obtain ⟨st3, rs3, e3, hp3, hi4, hcl4⟩ := ih (fun g hg => hv g (List.mem_cons_of_mem _ hg)) ht2
        (st := st2) (by rw [hcy2]; exact hi3) hclose (hgr2 hone) (by omega)
      refine ⟨st3, rs1.map (Rect.close st1.grid.h) ++ rs3, ?_, ?_, by simpa using hi4, by simpa using hcl4⟩
      · simp only [runSegs, e1, Option.bind_some, e2]
        simp only [List.cons_ne_nil, false_and, if_false]
        simpa [runSegs] using e3
      · refine .cons hp1 hend ?_
        rw [hcy2] at hp3
        exact hp3

theorem shows_of_inv {g : Grid} {rs : List Rect} {k : Nat} (h : Inv k g rs) (hcl : ∀ r ∈ rs, r.bottom.isSome) : Shows g rs := by
  have hcov : ∀ r ∈ rs, ∀ x y, Cov k r x y ↔ r.Covers x y := by
    intro r hr x y
    have := hcl r hr
    cases hb : r.bottom with
    | none => rw [hb] at this; cases this
    | some b => unfold Cov Rect.Covers; rw [hb]; simp
  refine ⟨?_, h.first, ?_⟩
  · intro x y hx hy
    rcases h.slots x y hx hy with ⟨h1, h2⟩ | ⟨r, hr, hc, hs⟩
    · exact .inl ⟨h1, fun r hr hc => h2 r hr ((hcov r hr x y).mpr hc)⟩
    · exact .inr ⟨r, hr, (hcov r hr x y).mp hc, hs⟩
  · intro r hr x y hc
    have := h.size r hr
    have hs := hcl r hr
    cases hb : r.bottom with
    | none => rw [hb] at hs; cases hs
    | some b =>
      have h1 := this.2.2.2.2 b hb
      have h2 := hc.2.2.2 b hb
      have := hc.2.1
      omega

end Verif.Table
