import Verif.Rims.Lemmas
import Verif.Seams.Props
/-!
# Properties C250 and C251: separate borders, and borders around a table
-/
namespace Verif.Rims
open Verif.Table (Slot Grid Border Cell Item build harmonize)
open Verif.Table.Spec (Rect groups ValidRows HasZero Placed)
open Verif.Seams (Res pred64 Tiles covers_iff slot_of_cover slot_cases corner colSpan rowSpan Beats written written_last)

variable {g : Grid} {rs : List Rect}

/-! ## C250 -/

/-- **C250.** In a table with separate borders every side of every slot has the border of its cell, if it is at that side of
the cell, and none otherwise. -/
theorem C250_slots (h : Tiles g rs) (hf : Few g) (f : Nat → Side → Int) (s : Side) :
    ∃ ws, separate g f s = .ok ws ∧ ∀ x y, x < g.w → y < g.h →
      (∀ r ∈ rs, r.Covers x y → OnSide s r x y → filled ws (y * g.w + x) = f r.cell.id s) ∧
      ((∀ r ∈ rs, r.Covers x y → ¬OnSide s r x y) → filled ws (y * g.w + x) = 0) := by
  have hall : (allWrites g f s).all (fun p => decide (p.1 < g.w * g.h)) = true := by
    rw [List.all_eq_true]
    intro p hp
    obtain ⟨r, hr, x, y, hc, -, rfl⟩ := (write_iff h hf f s p).1 hp
    obtain ⟨hx, hy⟩ := h.shows.inside r hr x y hc
    exact decide_eq_true (place_lt hy hx)
  refine ⟨allWrites g f s, by rw [separate, if_pos hall], ?_⟩
  intro x y hx hy
  constructor
  · intro r hr hc ho
    apply filled_eq
    · exact ⟨_, (write_iff h hf f s (y * g.w + x, f r.cell.id s)).2 ⟨r, hr, x, y, hc, ho, rfl⟩, rfl⟩
    · intro p hp e
      obtain ⟨q, hq, x', y', hc', ho', rfl⟩ := (write_iff h hf f s p).1 hp
      obtain ⟨hx', hy'⟩ := h.shows.inside q hq x' y' hc'
      obtain ⟨rfl, rfl⟩ := place_inj hx' hx e
      have h1 := slot_of_cover h hr hc
      rw [slot_of_cover h hq hc'] at h1
      have : q.cell = r.cell := by injection h1 with _ _ h1; injection h1
      rw [this]
  · intro hno
    apply filled_none
    intro p hp e
    obtain ⟨q, hq, x', y', hc', ho', rfl⟩ := (write_iff h hf f s p).1 hp
    obtain ⟨hx', hy'⟩ := h.shows.inside q hq x' y' hc'
    obtain ⟨rfl, rfl⟩ := place_inj hx' hx e
    exact hno q hq hc' ho'

/-- **C250.** Every cell is laid out with its own borders. -/
theorem C250_cells (h : Tiles g rs) (hf : Few g) (f : Nat → Side → Int) (s : Side) :
    ∃ ws, separate g f s = .ok ws ∧ ∀ r ∈ rs, filled ws (readAt g r.cell r.x r.y s) = f r.cell.id s := by
  obtain ⟨ws, h1, h2⟩ := C250_slots h hf f s
  refine ⟨ws, h1, fun r hr => ?_⟩
  obtain ⟨c1, c2⟩ := corner h hr
  have k1 := h.cols r hr
  have k2 := (h.rows r hr).1
  cases s <;> simp only [readAt]
  · rw [place_eq hf (by omega) (by omega)]
    exact (h2 _ _ (by omega) (by omega)).1 r hr ((covers_iff h hr _ _).2 (by omega)) rfl
  · rw [pred64_eq (by omega), pred64_eq (by omega), place_eq hf (by omega) (by omega)]
    exact (h2 _ _ (by omega) (by omega)).1 r hr ((covers_iff h hr _ _).2 (by omega)) (by simp only [OnSide]; omega)
  · rw [pred64_eq (by omega), pred64_eq (by omega), place_eq hf (by omega) (by omega)]
    exact (h2 _ _ (by omega) (by omega)).1 r hr ((covers_iff h hr _ _).2 (by omega)) (by simp only [OnSide]; omega)
  · rw [place_eq hf (by omega) (by omega)]
    exact (h2 _ _ (by omega) (by omega)).1 r hr ((covers_iff h hr _ _).2 (by omega)) rfl

/-- **C250 (in part).** The same for the tables that documents make, with any spans but `rowspan=0`, if cells do not
overlap. -/
theorem C250_tables_partial (items : List Item) (hv : ∀ g ∈ groups items, ValidRows g) (hz : ∀ g ∈ groups items, ¬HasZero g) :
    ∃ st rs, build items = some st ∧ Placed [] 0 (groups items) rs st.core.grid.h ∧
      ((rs.Pairwise fun a b => ∀ x y, a.Covers x y → ¬b.Covers x y) → Few st.core.grid →
        ∀ (f : Nat → Side → Int) (s : Side), ∃ ws, separate st.core.grid f s = .ok ws ∧
          ∀ r ∈ rs, filled ws (readAt st.core.grid r.cell r.x r.y s) = f r.cell.id s) := by
  obtain ⟨st, rs, hb, hp, hs⟩ := Table.C28_cells_placed_partial items hv (Seams.tame_of_nozero _ hz)
  exact ⟨st, rs, hb, hp, fun ha hf f s => C250_cells (Seams.tiles_of_build hb hp hs hv hz ha) hf f s⟩

/-! A table with spans: `1` over `3`, `4`; `2` beside them, two rows high; below a cell of three. -/

private def gridOf (items : List Item) : Grid := ((build items).map (·.core.grid)).getD ⟨0, 0, fun x y => ⟨x, y, none⟩⟩

private def sampleGrid : Grid := gridOf [.body [[⟨1, 1, 2⟩, ⟨2, 2, 1⟩], [⟨3, 1, 1⟩, ⟨4, 1, 1⟩], [⟨5, 1, 3⟩]]]

private def sampleRects : List Rect :=
  [⟨⟨1, 1, 2⟩, 0, 0, some 1⟩, ⟨⟨2, 2, 1⟩, 2, 0, some 2⟩, ⟨⟨3, 1, 1⟩, 0, 1, some 2⟩, ⟨⟨4, 1, 1⟩, 1, 1, some 2⟩, ⟨⟨5, 1, 3⟩, 0, 2, some 3⟩]

private theorem sample_tiles : Tiles sampleGrid sampleRects :=
  Seams.tiles_of_check (by decide +kernel) (by decide +kernel) (by decide +kernel)

private def byId : Nat → Side → Int := fun c s =>
  10 * c + (match s with | .top => 1 | .fin => 2 | .bottom => 3 | .start => 4)

example : Tiles sampleGrid sampleRects ∧ Few sampleGrid ∧ ([Side.top, .fin, .bottom, .start].map fun s =>
    match separate sampleGrid byId s with
    | .ok ws => (List.range 9).map (filled ws)
    | _ => []) =
    [[11, 11, 21, 31, 41, 0, 51, 51, 51], [0, 12, 22, 32, 42, 22, 0, 0, 52], [13, 13, 0, 33, 43, 23, 53, 53, 53],
     [14, 0, 24, 34, 44, 24, 54, 0, 0]] :=
  ⟨sample_tiles, by unfold Few; decide +kernel, by decide +kernel⟩

/-- A cell with `rowspan=0` in the first row: the code writes outside of the table. -/
theorem C250_zero_fails : separate (gridOf [.body [[⟨1, 0, 1⟩, ⟨2, 1, 1⟩], [⟨3, 1, 1⟩]]]) byId .bottom = .panic := by
  decide +kernel

/-- In another row its lower border goes to the cell above, and it has no borders on the left and right. -/
theorem C250_zero_above_fails :
    let g := gridOf [.body [[⟨1, 1, 1⟩, ⟨2, 1, 1⟩], [⟨3, 0, 1⟩, ⟨4, 1, 1⟩]]]
    (match separate g byId .bottom with | .ok ws => some (filled ws (readAt g ⟨1, 1, 1⟩ 0 0 .bottom)) | _ => none) = some 33 ∧
    (match separate g byId .start with | .ok ws => some (filled ws (readAt g ⟨3, 0, 1⟩ 0 1 .start)) | _ => none) = some 0 := by
  decide +kernel

/-! ## C251 -/

theorem written_eq {ws : List (Nat × Border)} {k : Nat} {v : Border} (h1 : ∃ p ∈ ws, p.1 = k) (h2 : ∀ p ∈ ws, p.1 = k → p.2 = v) :
    written ws k = v := by
  have key : ∀ (l : List (Nat × Border)) (acc : Border), (∀ p ∈ l, p.1 = k → p.2 = v) → ((∃ p ∈ l, p.1 = k) ∨ acc = v) →
      l.foldl (fun acc w => if w.1 = k then w.2 else acc) acc = v := by
    intro l
    induction l with
    | nil =>
      intro acc _ h
      rcases h with ⟨p, hp, -⟩ | h
      · cases hp
      · exact h
    | cons q l ih =>
      intro acc ha h
      rw [List.foldl_cons]
      apply ih _ (fun p hp => ha p (List.mem_cons_of_mem _ hp))
      by_cases hq : q.1 = k
      · rw [if_pos hq]; exact .inr (ha q List.mem_cons_self hq)
      · rw [if_neg hq]
        rcases h with ⟨p, hp, e⟩ | h
        · rcases List.mem_cons.1 hp with rfl | hp
          · exact absurd e hq
          · exact .inl ⟨p, hp, e⟩
        · exact .inr h
  exact key ws _ h2 (.inl h1)

/-- A cell at a side of the table: what the loop sees there, and where it writes is where the cell reads. -/
theorem edge_slot (h : Tiles g rs) (hf : Few g) {r : Rect} (hr : r ∈ rs) (s : Side) (he : AtEdge g s r) :
    begins s r < length g s ∧ sideRow g s (begins s r) = ⟨r.x, r.y, some r.cell⟩ ∧
      (sideLine g s).lead ⟨r.x, r.y, some r.cell⟩ = begins s r ∧
      target g s (begins s r) ⟨r.x, r.y, some r.cell⟩ = readAt g r.cell r.x r.y s := by
  obtain ⟨c1, c2⟩ := corner h hr
  have k1 := h.cols r hr
  have k2 := (h.rows r hr).1
  cases s with
  | top =>
    have he : r.y = 0 := he
    exact ⟨by simp only [begins, length]; omega, slot_of_cover h hr ((covers_iff h hr _ _).2 (by simp only [begins]; omega)), rfl,
      by simp only [target, readAt, begins, he]⟩
  | bottom =>
    have he : r.y + r.cell.rowSpan = g.h := he
    exact ⟨by simp only [begins, length]; omega, slot_of_cover h hr ((covers_iff h hr _ _).2 (by simp only [begins]; omega)), rfl,
      by simp only [target, readAt, colSpan, he]⟩
  | start =>
    have he : r.x = 0 := he
    exact ⟨by simp only [begins, length]; omega, slot_of_cover h hr ((covers_iff h hr _ _).2 (by simp only [begins]; omega)), rfl,
      by simp only [target, readAt, begins, he]⟩
  | fin =>
    have he : r.x + r.cell.colSpan = g.w := he
    exact ⟨by simp only [begins, length]; omega, slot_of_cover h hr ((covers_iff h hr _ _).2 (by simp only [begins]; omega)), rfl,
      by simp only [target, readAt, rowSpan, he]⟩

/-- The cell that a slot at a side of the table shows is at that side. -/
theorem slot_edge (h : Tiles g rs) (s : Side) {k : Nat} (hw : 0 < g.w) (hh : 0 < g.h) (hk : k < length g s)
    (hb : (sideRow g s k).box.isSome) (hl : (sideLine g s).lead (sideRow g s k) = k) :
    ∃ r ∈ rs, AtEdge g s r ∧ sideRow g s k = ⟨r.x, r.y, some r.cell⟩ ∧ begins s r = k := by
  have key : ∃ x y, x < g.w ∧ y < g.h ∧ sideRow g s k = g.slot x y ∧ (s = .top → y = 0) ∧ (s = .bottom → y = g.h - 1) ∧
      (s = .start → x = 0) ∧ (s = .fin → x = g.w - 1) := by
    cases s with
    | top => exact ⟨k, 0, hk, hh, rfl, fun _ => rfl, nofun, nofun, nofun⟩
    | bottom => exact ⟨k, g.h - 1, hk, by omega, rfl, nofun, fun _ => rfl, nofun, nofun⟩
    | start => exact ⟨0, k, hw, hk, rfl, nofun, nofun, fun _ => rfl, nofun⟩
    | fin => exact ⟨g.w - 1, k, by omega, hk, rfl, nofun, nofun, nofun, fun _ => rfl⟩
  obtain ⟨x, y, hx, hy, e, e1, e2, e3, e4⟩ := key
  rcases slot_cases h hx hy with he | ⟨r, hr, hc, he⟩
  · rw [e, he] at hb; cases hb
  · rw [e, he] at hl
    refine ⟨r, hr, ?_, e.trans he, ?_⟩
    · rw [covers_iff h hr] at hc
      obtain ⟨c1, c2⟩ := corner h hr
      cases s with
      | top => have := e1 rfl; simp only [AtEdge]; omega
      | bottom => have := e2 rfl; simp only [AtEdge]; omega
      | start => have := e3 rfl; simp only [AtEdge]; omega
      | fin => have := e4 rfl; simp only [AtEdge]; omega
    · cases s <;> exact hl

/-- **C251 (in part).** In a table with collapsed borders, a cell at a side of the table has there the strongest of its own
border, that of the table, and those of its row, its column and their groups; whatever was written before. -/
theorem C251_edge_partial (h : Tiles g rs) (hf : Few g) (hne : rs ≠ []) (s : Side) (B : Borders) :
    ∃ ws, edge g s B = .ok ws ∧ ∀ r ∈ rs, AtEdge g s r → ∀ earlier,
      Beats (written (earlier ++ ws) (readAt g r.cell r.x r.y s)) ([B.cell r.cell.id, B.table] ++ B.lines (begins s r)) ∧
      (written (earlier ++ ws) (readAt g r.cell r.x r.y s) ∈ [B.cell r.cell.id, B.table] ++ B.lines (begins s r) ∨
        written (earlier ++ ws) (readAt g r.cell r.x r.y s) = ⟨0, .none, 0⟩) := by
  obtain ⟨r0, hr0⟩ := List.exists_mem_of_ne_nil rs hne
  obtain ⟨d1, d2⟩ := corner h hr0
  have d3 := h.cols r0 hr0
  have d4 := (h.rows r0 hr0).1
  have hw : 0 < g.w := by omega
  have hh : 0 < g.h := by omega
  have hb0 : Seams.Bd (sideLine g s) (sideRow g s) 0 := by
    intro h0
    have := (side_tiled h hw hh s).lo 0 h0
    omega
  obtain ⟨l, h1, h2, h3⟩ := walk_facts h hw hh s (length g s + 1) 0 (Nat.zero_le _) (by omega) hb0
  have hread : ∀ r ∈ rs, readAt g r.cell r.x r.y s < g.w * g.h := by
    intro r hr
    obtain ⟨c1, c2⟩ := corner h hr
    have k1 := h.cols r hr
    have k2 := (h.rows r hr).1
    cases s <;> simp only [readAt]
    · rw [place_eq hf (by omega) (by omega)]; exact place_lt (by omega) (by omega)
    · rw [pred64_eq (by omega), pred64_eq (by omega), place_eq hf (by omega) (by omega)]; exact place_lt (by omega) (by omega)
    · rw [pred64_eq (by omega), pred64_eq (by omega), place_eq hf (by omega) (by omega)]; exact place_lt (by omega) (by omega)
    · rw [place_eq hf (by omega) (by omega)]; exact place_lt (by omega) (by omega)
  have hwr : ∀ p ∈ l, ∃ r ∈ rs, AtEdge g s r ∧ p = (begins s r, ⟨r.x, r.y, some r.cell⟩) := by
    intro p hp
    obtain ⟨p1, p2, p3, p4⟩ := h2 p hp
    rw [p2] at p3 p4
    obtain ⟨r, hr, he, e1, e2⟩ := slot_edge h s hw hh p1 p3 p4
    refine ⟨r, hr, he, ?_⟩
    rw [← e1, e2, ← p2]
  have hall : (l.map fun p => (target g s p.1 p.2, final B p.1 p.2)).all (fun p => decide (p.1 < g.w * g.h)) = true := by
    rw [List.all_eq_true]
    intro q hq
    obtain ⟨p, hp, rfl⟩ := List.mem_map.1 hq
    obtain ⟨r, hr, he, rfl⟩ := hwr p hp
    apply decide_eq_true
    simp only
    rw [(edge_slot h hf hr s he).2.2.2]
    exact hread r hr
  refine ⟨_, by rw [edge, h1]; simp only [Res.bind]; rw [if_pos hall], ?_⟩
  intro r hr he earlier
  obtain ⟨b1, b2, b3, b4⟩ := edge_slot h hf hr s he
  have hm : (begins s r, (⟨r.x, r.y, some r.cell⟩ : Slot)) ∈ l := by
    have := h3 (begins s r) (Nat.zero_le _) b1 (by rw [b2]; rfl) (by rw [b2, b3])
    rwa [b2] at this
  have hval : written (earlier ++ l.map fun p => (target g s p.1 p.2, final B p.1 p.2)) (readAt g r.cell r.x r.y s) =
      final B (begins s r) ⟨r.x, r.y, some r.cell⟩ := by
    have hex : ∃ p ∈ l.map fun p => (target g s p.1 p.2, final B p.1 p.2), p.1 = readAt g r.cell r.x r.y s :=
      ⟨_, List.mem_map.2 ⟨_, hm, rfl⟩, b4⟩
    rw [written_last _ _ _ hex]
    apply written_eq hex
    intro q hq e
    obtain ⟨p, hp, rfl⟩ := List.mem_map.1 hq
    obtain ⟨t, ht, hte, rfl⟩ := hwr p hp
    simp only at e ⊢
    rw [(edge_slot h hf ht s hte).2.2.2] at e
    have : t = r := by
      obtain ⟨c1, c2⟩ := corner h hr
      have k1 := h.cols r hr
      have k2 := (h.rows r hr).1
      obtain ⟨c3, c4⟩ := corner h ht
      have k3 := h.cols t ht
      have k4 := (h.rows t ht).1
      have same : ∀ x y, t.Covers x y → r.Covers x y → t = r := fun x y ha hb =>
        Seams.pairwise_eq h.apart ht hr (fun hh => hh x y ha hb) (fun hh => hh x y hb ha)
      have hcase : (∃ i j, i < g.h ∧ j < g.w ∧ t.Covers j i ∧ ∃ i' j', i' < g.h ∧ j' < g.w ∧ r.Covers j' i' ∧ i * g.w + j = i' * g.w + j') := by
        cases s <;> simp only [readAt] at e
        · rw [place_eq hf (by omega) (by omega), place_eq hf (by omega) (by omega)] at e
          exact ⟨t.y, t.x, by omega, by omega, (covers_iff h ht _ _).2 (by omega), r.y, r.x, by omega, by omega,
            (covers_iff h hr _ _).2 (by omega), e⟩
        · rw [pred64_eq (by omega), pred64_eq (by omega), pred64_eq (by omega), pred64_eq (by omega),
            place_eq hf (by omega) (by omega), place_eq hf (by omega) (by omega)] at e
          exact ⟨_, _, by omega, by omega, (covers_iff h ht _ _).2 (by omega), _, _, by omega, by omega,
            (covers_iff h hr _ _).2 (by omega), e⟩
        · rw [pred64_eq (by omega), pred64_eq (by omega), pred64_eq (by omega), pred64_eq (by omega),
            place_eq hf (by omega) (by omega), place_eq hf (by omega) (by omega)] at e
          exact ⟨_, _, by omega, by omega, (covers_iff h ht _ _).2 (by omega), _, _, by omega, by omega,
            (covers_iff h hr _ _).2 (by omega), e⟩
        · rw [place_eq hf (by omega) (by omega), place_eq hf (by omega) (by omega)] at e
          exact ⟨t.y, t.x, by omega, by omega, (covers_iff h ht _ _).2 (by omega), r.y, r.x, by omega, by omega,
            (covers_iff h hr _ _).2 (by omega), e⟩
      obtain ⟨i, j, -, hj, ca, i', j', -, hj', cb, e'⟩ := hcase
      obtain ⟨rfl, rfl⟩ := place_inj hj hj' e'
      exact same _ _ ca cb
    rw [this]
  rw [hval]
  refine ⟨?_, ?_⟩
  · unfold final
    exact Seams.harmonize_beats _ _ (fun o ho => ho)
  · rcases Seams.foldl_mem ([B.cell r.cell.id, B.table] ++ B.lines (begins s r)) ⟨0, .none, 0⟩ with hh | hh
    · exact .inr hh
    · exact .inl hh

private def thin : Borders := ⟨fun c => ⟨c, .solid, c⟩, ⟨3, .dashed, 0⟩, fun k => if k = 2 then [⟨4, .dotted, 9⟩] else []⟩

example : Tiles sampleGrid sampleRects ∧ Few sampleGrid ∧ sampleRects ≠ [] ∧ AtEdge sampleGrid .fin ⟨⟨2, 2, 1⟩, 2, 0, some 2⟩ ∧
    edge sampleGrid .top thin = .ok [(0, ⟨3, .dashed, 0⟩), (2, ⟨4, .dotted, 9⟩)] ∧
    edge sampleGrid .bottom thin = .ok [(8, ⟨5, .solid, 5⟩)] ∧
    edge sampleGrid .fin thin = .ok [(5, ⟨3, .dashed, 0⟩), (8, ⟨5, .solid, 5⟩)] ∧
    edge sampleGrid .start thin = .ok [(0, ⟨3, .dashed, 0⟩), (3, ⟨3, .solid, 3⟩), (6, ⟨5, .solid, 5⟩)] :=
  ⟨sample_tiles, by unfold Few; decide +kernel, by decide, rfl, by decide +kernel, by decide +kernel, by decide +kernel, by decide +kernel⟩

/-- The border of the table has a gap where a row has less cells than the table has columns. -/
theorem C251_gap_fails : edge (gridOf [.body [[⟨1, 1, 1⟩], [⟨2, 1, 1⟩, ⟨3, 1, 1⟩]]]) .top thin = .ok [(0, ⟨3, .dashed, 0⟩)] := by
  decide +kernel

/-- A table whose rows have no cells: the code panics. -/
theorem C251_empty_fails : edge (gridOf [.body [[]]]) .start thin = .panic := by
  decide +kernel

end Verif.Rims
