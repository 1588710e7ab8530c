import Verif.Table.Build
/-! # The grid of a table: ranges of rows and columns, borders -/
namespace Verif.Table
open Spec

/-- The columns are those of the beginning. -/
def SameCols (a b : St) : Prop := a.cols = b.cols ∧ a.colGroups = b.colGroups

theorem groupRows_cols (rows : List (List Cell)) (st st' : St) (e : groupRows st rows = some st') : SameCols st' st := by
  induction rows generalizing st with
  | nil => cases e; exact ⟨rfl, rfl⟩
  | cons r rs ih =>
    simp only [groupRows] at e
    cases hp : processRow st.core r with
    | none => rw [hp] at e; cases e
    | some k => rw [hp] at e; have h := ih _ e; exact h

theorem processRowGroup_cols (rows : List (List Cell)) (st st' : St) (e : processRowGroup st rows = some st') : SameCols st' st := by
  unfold processRowGroup at e
  cases hg : groupRows st rows with
  | none => rw [hg] at e; cases e
  | some s1 =>
    rw [hg] at e
    simp only [Option.bind_some] at e
    cases he : endRowGroup s1.core with
    | none => rw [he] at e; cases e
    | some k =>
      rw [he] at e
      simp only [Option.bind_some, Option.some.injEq] at e
      subst e
      exact groupRows_cols rows st s1 hg

theorem rowsLoop_cols (items : List Item) (st st' : St) (hd : Bool) (fs fs' : List (List (List Cell)))
    (e : rowsLoop st hd fs items = some (st', fs')) : SameCols st' st := by
  induction items generalizing st hd fs with
  | nil => cases e; exact ⟨rfl, rfl⟩
  | cons i rest ih =>
    cases i with
    | colGroup a b => exact ih st hd fs e
    | row cells =>
      simp only [rowsLoop] at e
      cases hp : processRow st.core cells with
      | none => rw [hp] at e; cases e
      | some k => rw [hp] at e; have h := ih _ _ _ e; exact h
    | foot rows =>
      simp only [rowsLoop] at e
      cases hp : endRowGroup st.core with
      | none => rw [hp] at e; cases e
      | some k => rw [hp] at e; have h := ih _ _ _ e; exact h
    | head rows =>
      simp only [rowsLoop] at e
      cases hp : endRowGroup st.core with
      | none => rw [hp] at e; cases e
      | some k =>
        rw [hp] at e
        simp only [Option.bind_some] at e
        split at e
        · cases hg : processRowGroup { st with core := k } rows with
          | none => rw [hg] at e; cases e
          | some s1 =>
            rw [hg] at e
            have h1 := ih _ _ _ e
            have h2 := processRowGroup_cols _ _ _ hg
            exact ⟨h1.1.trans h2.1, h1.2.trans h2.2⟩
        · have h := ih _ _ _ e; exact h
    | body rows =>
      simp only [rowsLoop] at e
      cases hp : endRowGroup st.core with
      | none => rw [hp] at e; cases e
      | some k =>
        rw [hp] at e
        simp only [Option.bind_some] at e
        cases hg : processRowGroup { st with core := k } rows with
        | none => rw [hg] at e; cases e
        | some s1 =>
          rw [hg] at e
          have h1 := ih _ _ _ e
          have h2 := processRowGroup_cols _ _ _ hg
          exact ⟨h1.1.trans h2.1, h1.2.trans h2.2⟩

theorem footLoop_cols (fs : List (List (List Cell))) (st st' : St) (e : footLoop st fs = some st') : SameCols st' st := by
  induction fs generalizing st with
  | nil => cases e; exact ⟨rfl, rfl⟩
  | cons f fs ih =>
    simp only [footLoop] at e
    cases hg : processRowGroup st f with
    | none => rw [hg] at e; cases e
    | some s1 =>
      rw [hg] at e
      have h1 := ih _ e
      have h2 := processRowGroup_cols _ _ _ hg
      exact ⟨h1.1.trans h2.1, h1.2.trans h2.2⟩

theorem build_cols (items : List Item) (st : St) (e : build items = some st) : SameCols st (colGroups {} items).1 := by
  unfold build at e
  simp only at e
  obtain ⟨s1, e1, e⟩ := Option.bind_eq_some_iff.mp e
  obtain ⟨⟨s2, fs⟩, e2, e⟩ := Option.bind_eq_some_iff.mp e
  have h3 := footLoop_cols _ _ _ e
  have h2 := rowsLoop_cols _ _ _ _ _ _ e2
  have h1 : SameCols s1 (colGroups {} items).1 := by
    cases hf : firstHead items with
    | none => rw [hf] at e1; cases e1; exact ⟨rfl, rfl⟩
    | some rows => rw [hf] at e1; have h := processRowGroup_cols _ _ _ e1; exact h
  exact ⟨h3.1.trans (h2.1.trans h1.1), h3.2.trans (h2.2.trans h1.2)⟩

theorem groupCols_spec (cols : List Nat) (st : St) :
    (groupCols st cols).cols = st.cols ++ ranges st.core.grid.w cols ∧
    (groupCols st cols).core.grid.w = st.core.grid.w + cols.foldr (· + ·) 0 ∧
    (groupCols st cols).colGroups = st.colGroups := by
  induction cols generalizing st with
  | nil => simp [groupCols, ranges]
  | cons n ns ih =>
    obtain ⟨h1, h2, h3⟩ := ih { st with core := { st.core with grid := st.core.grid.increaseWidth n }, cols := st.cols ++ [⟨st.core.grid.w + n - n, st.core.grid.w + n - 1⟩] }
    refine ⟨?_, ?_, h3⟩
    · refine h1.trans ?_
      simp [ranges, Grid.increaseWidth]
    · refine h2.trans ?_
      simp [Grid.increaseWidth]; omega

theorem colGroups_spec (items : List Item) (st : St) :
    (colGroups st items).1.cols = st.cols ++ columnRanges st.core.grid.w (leading items) ∧
    ((∀ g ∈ leading items, g.1 ≠ []) →
      (colGroups st items).1.colGroups = st.colGroups ++ ranges st.core.grid.w ((leading items).map spanned)) := by
  induction items generalizing st with
  | nil => simp [colGroups, leading, columnRanges, ranges]
  | cons i rest ih =>
    cases i with
    | colGroup cols span =>
      simp only [leading, colGroups]
      obtain ⟨h1, h2⟩ := ih (colGroup st cols span)
      cases cols with
      | nil =>
        refine ⟨?_, ?_⟩
        · rw [h1]; simp [colGroup, Grid.increaseWidth, columnRanges, ranges, spanned]
        · intro hg; exact absurd rfl (hg _ (List.mem_cons_self ..))
      | cons n ns =>
        obtain ⟨g1, g2, g3⟩ := groupCols_spec (n :: ns) st
        refine ⟨?_, ?_⟩
        · rw [h1]
          simp only [colGroup, columnRanges, spanned, g1, g2, List.append_assoc]
        · intro hg
          rw [h2 (fun g hg' => hg g (List.mem_cons_of_mem _ hg'))]
          simp only [colGroup, List.map_cons, spanned, ranges, g2, g3, List.append_assoc, List.cons_append, List.nil_append]
    | _ => simp [colGroups, leading, columnRanges, ranges]

/-! ## Rows -/

theorem placeCells_oneRow (cs : List Cell) (st st' : Core) (x : Nat) (hb : RowBounds st x) (h1 : ∀ c ∈ cs, c.rowSpan ≤ 1)
    (e : placeCells st x cs = some st') : st'.grid.h = st.grid.h ∧ st'.cy = st.cy := by
  induction cs generalizing st x with
  | nil => cases e; exact ⟨rfl, rfl⟩
  | cons c cs ih =>
    obtain ⟨x', g', e', a1, a2, a3, a4, hw, hh, hs⟩ := placeCell_spec st x c hb
    have hr := room_size st.grid x' st.cy c
    simp only [placeCells, e', Option.bind_some] at e
    have hc := h1 c (List.mem_cons_self ..)
    have hcy := hb.cy
    have hgh : g'.h = st.grid.h := by
      rw [hh, hr.2.2.2]
      split <;> omega
    have hb' : RowBounds { st with
        grid := g', growing := if c.rowSpan = 0 then st.growing ++ [⟨x', st.cy, x', c.colSpan⟩] else st.growing } (x' + c.colSpan) := by
      refine ⟨by simp only; omega, by simp only; omega, ?_⟩
      intro k hk
      simp only at hk ⊢
      have old : ∀ k ∈ st.growing, k.ax < g'.w ∧ k.ay ≤ st.cy ∧ k.x + k.width ≤ g'.w := by
        intro k hk; have := hb.grow k hk; omega
      split at hk
      · rcases List.mem_append.mp hk with hk | hk
        · exact old k hk
        · simp only [List.mem_singleton] at hk
          subst hk
          simp only
          omega
      · exact old k hk
    obtain ⟨k1, k2⟩ := ih _ _ hb' (fun c hc => h1 c (List.mem_cons_of_mem _ hc)) e
    simp only at k1 k2
    exact ⟨by omega, k2⟩

theorem processRow_oneRow (cells : List Cell) (st : Core) (hb : Bounds st) (h0 : st.cy = st.grid.h) (h1 : ∀ c ∈ cells, c.rowSpan ≤ 1) :
    ∃ st', processRow st cells = some st' ∧ Bounds st' ∧ st'.cy = st'.grid.h ∧ st'.grid.h = st.grid.h + 1 := by
  obtain ⟨st', e, hb'⟩ := processRow_bounds st cells hb
  refine ⟨st', e, hb', ?_⟩
  obtain ⟨g', eg, hw, hh, -⟩ := rowStart_spec st hb
  unfold processRow at e
  simp only [eg, Option.bind_some] at e
  have hrb : RowBounds { st with grid := g' } 0 := by
    refine ⟨by simp only; omega, Nat.zero_le _, ?_⟩
    intro k hk
    have := hb.grow k hk
    simp only
    omega
  cases hp : placeCells { st with grid := g' } 0 cells with
  | none => rw [hp] at e; cases e
  | some s1 =>
    rw [hp] at e
    simp only [Option.bind_some, Option.some.injEq] at e
    obtain ⟨k1, k2⟩ := placeCells_oneRow cells _ s1 0 hrb h1 hp
    subst e
    simp only at *
    omega

theorem ownRows_append (y n m : Nat) : ownRows y (n + m) = ownRows y n ++ ownRows (y + n) m := by
  induction n generalizing y with
  | zero => simp [ownRows]
  | succ n ih =>
    rw [show n + 1 + m = (n + m) + 1 from by omega]
    simp only [ownRows, List.cons_append]
    rw [ih, show y + 1 + n = y + (n + 1) from by omega]

theorem groupRows_own (rows : List (List Cell)) (st : St) (hb : Bounds st.core) (h0 : st.core.cy = st.core.grid.h)
    (h1 : OneRow rows) :
    ∃ st', groupRows st rows = some st' ∧ Bounds st'.core ∧ st'.core.cy = st'.core.grid.h ∧
      st'.core.grid.h = st.core.grid.h + rows.length ∧ st'.rows = st.rows ++ ownRows st.core.grid.h rows.length := by
  induction rows generalizing st with
  | nil => exact ⟨st, rfl, hb, h0, rfl, by simp [ownRows]⟩
  | cons r rs ih =>
    obtain ⟨k, e, hbk, hk0, hkh⟩ := processRow_oneRow r st.core hb h0 (h1 r (List.mem_cons_self ..))
    obtain ⟨st', e', hb', h0', hh', hr'⟩ := ih { st with core := k, rows := st.rows ++ [⟨st.core.grid.h, k.grid.h - 1⟩] } hbk hk0
      (fun r hr => h1 r (List.mem_cons_of_mem _ hr))
    refine ⟨st', ?_, hb', h0', ?_, ?_⟩
    · simp only [groupRows, e, Option.bind_some, e']
    · simp only [List.length_cons] at *; omega
    · rw [hr']
      simp only [List.length_cons, ownRows, hkh, Nat.add_sub_cancel, List.append_assoc, List.cons_append, List.nil_append]

/-- The groups of a table that has no rows of its own. -/
def GroupsOnly (items : List Item) : Prop := ∀ i ∈ items, ∀ cells, i ≠ .row cells

/-- The rows recorded are those of the state. -/
structure OwnRows (st : St) : Prop where
  bounds : Bounds st.core
  full : st.core.cy = st.core.grid.h
  rows : st.rows = ownRows 0 st.core.grid.h

theorem processRowGroup_own (rows : List (List Cell)) (st : St) (h : OwnRows st) (h1 : OneRow rows) :
    ∃ st', processRowGroup st rows = some st' ∧ OwnRows st' ∧ st'.core.grid.h = st.core.grid.h + rows.length := by
  obtain ⟨s1, e1, hb1, h01, hh1, hr1⟩ := groupRows_own rows st h.bounds h.full h1
  have e2 := endRowGroup_noop h01
  refine ⟨{ s1 with rowGroups := if s1.core.grid.h > st.core.grid.h then
      s1.rowGroups ++ [⟨st.core.grid.h, s1.core.grid.h - 1⟩] else s1.rowGroups },
    by simp only [processRowGroup, e1, Option.bind_some, e2], ⟨hb1, h01, ?_⟩, hh1⟩
  show s1.rows = ownRows 0 s1.core.grid.h
  rw [hr1, hh1, ownRows_append, h.rows, Nat.zero_add]

theorem rowsLoop_own (items : List Item) (st : St) (hd : Bool) (fs : List (List (List Cell))) (h : OwnRows st)
    (hg : GroupsOnly items) (h1 : ∀ g ∈ (between hd [] items).1, OneRow g) :
    ∃ st', rowsLoop st hd fs items = some (st', fs ++ feet items) ∧ OwnRows st' ∧
      st'.core.grid.h = st.core.grid.h + ((between hd [] items).1.flatten).length ∧ (between hd [] items).2 = [] := by
  induction items generalizing st hd fs with
  | nil => exact ⟨st, by simp [rowsLoop, feet], h, rfl, rfl⟩
  | cons i rest ih =>
    have hg' : GroupsOnly rest := fun i hi => hg i (List.mem_cons_of_mem _ hi)
    have e0 := endRowGroup_noop h.full
    cases i with
    | colGroup a b => exact ih st hd fs h hg' h1
    | row cells => exact absurd rfl (hg _ (List.mem_cons_self ..) cells)
    | foot rows =>
      obtain ⟨st', e, ho, hh, ht⟩ := ih st hd (fs ++ [rows]) h hg' (by simpa [between, run] using h1)
      refine ⟨st', ?_, ho, ?_, by simpa [between] using ht⟩
      · simp only [rowsLoop, e0, Option.bind_some, e]; simp [feet]
      · simpa [between, run] using hh
    | head rows =>
      cases hd with
      | true =>
        simp only [between, run, if_true, List.nil_append, List.cons_append, List.mem_cons, forall_eq_or_imp] at h1
        obtain ⟨s1, e1, o1, hh1⟩ := processRowGroup_own rows st h h1.1
        obtain ⟨st', e, ho, hh, ht⟩ := ih s1 true fs o1 hg' h1.2
        refine ⟨st', ?_, ho, ?_, by simpa [between] using ht⟩
        · simp only [rowsLoop, e0, Option.bind_some, if_true, e1, e]; simp [feet]
        · simp only [between, run, if_true, List.nil_append, List.cons_append, List.flatten_cons, List.length_append]; omega
      | false =>
        obtain ⟨st', e, ho, hh, ht⟩ := ih st true fs h hg' (by simpa [between, run] using h1)
        refine ⟨st', ?_, ho, ?_, by simpa [between] using ht⟩
        · simp only [rowsLoop, e0, Option.bind_some, e]; simp [feet]
        · simpa [between, run] using hh
    | body rows =>
      simp only [between, run, if_true, List.nil_append, List.cons_append, List.mem_cons, forall_eq_or_imp] at h1
      obtain ⟨s1, e1, o1, hh1⟩ := processRowGroup_own rows st h h1.1
      obtain ⟨st', e, ho, hh, ht⟩ := ih s1 hd fs o1 hg' h1.2
      refine ⟨st', ?_, ho, ?_, by simpa [between] using ht⟩
      · simp only [rowsLoop, e0, Option.bind_some, e1, e]; simp [feet]
      · simp only [between, run, if_true, List.nil_append, List.cons_append, List.flatten_cons, List.length_append]; omega

theorem footLoop_own (fs : List (List (List Cell))) (st : St) (h : OwnRows st) (h1 : ∀ g ∈ fs, OneRow g) :
    ∃ st', footLoop st fs = some st' ∧ OwnRows st' ∧ st'.core.grid.h = st.core.grid.h + fs.flatten.length := by
  induction fs generalizing st with
  | nil => exact ⟨st, rfl, h, rfl⟩
  | cons f fs ih =>
    obtain ⟨s1, e1, o1, hh1⟩ := processRowGroup_own f st h (h1 f (List.mem_cons_self ..))
    obtain ⟨st', e, ho, hh⟩ := ih s1 o1 (fun g hg => h1 g (List.mem_cons_of_mem _ hg))
    refine ⟨st', by simp only [footLoop, e1, Option.bind_some, e], ho, ?_⟩
    simp only [List.flatten_cons, List.length_append]; omega

theorem colGroups_mem (items : List Item) (st : St) : ∀ i ∈ (colGroups st items).2, i ∈ items := by
  induction items generalizing st with
  | nil => simp [colGroups]
  | cons i rest ih =>
    cases i with
    | colGroup cols span => intro i hi; exact List.mem_cons_of_mem _ (ih _ i hi)
    | _ => simp [colGroups]

theorem groupCols_rows (cols : List Nat) (st : St) : (groupCols st cols).rows = st.rows := by
  induction cols generalizing st with
  | nil => rfl
  | cons c cs ih => exact ih _

theorem colGroups_rows (items : List Item) (st : St) : (colGroups st items).1.rows = st.rows := by
  induction items generalizing st with
  | nil => rfl
  | cons i rest ih =>
    cases i with
    | colGroup cols span =>
      refine (ih _).trans ?_
      cases cols with
      | nil => rfl
      | cons c cs => exact groupCols_rows (c :: cs) st
    | _ => rfl

theorem between_none (items : List Item) (hd : Bool) (hg : GroupsOnly items) : (between hd [] items).2 = [] := by
  induction items generalizing hd with
  | nil => rfl
  | cons i rest ih =>
    have hg' : GroupsOnly rest := fun i hi => hg i (List.mem_cons_of_mem _ hi)
    cases i with
    | row cells => exact absurd rfl (hg _ (List.mem_cons_self ..) cells)
    | _ => exact ih _ hg'

theorem build_own (items : List Item) (hg : GroupsOnly items) (h1 : ∀ g ∈ groups items, OneRow g) :
    ∃ st, build items = some st ∧ st.rows = ownRows 0 (groups items).flatten.length := by
  have hbl := start_blank items
  have ho : OwnRows { (colGroups {} items).1 with core := start items } := by
    refine ⟨hbl.bounds, by show (start items).cy = (start items).grid.h; rw [hbl.cy, hbl.h], ?_⟩
    show (colGroups {} items).1.rows = ownRows 0 (start items).grid.h
    rw [hbl.h, colGroups_rows]; rfl
  have hrest := colGroups_rest items {} false
  have hgr : GroupsOnly (colGroups {} items).2 := fun i hi => hg i (colGroups_mem _ _ i hi)
  have hbt : (between false [] items).2 = [] := between_none items false hg
  have hgs : (groups items) = head items ++ (between false [] items).1 ++ feet items := by
    unfold groups
    rw [hbt]
    cases feet items <;> simp [run]
  rw [hgs] at h1
  have hH : ∃ s1, (match firstHead items with
      | some rows => processRowGroup { (colGroups {} items).1 with core := start items } rows
      | none => some { (colGroups {} items).1 with core := start items }) = some s1 ∧ OwnRows s1 ∧
      s1.core.grid.h = (head items).flatten.length := by
    have hh := head_firstHead items
    cases hf : firstHead items with
    | none =>
      refine ⟨_, rfl, ho, ?_⟩
      rw [hh, hf]; exact hbl.h
    | some rows =>
      have h1' := h1 rows (by rw [hh, hf]; simp)
      obtain ⟨s1, e1, o1, k1⟩ := processRowGroup_own rows _ ho h1'
      refine ⟨s1, e1, o1, ?_⟩
      rw [k1, hh, hf]
      show (start items).grid.h + _ = _
      rw [hbl.h]; simp
  obtain ⟨s1, e1, o1, k1⟩ := hH
  obtain ⟨s2, e2, o2, k2, -⟩ := rowsLoop_own (colGroups {} items).2 s1 false [] o1 hgr (by
    rw [hrest.1]
    intro g hg'
    exact h1 g (List.mem_append_left _ (List.mem_append_right _ hg')))
  rw [hrest.1] at k2
  rw [hrest.2] at e2
  obtain ⟨s3, e3, o3, k3⟩ := footLoop_own (feet items) s2 o2 (fun g hg' => h1 g (List.mem_append_right _ hg'))
  refine ⟨s3, ?_, ?_⟩
  · unfold build
    refine (congrArg (fun o : Option St => o.bind fun st => (rowsLoop st false [] (colGroups {} items).2).bind fun p => footLoop p.1 p.2) e1).trans ?_
    simp only [Option.bind_some, e2, List.nil_append, e3]
  · rw [o3.rows, k3, k2, k1, hgs]
    simp [Nat.add_assoc]

/-! ## Borders -/

theorem harmonize_hidden (bs : List Border) (b0 : Border) (h : b0.style = .hidden ∨ ∃ b ∈ bs, b.style = .hidden) :
    (bs.foldl harmonizeStep b0).style = .hidden := by
  induction bs generalizing b0 with
  | nil =>
    rcases h with h | ⟨b, hb, -⟩
    · exact h
    · cases hb
  | cons c cs ih =>
    apply ih
    by_cases h0 : b0.style = .hidden
    · left
      unfold harmonizeStep
      by_cases hc : c.style = .hidden <;> simp [h0, hc]
      split
      · exact h0
      · split
        · exact hc
        · exact h0
    · by_cases hc : c.style = .hidden
      · left; simp [harmonizeStep, h0, hc]
      · rcases h with h | ⟨b, hb, hs⟩
        · exact absurd h h0
        · rcases List.mem_cons.mp hb with rfl | hb
          · exact absurd hs hc
          · exact .inr ⟨b, hb, hs⟩

/-- One step keeps the winner, without the styles. -/
theorem step_cases (a b : Border) : (harmonizeStep a b = b ∧ Wins false b a) ∨ (harmonizeStep a b = a ∧ ¬Wins false b a) := by
  unfold harmonizeStep Wins
  by_cases h1 : a.style = .hidden <;> by_cases h2 : b.style = .hidden <;> simp [h1, h2]
  all_goals
    by_cases h3 : a.width > b.width
    · rw [if_pos h3]; right; omega
    · by_cases h4 : b.width > a.width
      · rw [if_neg h3, if_pos h4]; exact .inl ⟨rfl, h4⟩
      · rw [if_neg h3, if_neg h4]; right; (first | omega | (simp; omega))

theorem wins_trans {a b c : Border} (h1 : Wins false b a) (h2 : Wins false c b) : Wins false c a := by
  unfold Wins at *
  grind

theorem not_wins_trans {a b c : Border} (h1 : ¬Wins false b a) (h2 : Wins false c a) : Wins false c b := by
  unfold Wins at *
  grind

theorem harmonize_fold (bs : List Border) (b0 : Border) : Winner false (b0 :: bs) (bs.foldl harmonizeStep b0) := by
  induction bs generalizing b0 with
  | nil => exact ⟨[], [], rfl, by simp, by simp⟩
  | cons c cs ih =>
    simp only [List.foldl_cons]
    rcases step_cases b0 c with ⟨e, hw⟩ | ⟨e, hw⟩
    · rw [e]
      obtain ⟨l, r, hsplit, hl, hr⟩ := ih c
      refine ⟨b0 :: l, r, by rw [hsplit]; rfl, ?_, hr⟩
      intro a ha
      rcases List.mem_cons.mp ha with rfl | ha
      · cases l with
        | nil =>
          simp only [List.nil_append, List.cons.injEq] at hsplit
          rw [← hsplit.1]; exact hw
        | cons d l =>
          simp only [List.cons_append, List.cons.injEq] at hsplit
          exact wins_trans hw (hsplit.1 ▸ hl d (List.mem_cons_self ..))
      · exact hl a ha
    · rw [e]
      obtain ⟨l, r, hsplit, hl, hr⟩ := ih b0
      cases l with
      | nil =>
        simp only [List.nil_append, List.cons.injEq] at hsplit
        refine ⟨[], c :: r, by rw [← hsplit.1, ← hsplit.2]; rfl, by simp, ?_⟩
        intro a ha
        rcases List.mem_cons.mp ha with rfl | ha
        · rw [← hsplit.1]; exact hw
        · exact hr a ha
      | cons d l =>
        simp only [List.cons_append, List.cons.injEq] at hsplit
        refine ⟨b0 :: c :: l, r, by rw [List.cons_append, List.cons_append, ← hsplit.2], ?_, hr⟩
        intro a ha
        rcases List.mem_cons.mp ha with rfl | ha
        · exact hsplit.1 ▸ hl d (List.mem_cons_self ..)
        · rcases List.mem_cons.mp ha with rfl | ha
          · exact not_wins_trans hw (hsplit.1 ▸ hl d (List.mem_cons_self ..))
          · exact hl a (List.mem_cons_of_mem _ ha)

/-- No border, as the code begins. -/
def noBorder : Border := ⟨0, .none, 0⟩

theorem harmonize_winner (bs : List Border) (hv : ∃ b ∈ bs, 0 < b.width ∨ b.style = .hidden) :
    Winner false bs (harmonize bs) := by
  obtain ⟨l, r, hsplit, hl, hr⟩ := harmonize_fold bs noBorder
  show Winner false bs (bs.foldl harmonizeStep noBorder)
  cases l with
  | nil =>
    exfalso
    simp only [List.nil_append, List.cons.injEq] at hsplit
    obtain ⟨b, hb, hw⟩ := hv
    apply hr b (hsplit.2 ▸ hb)
    rw [← hsplit.1]
    unfold Wins noBorder
    rcases hw with h | h
    · by_cases h' : b.style = .hidden <;> simp [h', h]
    · simp [h]
  | cons d l =>
    simp only [List.cons_append, List.cons.injEq] at hsplit
    exact ⟨l, r, hsplit.2, fun a ha => hl a (List.mem_cons_of_mem _ ha), hr⟩

/-- When the styles are the same, they do not matter. -/
theorem winner_styles {bs : List Border} {b : Border} (h : Winner false bs b)
    (hs : ∀ a ∈ bs, a.width = b.width → (a.style = .hidden ↔ b.style = .hidden) → strength a.style ≤ strength b.style)
    (hf : ∀ l r, bs = l ++ b :: r → ∀ a ∈ l, a.width = b.width → strength a.style = strength b.style) : Winner true bs b := by
  obtain ⟨l, r, hsplit, hl, hr⟩ := h
  refine ⟨l, r, hsplit, ?_, ?_⟩
  · intro a ha
    have := hl a ha
    unfold Wins at *
    grind
  · intro a ha hw
    apply hr a ha
    have := hs a (by rw [hsplit]; simp [ha])
    unfold Wins at *
    grind

theorem verticalEdge_ends (g : Grid) (j : Nat) (hj : j < g.w)
    (hpos : ∀ i, i < g.h → ∀ c, (g.slot j i).box = some c → 1 ≤ c.rowSpan) (n i : Nat) (hn : g.h - i < n) :
    ∃ l, verticalEdge g j n i = some l := by
  induction n generalizing i with
  | zero => omega
  | succ n ih =>
    unfold verticalEdge
    split
    · rename_i hi
      have hg : g.get j i = some (g.slot j i) := by unfold Grid.get; rw [if_neg (by omega)]
      rw [hg]
      simp only [Option.bind_some]
      cases hb : (g.slot j i).box with
      | none => exact ih (i + 1) (by omega)
      | some c =>
        obtain ⟨l, hl⟩ := ih (i + c.rowSpan) (by have := hpos i hi c hb; omega)
        exact ⟨i :: l, by simp only [hl, Option.map_some]⟩
    · exact ⟨[], rfl⟩

end Verif.Table
