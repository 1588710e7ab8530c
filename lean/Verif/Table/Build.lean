import Verif.Table.Shows
/-! # The grid of a table: the order of the groups, and what the rectangles are like -/
namespace Verif.Table
open Spec

theorem endRowGroup_noop {st : Core} (h : st.cy = st.grid.h) : endRowGroup st = some st := by
  unfold endRowGroup; rw [h, Nat.sub_self]; rfl

theorem endLoop_end (n : Nat) (st st' : Core) (hb : Bounds st) (hn : n = st.grid.h - st.cy) (e : endLoop n st = some st') :
    st'.cy = st'.grid.h := by
  induction n generalizing st with
  | zero => cases e; have := hb.cy; omega
  | succ n ih =>
    unfold endLoop at e
    rw [if_pos (by omega)] at e
    obtain ⟨g', e', hw, hh, -⟩ := growAll_spec st.cy st.growing st.grid (by omega) (by
      intro k hk; have := hb.grow k hk; omega)
    simp only [e', Option.bind_some] at e
    exact ih _ ⟨by simp only; omega, by simp⟩ (by simp only; omega) e

theorem endRowGroup_full {st : Core} (hb : Bounds st) :
    ∃ st', endRowGroup st = some st' ∧ Bounds st' ∧ st'.cy = st'.grid.h := by
  obtain ⟨st', e, h⟩ := endRowGroup_bounds st hb
  exact ⟨st', e, h, endLoop_end _ st st' hb rfl e⟩

/-- All groups ended. -/
def runAll (st : Core) (gs : List (List (List Cell))) : Option Core := runSegs true st gs

theorem runAll_cons (st : Core) (g : List (List Cell)) (gs : List (List (List Cell))) :
    runAll st (g :: gs) = (coreRows st g).bind fun st => (endRowGroup st).bind fun st => runAll st gs := by
  simp [runAll, runSegs]

theorem runAll_append (st : Core) (a b : List (List (List Cell))) :
    runAll st (a ++ b) = (runAll st a).bind fun st => runAll st b := by
  induction a generalizing st with
  | nil => rfl
  | cons g gs ih =>
    rw [List.cons_append, runAll_cons, runAll_cons]
    cases coreRows st g with
    | none => rfl
    | some k =>
      simp only [Option.bind_some]
      cases endRowGroup k with
      | none => rfl
      | some k => exact ih k

theorem runSegs_false (st : Core) (a : List (List (List Cell))) (t : List (List Cell)) :
    runSegs false st (a ++ [t]) = (runAll st a).bind fun st => coreRows st t := by
  induction a generalizing st with
  | nil => simp [runSegs, runAll]
  | cons g gs ih =>
    rw [runAll_cons, List.cons_append, runSegs]
    simp only [List.append_eq_nil_iff, List.cons_ne_nil, and_false, false_and, if_false]
    cases coreRows st g with
    | none => rfl
    | some k =>
      simp only [Option.bind_some]
      cases endRowGroup k with
      | none => rfl
      | some k => exact ih k

theorem groupRows_core (rows : List (List Cell)) (st : St) :
    (groupRows st rows).map St.core = coreRows st.core rows := by
  induction rows generalizing st with
  | nil => rfl
  | cons r rs ih =>
    simp only [groupRows, coreRows]
    cases processRow st.core r with
    | none => rfl
    | some k => simp only [Option.bind_some]; exact ih _

theorem processRowGroup_core (st : St) (rows : List (List Cell)) :
    (processRowGroup st rows).map St.core = (coreRows st.core rows).bind endRowGroup := by
  rw [← groupRows_core]
  unfold processRowGroup
  cases groupRows st rows with
  | none => rfl
  | some st' =>
    simp only [Option.bind_some, Option.map_some]
    cases endRowGroup st'.core with
    | none => rfl
    | some k => rfl

theorem core_of {o : Option St} {st : St} {p : Option Core} (h : o.map St.core = p) (e : o = some st) : p = some st.core := by
  subst e; exact h.symm

theorem coreRows_bounds (rows : List (List Cell)) (st : Core) (h : Bounds st) :
    ∃ st', coreRows st rows = some st' ∧ Bounds st' := by
  induction rows generalizing st with
  | nil => exact ⟨st, rfl, h⟩
  | cons r rs ih =>
    obtain ⟨k, e, hk⟩ := processRow_bounds st r h
    simp only [coreRows, e, Option.bind_some]
    exact ih _ hk

/-- The end of rows that stand in the table itself. -/
theorem flush {k0 k : Core} {acc : List (List Cell)} (hb : Bounds k0) (h0 : k0.cy = k0.grid.h) (ha : coreRows k0 acc = some k) :
    ∃ k1, endRowGroup k = some k1 ∧ runAll k0 (run acc) = some k1 ∧ Bounds k1 ∧ k1.cy = k1.grid.h := by
  unfold run
  cases acc with
  | nil =>
    cases ha
    exact ⟨k0, endRowGroup_noop h0, rfl, hb, h0⟩
  | cons a as =>
    obtain ⟨k', e, hb'⟩ := coreRows_bounds (a :: as) k0 hb
    rw [ha] at e; cases e
    obtain ⟨k1, e1, hb1, h1⟩ := endRowGroup_full hb'
    refine ⟨k1, e1, ?_, hb1, h1⟩
    rw [if_neg (by simp), runAll_cons, ha]
    simp only [Option.bind_some, e1]
    rfl

theorem group_run {st : St} {rows : List (List Cell)} (hb : Bounds st.core) :
    ∃ st', processRowGroup st rows = some st' ∧ Bounds st'.core ∧ st'.core.cy = st'.core.grid.h ∧
      runAll st.core [rows] = some st'.core := by
  obtain ⟨st', e, hb'⟩ := processRowGroup_bounds st rows hb
  obtain ⟨k, ek, hk⟩ := coreRows_bounds rows st.core hb
  obtain ⟨k1, e1, hb1, h1⟩ := endRowGroup_full hk
  have := core_of (processRowGroup_core st rows) e
  rw [ek, Option.bind_some, e1] at this
  have hk1 : k1 = st'.core := Option.some.inj this
  refine ⟨st', e, hb', by rw [← hk1]; exact h1, ?_⟩
  rw [runAll_cons, ek, Option.bind_some, e1, ← hk1]
  rfl

theorem rowsLoop_segs (items : List Item) (st : St) (hd : Bool) (fs : List (List (List Cell))) (k0 : Core)
    (acc : List (List Cell)) (hb : Bounds k0) (h0 : k0.cy = k0.grid.h) (ha : coreRows k0 acc = some st.core) :
    ∃ st' k1, rowsLoop st hd fs items = some (st', fs ++ feet items) ∧
      runAll k0 (between hd acc items).1 = some k1 ∧ Bounds k1 ∧ k1.cy = k1.grid.h ∧
      coreRows k1 (between hd acc items).2 = some st'.core := by
  induction items generalizing st hd fs k0 acc with
  | nil => exact ⟨st, k0, by simp [rowsLoop, feet], rfl, hb, h0, ha⟩
  | cons i rest ih =>
    cases i with
    | colGroup a b => exact ih st hd fs k0 acc hb h0 ha
    | row cells =>
      obtain ⟨k, e, hk⟩ := coreRows_bounds (acc ++ [cells]) k0 hb
      have e' := e
      rw [coreRows_append, ha] at e'
      simp only [Option.bind_some, coreRows] at e'
      cases hp : processRow st.core cells with
      | none => rw [hp] at e'; cases e'
      | some k' =>
        rw [hp] at e'; cases e'
        simp only [rowsLoop, hp, Option.bind_some, between]
        exact ih { st with core := k } hd fs k0 (acc ++ [cells]) hb h0 e
    | foot rows =>
      obtain ⟨k1, e1, r1, hb1, h1⟩ := flush hb h0 ha
      obtain ⟨st', k2, e2, r2, hb2, h2, t2⟩ := ih { st with core := k1 } hd (fs ++ [rows]) k1 [] hb1 h1 rfl
      refine ⟨st', k2, ?_, ?_, hb2, h2, t2⟩
      · simp only [rowsLoop, e1, Option.bind_some, e2]
        simp [feet]
      · simp only [between]
        rw [runAll_append, r1]; exact r2
    | head rows =>
      obtain ⟨k1, e1, r1, hb1, h1⟩ := flush hb h0 ha
      simp only [rowsLoop, e1, Option.bind_some, between]
      cases hd with
      | true =>
        obtain ⟨st1, e2, hb2, h2, r2⟩ := group_run (st := { st with core := k1 }) (rows := rows) hb1
        obtain ⟨st', k3, e3, r3, hb3, h3, t3⟩ := ih st1 true fs st1.core [] hb2 h2 rfl
        refine ⟨st', k3, ?_, ?_, hb3, h3, t3⟩
        · simp only [if_true, e2, Option.bind_some, e3]; simp [feet]
        · simp only [if_true]
          rw [runAll_append, runAll_append, r1]
          simp only [Option.bind_some]
          rw [r2]; exact r3
      | false =>
        obtain ⟨st', k3, e3, r3, hb3, h3, t3⟩ := ih { st with core := k1 } true fs k1 [] hb1 h1 rfl
        refine ⟨st', k3, ?_, ?_, hb3, h3, t3⟩
        · simp only [Bool.false_eq_true, if_false, e3]; simp [feet]
        · simp only [Bool.false_eq_true, if_false, List.append_nil]
          rw [runAll_append, r1]; exact r3
    | body rows =>
      obtain ⟨k1, e1, r1, hb1, h1⟩ := flush hb h0 ha
      obtain ⟨st1, e2, hb2, h2, r2⟩ := group_run (st := { st with core := k1 }) (rows := rows) hb1
      obtain ⟨st', k3, e3, r3, hb3, h3, t3⟩ := ih st1 hd fs st1.core [] hb2 h2 rfl
      refine ⟨st', k3, ?_, ?_, hb3, h3, t3⟩
      · simp only [rowsLoop, e1, e2, Option.bind_some, e3]; simp [feet]
      · simp only [between]
        rw [runAll_append, runAll_append, r1]
        simp only [Option.bind_some]
        rw [r2]; exact r3

theorem footLoop_segs (fs : List (List (List Cell))) (st : St) (hb : Bounds st.core) :
    ∃ st', footLoop st fs = some st' ∧ runAll st.core fs = some st'.core := by
  induction fs generalizing st with
  | nil => exact ⟨st, rfl, rfl⟩
  | cons f fs ih =>
    obtain ⟨st1, e1, hb1, h1, r1⟩ := group_run (st := st) (rows := f) hb
    obtain ⟨st2, e2, r2⟩ := ih st1 hb1
    refine ⟨st2, by simp only [footLoop, e1, Option.bind_some, e2], ?_⟩
    rw [show f :: fs = [f] ++ fs from rfl, runAll_append, r1]
    exact r2

theorem colGroups_rest (items : List Item) (st : St) (hd : Bool) :
    between hd [] (colGroups st items).2 = between hd [] items ∧ feet (colGroups st items).2 = feet items := by
  induction items generalizing st with
  | nil => exact ⟨rfl, rfl⟩
  | cons i rest ih =>
    cases i with
    | colGroup cols span => exact ih _
    | _ => exact ⟨rfl, rfl⟩

theorem head_firstHead (items : List Item) : head items = (firstHead items).toList := by
  induction items with
  | nil => rfl
  | cons i rest ih => cases i <;> first | rfl | exact ih

/-- The state before the rows. -/
def start (items : List Item) : Core := { (colGroups {} items).1.core with cy := 0 }

theorem start_blank (items : List Item) : Blank (start items) := by
  have := colGroups_blank items {} ⟨rfl, rfl, rfl⟩
  exact ⟨rfl, this.h, this.grow⟩

/-- The whole table is its groups, one after the other. -/
theorem build_segs (items : List Item) :
    ∃ st ended, build items = some st ∧ (ended = true ↔ Ended items) ∧ runSegs ended (start items) (groups items) = some st.core := by
  have hbl := start_blank items
  have hb := hbl.bounds
  have hc : (start items).cy = (start items).grid.h := by rw [hbl.cy, hbl.h]
  -- the header
  have h1 : ∃ st1, (match firstHead items with
      | some rows => processRowGroup { (colGroups {} items).1 with core := start items } rows
      | none => some { (colGroups {} items).1 with core := start items }) = some st1 ∧
      Bounds st1.core ∧ st1.core.cy = st1.core.grid.h ∧ runAll (start items) (head items) = some st1.core := by
    rw [head_firstHead]
    cases firstHead items with
    | none => exact ⟨{ (colGroups {} items).1 with core := start items }, rfl, hb, hc, rfl⟩
    | some rows =>
      obtain ⟨st1, e, hb1, h1, r1⟩ := group_run (st := { (colGroups {} items).1 with core := start items }) (rows := rows) hb
      exact ⟨st1, e, hb1, h1, r1⟩
  obtain ⟨st1, e1, hb1, hc1, r1⟩ := h1
  obtain ⟨st2, k2, e2, r2, hb2, hc2, t2⟩ := rowsLoop_segs (colGroups {} items).2 st1 false [] st1.core [] hb1 hc1 rfl
  rw [(colGroups_rest items {} false).1] at r2 t2
  rw [(colGroups_rest items {} false).2, List.nil_append] at e2
  have hbs2 : Bounds st2.core := by
    obtain ⟨k, ek, hk⟩ := coreRows_bounds (between false [] items).2 k2 hb2
    rw [t2] at ek; cases ek; exact hk
  obtain ⟨st3, e3, r3⟩ := footLoop_segs (feet items) st2 hbs2
  have hbuild : build items = some st3 := by
    unfold build
    refine (congrArg (fun o : Option St => o.bind fun st => (rowsLoop st false [] (colGroups {} items).2).bind fun p => footLoop p.1 p.2) e1).trans ?_
    simp only [Option.bind_some, e2, e3]
  have hAB : runAll (start items) (head items ++ (between false [] items).1) = some k2 := by
    rw [runAll_append, r1]; exact r2
  have hE : ∀ b : Bool, (b = true ↔ Ended items) ↔ (b = true ↔ (feet items ≠ [] ∨ (between false [] items).2 = [])) := by
    intro b; rfl
  cases hf : feet items with
  | cons f fs =>
    refine ⟨st3, true, hbuild, ?_, ?_⟩
    · rw [hE, hf]; simp
    · simp only [groups, hf]
      show runAll _ _ = _
      rw [runAll_append, hAB]
      simp only [Option.bind_some]
      rw [hf, show f :: fs = [f] ++ fs from rfl, runAll_append] at r3
      rw [runAll_cons, coreRows_append, t2]
      rw [runAll_cons] at r3
      simp only [Option.bind_some] at r3 ⊢
      cases hcr : coreRows st2.core f with
      | none => rw [hcr] at r3; cases r3
      | some k =>
        rw [hcr] at r3
        simp only [Option.bind_some] at r3 ⊢
        cases her : endRowGroup k with
        | none => rw [her] at r3; cases r3
        | some k' => rw [her] at r3; exact r3
  | nil =>
    rw [hf] at r3
    have hst : st2.core = st3.core := Option.some.inj r3
    cases ht : (between false [] items).2 with
    | nil =>
      refine ⟨st3, true, hbuild, ?_, ?_⟩
      · rw [hE, hf, ht]; simp
      · simp only [groups, hf, ht, run, if_true, List.append_nil]
        show runAll _ _ = _
        rw [hAB, ← hst]
        rw [ht] at t2
        exact t2
    | cons a as =>
      refine ⟨st3, false, hbuild, ?_, ?_⟩
      · rw [hE, hf, ht]; simp
      · simp only [groups, hf, ht, run]
        rw [if_neg (by simp), runSegs_false, hAB, Option.bind_some, ← ht, t2, hst]

/-! ## What the rectangles are like -/

theorem rowPlaced_cells {above : List Rect} {y x : Nat} {cs : List Cell} {rs : List Rect} (h : RowPlaced above y x cs rs) :
    rs.map Rect.cell = cs := by
  induction h with
  | nil => rfl
  | cons h1 h2 h3 h4 ih => simp [rectAt, ih]

theorem rowsPlaced_cells {above : List Rect} {y : Nat} {rows : List (List Cell)} {rs : List Rect} (h : RowsPlaced above y rows rs) :
    rs.map Rect.cell = rows.flatten := by
  induction h with
  | nil => rfl
  | cons h1 h2 ih => simp [rowPlaced_cells h1, ih]

theorem placed_cells {above : List Rect} {y h : Nat} {gs : List (List (List Cell))} {rs : List Rect} (hp : Placed above y gs rs h) :
    rs.map Rect.cell = gs.flatten.flatten := by
  induction hp with
  | nil => rfl
  | cons h1 h2 h3 ih =>
    simp only [List.map_append, List.map_map, List.flatten_cons, List.flatten_append, ih]
    congr 1
    rw [← rowsPlaced_cells h1]
    apply List.map_congr_left
    intro r _; rfl

/-- Two cells, the second one behind the first, and a slot of both. -/
def Clash (a r : Rect) : Prop := ∀ x y, a.Covers x y → r.Covers x y → a.y < r.y ∧ r.x < x ∧ a.Covers x r.y

theorem rowPlaced_clash {above : List Rect} {y x : Nat} {cs : List Cell} {rs : List Rect} (h : RowPlaced above y x cs rs)
    (ha : ∀ a ∈ above, a.y < y) :
    (∀ r ∈ rs, r.y = y ∧ x ≤ r.x) ∧ (∀ a ∈ above, ∀ r ∈ rs, Clash a r) ∧ rs.Pairwise Clash := by
  induction h with
  | nil => simp
  | @cons x x' c cs rs h1 h2 h3 h4 ih =>
    obtain ⟨i1, i2, i3⟩ := ih
    refine ⟨?_, ?_, ?_⟩
    · intro r hr
      rcases List.mem_cons.mp hr with rfl | hr
      · exact ⟨rfl, h1⟩
      · have := i1 r hr; omega
    · intro a ha' r hr
      rcases List.mem_cons.mp hr with rfl | hr
      · intro i j hca hcr
        have hay := ha a ha'
        have hn := h3 a ha'
        unfold Rect.Covers at hca hcr hn
        simp only [rectAt] at hcr ⊢
        have hca' : a.Covers i y := ⟨hca.1, hca.2.1, by omega, fun b hb => by have := hca.2.2.2 b hb; omega⟩
        refine ⟨hay, ?_, hca'⟩
        by_cases he : x' = i
        · subst he; exact absurd hca' hn
        · omega
      · exact i2 a ha' r hr
    · refine List.pairwise_cons.mpr ⟨?_, i3⟩
      intro r hr i j hca hcr
      have := i1 r hr
      unfold Rect.Covers at hca hcr
      simp only [rectAt] at hca
      omega

theorem rowsPlaced_clash {above : List Rect} {y : Nat} {rows : List (List Cell)} {rs : List Rect} (h : RowsPlaced above y rows rs)
    (ha : ∀ a ∈ above, a.y < y) :
    (∀ r ∈ rs, y ≤ r.y ∧ r.y < y + rows.length) ∧ (∀ a ∈ above, ∀ r ∈ rs, Clash a r) ∧ rs.Pairwise Clash := by
  induction h with
  | nil => simp
  | @cons above y row rows rs rs' h1 h2 ih =>
    obtain ⟨i1, i2, i3⟩ := rowPlaced_clash h1 ha
    obtain ⟨j1, j2, j3⟩ := ih (by
      intro a ha'
      rcases List.mem_append.mp ha' with h | h
      · have := ha a h; omega
      · have := i1 a h; omega)
    refine ⟨?_, ?_, ?_⟩
    · intro r hr
      simp only [List.length_cons]
      rcases List.mem_append.mp hr with h | h
      · have := i1 r h; omega
      · have := j1 r h; omega
    · intro a ha' r hr
      rcases List.mem_append.mp hr with h | h
      · exact i2 a ha' r h
      · exact j2 a (List.mem_append_left _ ha') r h
    · refine List.pairwise_append.mpr ⟨i3, j3, ?_⟩
      intro a ha' r hr
      exact j2 a (List.mem_append_right _ ha') r hr

theorem clash_close {e : Nat} {a r : Rect} (he : ∀ b, a.bottom = some b → b ≤ e) (hr : r.y < e) (h : Clash a r) :
    Clash (a.close e) (r.close e) := by
  have hc : ∀ {q : Rect} {x y}, (∀ b, q.bottom = some b → b ≤ e) → (q.close e).Covers x y → q.Covers x y := by
    intro q x y he hq
    refine ⟨hq.1, hq.2.1, hq.2.2.1, ?_⟩
    intro b hb
    exact hq.2.2.2 b (by simp [Rect.close, hb])
  have hcr : ∀ {x y}, (r.close e).Covers x y → r.Covers x y := by
    intro x y hq
    refine ⟨hq.1, hq.2.1, hq.2.2.1, ?_⟩
    intro b hb
    exact hq.2.2.2 b (by simp [Rect.close, hb])
  intro x y h1 h2
  obtain ⟨k1, k2, k3⟩ := h x y (hc he h1) (hcr h2)
  refine ⟨k1, k2, k3.1, k3.2.1, k3.2.2.1, ?_⟩
  intro b hb
  have := h1.2.2.2 b hb
  have h2' := h2.2.2.1
  have : (r.close e).y = r.y := rfl
  omega

theorem placed_clash {above : List Rect} {y h : Nat} {gs : List (List (List Cell))} {rs : List Rect} (hp : Placed above y gs rs h)
    (ha : ∀ a ∈ above, a.y < y ∧ ∃ b, a.bottom = some b ∧ b ≤ y) :
    (∀ r ∈ rs, y ≤ r.y) ∧ rs.Pairwise Clash := by
  induction hp with
  | nil => simp
  | @cons above y rows rows' rs rs' e h h1 h2 h3 ih =>
    obtain ⟨i1, -, i3⟩ := rowsPlaced_clash h1 (fun a h => (ha a h).1)
    have hle := h2.1
    have hclosed : ∀ a ∈ rs.map (Rect.close e), a.y < e ∧ ∃ b, a.bottom = some b ∧ b ≤ e := by
      intro a h
      obtain ⟨r, hr, rfl⟩ := List.mem_map.mp h
      have := i1 r hr
      refine ⟨by simp only [Rect.close]; omega, r.bottom.getD e, rfl, ?_⟩
      cases hb : r.bottom with
      | none => simp
      | some b => exact h2.2.1 r hr b hb
    have hab : ∀ a ∈ above ++ rs.map (Rect.close e), a.y < e ∧ ∃ b, a.bottom = some b ∧ b ≤ e := by
      intro a ha'
      rcases List.mem_append.mp ha' with h | h
      · obtain ⟨k1, b, k2, k3⟩ := ha a h
        exact ⟨by omega, b, k2, by omega⟩
      · exact hclosed a h
    obtain ⟨j1, j2⟩ := ih hab
    refine ⟨?_, ?_⟩
    · intro r hr
      rcases List.mem_append.mp hr with h | h
      · obtain ⟨r', hr', rfl⟩ := List.mem_map.mp h
        exact (i1 r' hr').1
      · have := j1 r h; omega
    · refine List.pairwise_append.mpr ⟨?_, j2, ?_⟩
      · rw [List.pairwise_map]
        refine List.Pairwise.imp_of_mem ?_ i3
        intro a r ha' hr hcl
        refine clash_close (fun b hb => h2.2.1 a ha' b hb) (by have := i1 r hr; omega) hcl
      · intro a ha' r hr x y' hca hcr
        obtain ⟨b, hb, hbe⟩ := (hclosed a ha').2
        have h5 := hca.2.2.2 b hb
        have h6 := hcr.2.2.1
        have := j1 r hr
        omega

end Verif.Table
