import Verif.Seams.Own
import Verif.Table.Props
/-!
# Properties C245 and C246: collapsed borders between cells
-/
namespace Verif.Seams
open Verif.Table (Slot Grid Border Item Cell build harmonize)
open Verif.Table.Spec (Rect Shows Placed groups ValidRows HasZero)

/-! ## C245 -/

theorem foldl_mem (bs : List Border) (b0 : Border) : bs.foldl Table.harmonizeStep b0 = b0 ∨ bs.foldl Table.harmonizeStep b0 ∈ bs := by
  induction bs generalizing b0 with
  | nil => exact .inl rfl
  | cons b bs ih =>
    have hs : Table.harmonizeStep b0 b = b0 ∨ Table.harmonizeStep b0 b = b := by
      simp only [Table.harmonizeStep]
      repeat' split
      all_goals simp
    rw [List.foldl_cons, List.mem_cons]
    rcases ih (Table.harmonizeStep b0 b) with h | h
    · rcases hs with h' | h'
      · rw [h'] at h ⊢; exact .inl h
      · rw [h'] at h ⊢; exact .inr (.inl h)
    · exact .inr (.inr h)

theorem final_known (L : Line) (B : Borders) (t : Stretch) : Known B (finalBorder L B t) := by
  have cell : ∀ (f : Nat → Border) (row : Nat → Slot) (js : List Nat) b, b ∈ js.flatMap (fun j => cellBorder f (row j)) → ∃ c, b = f c := by
    intro f row js b hb
    obtain ⟨j, -, hj⟩ := List.mem_flatMap.1 hb
    unfold cellBorder at hj
    split at hj
    · exact ⟨_, List.mem_singleton.1 hj⟩
    · cases hj
  rcases foldl_mem (t.as.flatMap (fun j => cellBorder B.after (L.a j)) ++ t.bs.flatMap (fun j => cellBorder B.before (L.b j)) ++
    B.lines) ⟨0, .none, 0⟩ with h | h
  · exact .inr (.inr (.inr h))
  · rcases List.mem_append.1 h with h | h
    · rcases List.mem_append.1 h with h | h
      · exact .inl (cell _ _ _ _ h)
      · exact .inr (.inl (cell _ _ _ _ h))
    · exact .inr (.inr (.inl h))

/-- The last write for a cell is on its line, and the same on both sides. -/
theorem line_agrees {L : Line} (h : Sound L) (B : Borders) {x : Nat} (hx : x < L.len) (hd : sameAnchor (L.a x) (L.b x) = false)
    {c d : Cell} (hc : (L.a x).box = some c) (he : (L.b x).box = some d) :
    ∃ ts t, run L = .ok ts ∧ t ∈ ts ∧ L.lead (L.a x) ∈ t.as ∧ L.lead (L.b x) ∈ t.bs ∧
      usedA L B ts (L.a x) = finalBorder L B t ∧ usedB L B ts (L.b x) = finalBorder L B t ∧
      Beats (finalBorder L B t) ([B.after c.id, B.before d.id] ++ B.lines) ∧ Known B (finalBorder L B t) := by
  obtain ⟨ts, hr, hdone⟩ := run_done h
  have ht : through L x = false := by
    unfold through
    rw [hd, hc]; rfl
  obtain ⟨t, htm, h1, h2⟩ := hdone.cover x hx (Nat.zero_le _) (Nat.zero_le _) ht
  have m1 := h1 (by rw [hc]; rfl)
  have m2 := h2 (by rw [he]; rfl)
  refine ⟨ts, t, hr, htm, m1, m2, usedA_eq h B hdone htm hx m1, usedB_eq h B hdone htm m2, ?_, final_known L B t⟩
  have s1 := h.a.const x (L.lead (L.a x)) hx (Nat.le_refl _) (by have := h.a.lo x hx; have := h.a.hi x hx; omega)
  have s2 := h.b.const x (L.lead (L.b x)) hx (Nat.le_refl _) (by have := h.b.lo x hx; have := h.b.hi x hx; omega)
  unfold finalBorder
  apply harmonize_beats
  intro o ho
  simp only [List.cons_append, List.nil_append, List.mem_cons] at ho
  rcases ho with rfl | rfl | ho
  · apply List.mem_append_left
    apply List.mem_append_left
    exact List.mem_flatMap.2 ⟨_, m1, by rw [s1]; simp [cellBorder, hc]⟩
  · apply List.mem_append_left
    apply List.mem_append_right
    exact List.mem_flatMap.2 ⟨_, m2, by rw [s2]; simp [cellBorder, he]⟩
  · exact List.mem_append_right _ ho

theorem split_range {n i : Nat} (hi : i < n) : ∃ u v, List.range n = u ++ i :: v ∧ ∀ k ∈ v, i < k := by
  obtain ⟨u, v, h⟩ := List.append_of_mem (List.mem_range.2 hi)
  refine ⟨u, v, h, ?_⟩
  have hp : (List.range n).Pairwise (· < ·) := List.pairwise_lt_range
  rw [h, List.pairwise_append, List.pairwise_cons] at hp
  exact hp.2.1.1

/-- The writes of one line are those that count. -/
theorem flat_line {size n : Nat} {w : Line → Borders → Stretch → List (Nat × Border)} {E : Nat → Entry} {ws : List (Nat × Border)}
    (hf : flat size w ((List.range n).map E) = .ok ws) {i : Nat} (hi : i < n) {ts : List Stretch} (hr : run (E i).line = .ok ts)
    (hinj : ∀ a b, (E i).place a = (E i).place b → a = b) {k : Nat}
    (hk : ∃ p ∈ ts.flatMap (w (E i).line (E i).borders), p.1 = k) (hv : ∀ i', i < i' → ∀ k', (E i').place k' ≠ (E i).place k) :
    written ws ((E i).place k) = written (ts.flatMap (w (E i).line (E i).borders)) k := by
  obtain ⟨u, v, hs, hlt⟩ := split_range hi
  rw [hs, List.map_append, List.map_cons] at hf
  apply flat_read hf hr hinj hk
  intro E' hE' k'
  obtain ⟨i', hi', rfl⟩ := List.mem_map.1 hE'
  exact hv i' (hlt i' hi') k'

variable {g : Grid} {rs : List Rect}

theorem bottoms_ok (h : Tiles g rs) (B : Nat → Borders) : ∃ ws, bottoms g B = .ok ws := by
  apply flat_ok
  intro E hE
  obtain ⟨i, hi, rfl⟩ := List.mem_map.1 hE
  rw [List.mem_range] at hi
  have hsound := rowLine_sound h (i := i) (by omega)
  obtain ⟨ts, hr, hd⟩ := run_done hsound
  refine ⟨ts, hr, ?_⟩
  intro p hp
  obtain ⟨t, ht, hp⟩ := List.mem_flatMap.1 hp
  obtain ⟨j, hj, rfl⟩ := List.mem_map.1 hp
  have hjl := ((hd.low t ht).1 j hj).2
  have h1 := hsound.a.fits j hjl
  have h2 := hsound.a.hi j hjl
  have h3 := hsound.a.lo j hjl
  have hlen : (rowLine g i).len = g.w := rfl
  rw [hlen] at hjl h1
  simp only [pred64]
  rw [if_neg (by omega)]
  have hm : (i + 2) * g.w ≤ g.h * g.w := Nat.mul_le_mul_right _ (by omega)
  have he : (i + 2) * g.w = i * g.w + 2 * g.w := Nat.add_mul ..
  rw [Nat.mul_comm g.h] at hm
  omega

theorem tops_ok (h : Tiles g rs) (B : Nat → Borders) : ∃ ws, tops g B = .ok ws := by
  apply flat_ok
  intro E hE
  obtain ⟨i, hi, rfl⟩ := List.mem_map.1 hE
  rw [List.mem_range] at hi
  have hsound := rowLine_sound h (i := i) (by omega)
  obtain ⟨ts, hr, hd⟩ := run_done hsound
  refine ⟨ts, hr, ?_⟩
  intro p hp
  obtain ⟨t, ht, hp⟩ := List.mem_flatMap.1 hp
  obtain ⟨j, hj, rfl⟩ := List.mem_map.1 hp
  have hjl : j < g.w := ((hd.low t ht).2 j hj).2
  simp only
  have hm : (i + 2) * g.w ≤ g.h * g.w := Nat.mul_le_mul_right _ (by omega)
  have he : (i + 2) * g.w = (i + 1) * g.w + g.w := Nat.succ_mul ..
  rw [Nat.mul_comm g.h] at hm
  omega

/-- **C245.** Two cells of a table, one above the other, have the same border where they touch; it is the strongest of
theirs, those of the two rows and of their groups.  Whatever spans there are, in tables whose cells do not overlap. -/
theorem C245_above (h : Tiles g rs) (B : Nat → Borders) {r q : Rect} (hr : r ∈ rs) (hq : q ∈ rs) (ht : Above r q) :
    ∃ bot top, bottoms g B = .ok bot ∧ tops g B = .ok top ∧
      bottomAt g bot r.x r.y r.cell.colSpan r.cell.rowSpan = topAt g top q.x q.y ∧
      Beats (topAt g top q.x q.y) ([(B (q.y - 1)).after r.cell.id, (B (q.y - 1)).before q.cell.id] ++ (B (q.y - 1)).lines) ∧
      Known (B (q.y - 1)) (topAt g top q.x q.y) := by
  obtain ⟨bot, hbot⟩ := bottoms_ok h B
  obtain ⟨top, htop⟩ := tops_ok h B
  refine ⟨bot, top, hbot, htop, ?_⟩
  obtain ⟨hy, x, hx1, hx2⟩ := ht
  have hrr := (h.rows r hr).1
  have hqr := (h.rows q hq).1
  have hrc := corner h hr
  have hqc := corner h hq
  have e1 : g.slot x (q.y - 1) = ⟨r.x, r.y, some r.cell⟩ := slot_of_cover h hr ((covers_iff h hr _ _).2 (by omega))
  have e2 : g.slot x (q.y - 1 + 1) = ⟨q.x, q.y, some q.cell⟩ := slot_of_cover h hq ((covers_iff h hq _ _).2 (by omega))
  have hsound := rowLine_sound h (i := q.y - 1) (by omega)
  have hxl : x < (rowLine g (q.y - 1)).len := by show x < g.w; omega
  have hd : sameAnchor ((rowLine g (q.y - 1)).a x) ((rowLine g (q.y - 1)).b x) = false := by
    simp only [rowLine, e1, e2, sameAnchor, Bool.and_eq_false_iff, beq_eq_false_iff_ne]
    omega
  obtain ⟨ts, t, hrun, htm, m1, m2, u1, u2, hbeat⟩ := line_agrees hsound (B (q.y - 1)) hxl hd (c := r.cell) (d := q.cell)
    (by simp only [rowLine, e1]) (by simp only [rowLine, e2])
  have la : (rowLine g (q.y - 1)).lead ((rowLine g (q.y - 1)).a x) = r.x := by simp only [rowLine, e1]
  have lb : (rowLine g (q.y - 1)).lead ((rowLine g (q.y - 1)).b x) = q.x := by simp only [rowLine, e2]
  have ta : tail (rowLine g (q.y - 1)) ((rowLine g (q.y - 1)).a x) = r.x + r.cell.colSpan - 1 := by
    rw [tail_eq hsound.a hxl, la]; simp only [rowLine, e1, colSpan]
  have hself : (rowLine g (q.y - 1)).a r.x = (rowLine g (q.y - 1)).a x := by
    simp only [rowLine]
    rw [e1]
    exact slot_of_cover h hr ((covers_iff h hr _ _).2 (by omega))
  have hqy : q.y - 1 + 1 = q.y := by omega
  have k1 : written bot ((q.y - 1) * g.w + (r.x + r.cell.colSpan - 1)) = finalBorder (rowLine g (q.y - 1)) (B (q.y - 1)) t := by
    rw [← u1, usedA, ta]
    apply flat_line (E := fun i => ⟨rowLine g i, B i, fun k => i * g.w + k⟩) hbot (by omega : q.y - 1 < g.h - 1) hrun
    · intro a b hab; simp only at hab; omega
    · refine ⟨(pred64 (r.x + (rowLine g (q.y - 1)).span ((rowLine g (q.y - 1)).a r.x)), finalBorder (rowLine g (q.y - 1)) (B (q.y - 1)) t), ?_, ?_⟩
      · rw [la] at m1
        exact List.mem_flatMap.2 ⟨t, htm, List.mem_map.2 ⟨r.x, m1, rfl⟩⟩
      · show pred64 _ = _
        rw [hself]
        rw [← ta, tail, la]
    · intro i' hi' k'
      simp only
      have : (q.y - 1 + 1) * g.w ≤ i' * g.w := Nat.mul_le_mul_right _ (by omega)
      rw [Nat.succ_mul] at this
      omega
  have k2 : written top (q.y * g.w + q.x) = finalBorder (rowLine g (q.y - 1)) (B (q.y - 1)) t := by
    rw [← u2, usedB, lb]
    have := flat_line (E := fun i => ⟨rowLine g i, B i, fun k => (i + 1) * g.w + k⟩) htop (by omega : q.y - 1 < g.h - 1) hrun
      (k := q.x) (by intro a b hab; simp only at hab; omega)
      ⟨(q.x, finalBorder (rowLine g (q.y - 1)) (B (q.y - 1)) t),
        List.mem_flatMap.2 ⟨t, htm, List.mem_map.2 ⟨q.x, by rw [lb] at m2; exact m2, rfl⟩⟩, rfl⟩
      (by
        intro i' hi' k'
        simp only
        have : (q.y - 1 + 1 + 1) * g.w ≤ (i' + 1) * g.w := Nat.mul_le_mul_right _ (by omega)
        rw [Nat.succ_mul (q.y - 1 + 1)] at this
        omega)
    simp only [hqy] at this
    exact this
  have hrow : r.y + r.cell.rowSpan - 1 = q.y - 1 := by omega
  unfold bottomAt topAt
  rw [hrow, k1, k2]
  exact ⟨rfl, hbeat⟩

theorem mod_place {w k j k' j' : Nat} (hj : j < w) (hj' : j' < w) (h : k * w + j = k' * w + j') : k = k' ∧ j = j' := by
  have h1 : (k * w + j) % w = j := by rw [Nat.mul_comm, Nat.mul_add_mod, Nat.mod_eq_of_lt hj]
  have h2 : (k' * w + j') % w = j' := by rw [Nat.mul_comm, Nat.mul_add_mod, Nat.mod_eq_of_lt hj']
  have hjj : j = j' := by rw [← h1, h, h2]
  refine ⟨?_, hjj⟩
  have : k * w = k' * w := by omega
  exact Nat.eq_of_mul_eq_mul_right (by omega) this

/-- Lines between columns do not write where others do; the entries outside of the table are never made. -/
theorem col_read {n : Nat} {w : Line → Borders → Stretch → List (Nat × Border)} {L : Nat → Line} {B : Nat → Borders} {d : Nat}
    {size width : Nat} {ws : List (Nat × Border)}
    (hf : flat size w ((List.range n).map fun j => ⟨L j, B j, fun k => k * width + (j + d)⟩) = .ok ws) {j : Nat} (hj : j < n)
    (hw : n + d ≤ width) {ts : List Stretch} (hr : run (L j) = .ok ts) {k : Nat}
    (hk : ∃ p ∈ ts.flatMap (w (L j) (B j)), p.1 = k) :
    written ws (k * width + (j + d)) = written (ts.flatMap (w (L j) (B j))) k := by
  obtain ⟨u, v, hs, hlt⟩ := split_range hj
  have hmem : ∀ i ∈ v, i < n := by
    intro i hi
    have : i ∈ List.range n := by rw [hs]; simp [hi]
    exact List.mem_range.1 this
  rw [hs, List.map_append, List.map_cons] at hf
  refine flat_read (E := ⟨L j, B j, fun k => k * width + (j + d)⟩) hf hr ?_ hk ?_
  · intro a b hab
    exact (mod_place (by omega) (by omega) hab).1
  · intro E' hE' k' hab
    obtain ⟨i', hi', rfl⟩ := List.mem_map.1 hE'
    have := (mod_place (by have := hmem i' hi'; omega) (by omega) hab).2
    have := hlt i' hi'
    omega

theorem starts_ok (h : Tiles g rs) (B : Nat → Borders) : ∃ ws, starts g B = .ok ws := by
  apply flat_ok
  intro E hE
  obtain ⟨i, hi, rfl⟩ := List.mem_map.1 hE
  rw [List.mem_range] at hi
  have hsound := colLine_sound h (j := i) (by omega)
  obtain ⟨ts, hr, hd⟩ := run_done hsound
  refine ⟨ts, hr, ?_⟩
  intro p hp
  obtain ⟨t, ht, hp⟩ := List.mem_flatMap.1 hp
  obtain ⟨j, hj, rfl⟩ := List.mem_map.1 hp
  have hjl : j < g.h := ((hd.low t ht).2 j hj).2
  simp only
  have hm : (j + 1) * g.w ≤ g.h * g.w := Nat.mul_le_mul_right _ (by omega)
  rw [Nat.succ_mul, Nat.mul_comm g.h] at hm
  omega

/-- **C245 (in part).** Two cells side by side have the same border where they touch, the strongest of theirs, those of the
two columns and of their groups, unless finding it fails (`C246_outside_fails`). -/
theorem C245_beside_partial (h : Tiles g rs) (B : Nat → Borders) {r q : Rect} (hr : r ∈ rs) (hq : q ∈ rs) (ht : Beside r q)
    {en : List (Nat × Border)} (hen : ends g B = .ok en) :
    ∃ st, starts g B = .ok st ∧ endAt g en r.x r.y r.cell.colSpan r.cell.rowSpan = startAt g st q.x q.y ∧
      Beats (startAt g st q.x q.y) ([(B (q.x - 1)).after r.cell.id, (B (q.x - 1)).before q.cell.id] ++ (B (q.x - 1)).lines) ∧
      Known (B (q.x - 1)) (startAt g st q.x q.y) := by
  obtain ⟨st, hst⟩ := starts_ok h B
  refine ⟨st, hst, ?_⟩
  obtain ⟨hx, y, hy1, hy2⟩ := ht
  have hrr := h.cols r hr
  have hqr := h.cols q hq
  have hrc := corner h hr
  have hqc := corner h hq
  have e1 : g.slot (q.x - 1) y = ⟨r.x, r.y, some r.cell⟩ := slot_of_cover h hr ((covers_iff h hr _ _).2 (by omega))
  have e2 : g.slot (q.x - 1 + 1) y = ⟨q.x, q.y, some q.cell⟩ := slot_of_cover h hq ((covers_iff h hq _ _).2 (by omega))
  have hsound := colLine_sound h (j := q.x - 1) (by omega)
  have hyl : y < (colLine g (q.x - 1)).len := by show y < g.h; omega
  have hd : sameAnchor ((colLine g (q.x - 1)).a y) ((colLine g (q.x - 1)).b y) = false := by
    simp only [colLine, e1, e2, sameAnchor, Bool.and_eq_false_iff, beq_eq_false_iff_ne]
    omega
  obtain ⟨ts, t, hrun, htm, m1, m2, u1, u2, hbeat⟩ := line_agrees hsound (B (q.x - 1)) hyl hd (c := r.cell) (d := q.cell)
    (by simp only [colLine, e1]) (by simp only [colLine, e2])
  have la : (colLine g (q.x - 1)).lead ((colLine g (q.x - 1)).a y) = r.y := by simp only [colLine, e1]
  have lb : (colLine g (q.x - 1)).lead ((colLine g (q.x - 1)).b y) = q.y := by simp only [colLine, e2]
  have ta : tail (colLine g (q.x - 1)) ((colLine g (q.x - 1)).a y) = r.y + r.cell.rowSpan - 1 := by
    rw [tail_eq hsound.a hyl, la]; simp only [colLine, e1, rowSpan]
  have hself : (colLine g (q.x - 1)).a r.y = (colLine g (q.x - 1)).a y := by
    simp only [colLine]
    rw [e1]
    exact slot_of_cover h hr ((covers_iff h hr _ _).2 (by omega))
  have k1 : written en ((r.y + r.cell.rowSpan - 1) * g.w + (q.x - 1)) = finalBorder (colLine g (q.x - 1)) (B (q.x - 1)) t := by
    rw [← u1, usedA, ta]
    apply col_read (d := 0) (L := colLine g) (B := B) hen (by omega : q.x - 1 < g.w - 1) (by omega) hrun
    refine ⟨(pred64 (r.y + (colLine g (q.x - 1)).span ((colLine g (q.x - 1)).a r.y)), finalBorder (colLine g (q.x - 1)) (B (q.x - 1)) t), ?_, ?_⟩
    · rw [la] at m1
      exact List.mem_flatMap.2 ⟨t, htm, List.mem_map.2 ⟨r.y, m1, rfl⟩⟩
    · show pred64 _ = _
      rw [hself]
      rw [← ta, tail, la]
  have k2 : written st (q.y * g.w + (q.x - 1 + 1)) = finalBorder (colLine g (q.x - 1)) (B (q.x - 1)) t := by
    rw [← u2, usedB, lb]
    apply col_read (d := 1) (L := colLine g) (B := B) hst (by omega : q.x - 1 < g.w - 1) (by omega) hrun
    refine ⟨(q.y, finalBorder (colLine g (q.x - 1)) (B (q.x - 1)) t), ?_, rfl⟩
    rw [lb] at m2
    exact List.mem_flatMap.2 ⟨t, htm, List.mem_map.2 ⟨q.y, m2, rfl⟩⟩
  have hqx : q.x - 1 + 1 = q.x := by omega
  rw [hqx] at k2
  have hcol : r.x + r.cell.colSpan - 1 = q.x - 1 := by omega
  unfold endAt startAt
  rw [hcol, k1, k2]
  exact ⟨rfl, hbeat⟩

def inRect (r : Rect) (x y : Nat) : Bool := decide (r.x ≤ x ∧ x < r.x + r.cell.colSpan ∧ r.y ≤ y ∧ y < r.y + r.cell.rowSpan)

def slotOk (g : Grid) (rs : List Rect) (x y : Nat) : Bool :=
  (decide (g.slot x y = ⟨x, y, none⟩) && rs.all fun r => !inRect r x y) ||
  rs.any fun r => inRect r x y && decide (g.slot x y = ⟨r.x, r.y, some r.cell⟩)

/-- The grid of a table, small enough to look at each slot, is tiled by rectangles. -/
theorem tiles_of_check {g : Grid} {rs : List Rect}
    (h1 : ∀ r ∈ rs, 1 ≤ r.cell.colSpan ∧ 1 ≤ r.cell.rowSpan ∧ r.bottom = some (r.y + r.cell.rowSpan) ∧
      r.x + r.cell.colSpan ≤ g.w ∧ r.y + r.cell.rowSpan ≤ g.h ∧ g.slot r.x r.y = ⟨r.x, r.y, some r.cell⟩)
    (h2 : ∀ x < g.w, ∀ y < g.h, slotOk g rs x y = true)
    (h3 : rs.Pairwise fun a b => a.x + a.cell.colSpan ≤ b.x ∨ b.x + b.cell.colSpan ≤ a.x ∨ a.y + a.cell.rowSpan ≤ b.y ∨
      b.y + b.cell.rowSpan ≤ a.y) : Tiles g rs := by
  have h2 : ∀ x < g.w, ∀ y < g.h, (g.slot x y = ⟨x, y, none⟩ ∧
        ∀ r ∈ rs, ¬(r.x ≤ x ∧ x < r.x + r.cell.colSpan ∧ r.y ≤ y ∧ y < r.y + r.cell.rowSpan)) ∨
      ∃ r ∈ rs, (r.x ≤ x ∧ x < r.x + r.cell.colSpan ∧ r.y ≤ y ∧ y < r.y + r.cell.rowSpan) ∧ g.slot x y = ⟨r.x, r.y, some r.cell⟩ := by
    intro x hx y hy
    have := h2 x hx y hy
    simp only [slotOk, inRect, Bool.or_eq_true, Bool.and_eq_true, decide_eq_true_eq, List.all_eq_true, List.any_eq_true,
      Bool.not_eq_true', decide_eq_false_iff_not] at this
    exact this
  have hc : ∀ r ∈ rs, ∀ x y, r.Covers x y ↔ (r.x ≤ x ∧ x < r.x + r.cell.colSpan ∧ r.y ≤ y ∧ y < r.y + r.cell.rowSpan) := by
    intro r hr x y
    unfold Rect.Covers
    rw [(h1 r hr).2.2.1]
    simp
  refine ⟨⟨?_, fun r hr => (h1 r hr).2.2.2.2.2, ?_⟩, fun r hr => (h1 r hr).1, fun r hr => ⟨(h1 r hr).2.1, (h1 r hr).2.2.1⟩, ?_, ?_⟩
  · intro x y hx hy
    rcases h2 x hx y hy with h | ⟨r, hr, h, e⟩
    · left
      rw [h.1]
      exact ⟨rfl, fun r hr hcov => h.2 r hr ((hc r hr x y).1 hcov)⟩
    · exact .inr ⟨r, hr, (hc r hr x y).2 h, e⟩
  · intro r hr x y hcov
    have := (hc r hr x y).1 hcov
    have := h1 r hr
    omega
  · refine List.Pairwise.imp_of_mem ?_ h3
    intro a b ha hb hab x y h h'
    have := (hc a ha x y).1 h
    have := (hc b hb x y).1 h'
    omega
  · intro x y hx hy hb
    rcases h2 x hx y hy with h | ⟨r, hr, h, e⟩
    · rw [h.1]; exact ⟨rfl, rfl⟩
    · rw [e] at hb; cases hb

theorem tame_of_nozero (e : Prop) {gs : List (List (List Cell))} (hz : ∀ g ∈ gs, ¬HasZero g) : Table.Spec.Tame e gs := by
  induction gs with
  | nil => trivial
  | cons g gs ih =>
    cases gs with
    | nil => exact fun h => absurd h (hz g (by simp))
    | cons g' gs => exact ⟨fun h => absurd h (hz g (by simp)), ih fun g h => hz g (by simp [h])⟩

/-- **C245 for documents.** In a table without `rowspan=0` whose cells do not overlap. -/
theorem C245_tables (items : List Item) (hv : ∀ g ∈ groups items, ValidRows g) (hz : ∀ g ∈ groups items, ¬HasZero g) :
    ∃ st rs, build items = some st ∧ Placed [] 0 (groups items) rs st.core.grid.h ∧
      ((rs.Pairwise fun a b => ∀ x y, a.Covers x y → ¬b.Covers x y) →
        ∀ (B : Nat → Borders) (r q : Rect), r ∈ rs → q ∈ rs → Above r q →
          ∃ bot top, bottoms st.core.grid B = .ok bot ∧ tops st.core.grid B = .ok top ∧
            bottomAt st.core.grid bot r.x r.y r.cell.colSpan r.cell.rowSpan = topAt st.core.grid top q.x q.y ∧
            Beats (topAt st.core.grid top q.x q.y)
              ([(B (q.y - 1)).after r.cell.id, (B (q.y - 1)).before q.cell.id] ++ (B (q.y - 1)).lines)) := by
  obtain ⟨st, rs, hb, hp, hs⟩ := Table.C28_cells_placed_partial items hv (tame_of_nozero _ hz)
  refine ⟨st, rs, hb, hp, ?_⟩
  intro ha B r q hr hq hrq
  obtain ⟨bot, top, h1, h2, h3, h4, -⟩ := C245_above (tiles_of_build hb hp hs hv hz ha) B hr hq hrq
  exact ⟨bot, top, h1, h2, h3, h4⟩

/-! A table with spans whose cells fit together: `1` over `3`, `4`; `2` beside them, two rows high; below a cell of three. -/

private def sample : List Item := [.body [[⟨1, 1, 2⟩, ⟨2, 2, 1⟩], [⟨3, 1, 1⟩, ⟨4, 1, 1⟩], [⟨5, 1, 3⟩]]]

private def sampleRects : List Rect :=
  [⟨⟨1, 1, 2⟩, 0, 0, some 1⟩, ⟨⟨2, 2, 1⟩, 2, 0, some 2⟩, ⟨⟨3, 1, 1⟩, 0, 1, some 2⟩, ⟨⟨4, 1, 1⟩, 1, 1, some 2⟩, ⟨⟨5, 1, 3⟩, 0, 2, some 3⟩]

private def sampleBorders : Nat → Borders := fun _ => ⟨fun c => ⟨c, .solid, c⟩, fun c => ⟨2, .dotted, c⟩, [⟨3, .dashed, 9⟩]⟩

private def sampleGrid : Grid := ((build sample).map (·.core.grid)).getD ⟨0, 0, fun x y => ⟨x, y, none⟩⟩

theorem sample_tiles : Tiles sampleGrid sampleRects :=
  tiles_of_check (by decide +kernel) (by decide +kernel) (by decide +kernel)

example : Above ⟨⟨2, 2, 1⟩, 2, 0, some 2⟩ ⟨⟨5, 1, 3⟩, 0, 2, some 3⟩ ∧ Beside ⟨⟨1, 1, 2⟩, 0, 0, some 1⟩ ⟨⟨2, 2, 1⟩, 2, 0, some 2⟩ :=
  ⟨⟨rfl, 2, by decide, by decide⟩, rfl, 0, by decide, by decide⟩

example : (match bottoms sampleGrid sampleBorders, tops sampleGrid sampleBorders with
    | .ok bot, .ok top => some (bottomAt sampleGrid bot 0 0 2 1, topAt sampleGrid top 0 1, topAt sampleGrid top 1 1,
        bottomAt sampleGrid bot 2 0 1 2, topAt sampleGrid top 0 2)
    | _, _ => none) =
      some (⟨3, .dashed, 9⟩, ⟨3, .dashed, 9⟩, ⟨3, .dashed, 9⟩, ⟨4, .solid, 4⟩, ⟨4, .solid, 4⟩) := by decide +kernel

/-- The line below row `i`, as cells above show it, in a table with these borders of rows and groups and none of cells. -/
private def drawn (items : List Item) (row group : Nat → Border) (x y : Nat) : Option Border :=
  (build items).bind fun st =>
    match bottoms st.core.grid (fun i => ⟨fun _ => ⟨0, .none, 0⟩, fun _ => ⟨0, .none, 0⟩, rowBorders st row row group group i⟩) with
    | .ok bot => some (bottomAt st.core.grid bot x y 1 1)
    | _ => none

/-- The border of a group of rows is drawn between rows inside of it. -/
theorem C245_group_fails :
    drawn [.body [[⟨1, 1, 1⟩], [⟨2, 1, 1⟩]]] (fun _ => ⟨0, .none, 0⟩) (fun _ => ⟨3, .solid, 7⟩) 0 0 = some ⟨3, .solid, 7⟩ := by
  decide +kernel

/-- The border of the second row does not count where the first one has a cell of two rows; that of the first one counts twice
instead. -/
theorem C245_row_fails :
    drawn [.body [[⟨1, 2, 1⟩, ⟨2, 1, 1⟩], [⟨3, 1, 1⟩]]] (fun n => if n = 1 then ⟨3, .solid, 7⟩ else ⟨0, .none, 0⟩)
      (fun _ => ⟨0, .none, 0⟩) 1 0 = some ⟨0, .none, 0⟩ ∧
    drawn [.body [[⟨1, 1, 1⟩, ⟨2, 1, 1⟩], [⟨3, 1, 1⟩]]] (fun n => if n = 1 then ⟨3, .solid, 7⟩ else ⟨0, .none, 0⟩)
      (fun _ => ⟨0, .none, 0⟩) 1 0 = some ⟨3, .solid, 7⟩ := by
  decide +kernel

/-- A border that is hidden takes its width of both cells all the same. -/
theorem C245_hidden_fails : ∃ B : Nat → Borders, (∀ i, (B i).lines = []) ∧ (∀ i c, (B i).after c = ⟨8, .hidden, 0⟩) ∧
    (match tops sampleGrid B with | .ok top => some (half (topAt sampleGrid top 0 1)) | _ => none) = some 4 :=
  ⟨fun _ => ⟨fun _ => ⟨8, .hidden, 0⟩, fun _ => ⟨2, .solid, 1⟩, []⟩, fun _ => rfl, fun _ _ => rfl, by decide +kernel⟩

/-! ## C246 -/

/-- **C246 (in part).** Finding the borders between the rows of a table, and those cells have at their start, comes to an end
inside of the table, whatever spans there are. -/
theorem C246_inside_partial (h : Tiles g rs) (B : Nat → Borders) :
    (∃ ws, bottoms g B = .ok ws) ∧ (∃ ws, tops g B = .ok ws) ∧ ∃ ws, starts g B = .ok ws :=
  ⟨bottoms_ok h B, tops_ok h B, starts_ok h B⟩

/-- **C246 (in part).** So does finding those cells have at their end, if cells of several rows are far enough from the last
row; cells of one row always are. -/
theorem C246_ends_partial (h : Tiles g rs) (hr : ∀ r ∈ rs, r.y + 2 * r.cell.rowSpan ≤ g.h + 1) (B : Nat → Borders) :
    ∃ ws, ends g B = .ok ws := by
  apply flat_ok
  intro E hE
  obtain ⟨i, hi, rfl⟩ := List.mem_map.1 hE
  rw [List.mem_range] at hi
  have hsound := colLine_sound h (j := i) (by omega)
  obtain ⟨ts, hrun, hd⟩ := run_done hsound
  refine ⟨ts, hrun, ?_⟩
  intro p hp
  obtain ⟨t, ht, hp⟩ := List.mem_flatMap.1 hp
  obtain ⟨j, hj, rfl⟩ := List.mem_map.1 hp
  have hjl : j < g.h := ((hd.low t ht).1 j hj).2
  have hb : pred64 (j + (colLine g i).span ((colLine g i).a j)) < g.h := by
    have hs : 1 ≤ (colLine g i).span ((colLine g i).a j) ∧ j + (colLine g i).span ((colLine g i).a j) ≤ g.h := by
      simp only [colLine, rowSpan]
      rcases h.shows.slots i j (by omega) hjl with ⟨hn, -⟩ | ⟨r, hrs, hcov, e⟩
      · rw [hn]; simp only; omega
      · rw [e]
        have := (covers_iff h hrs _ _).1 hcov
        have := hr r hrs
        have := (h.rows r hrs).1
        simp only
        omega
    generalize (colLine g i).span ((colLine g i).a j) = n at hs
    unfold pred64
    rw [if_neg (by omega)]
    omega
  simp only
  generalize pred64 (j + (colLine g i).span ((colLine g i).a j)) = k at hb
  have hm : (k + 1) * g.w ≤ g.h * g.w := Nat.mul_le_mul_right _ (by omega)
  rw [Nat.succ_mul, Nat.mul_comm g.h] at hm
  omega

private def gridOf (items : List Item) : Grid := ((build items).map (·.core.grid)).getD ⟨0, 0, fun x y => ⟨x, y, none⟩⟩

private def noBorders : Nat → Borders := fun _ => ⟨fun _ => ⟨0, .none, 0⟩, fun _ => ⟨0, .none, 0⟩, []⟩

example : ∀ r ∈ sampleRects, r.y + 2 * r.cell.rowSpan ≤ sampleGrid.h + 1 := by decide +kernel

/-- Two cells of two rows side by side at the foot of a table: the code writes behind the end of the table. -/
theorem C246_outside_fails :
    Tiles (gridOf [.body [[⟨1, 2, 1⟩, ⟨2, 2, 1⟩, ⟨3, 1, 1⟩], [⟨4, 1, 1⟩]]])
      [⟨⟨1, 2, 1⟩, 0, 0, some 2⟩, ⟨⟨2, 2, 1⟩, 1, 0, some 2⟩, ⟨⟨3, 1, 1⟩, 2, 0, some 1⟩, ⟨⟨4, 1, 1⟩, 2, 1, some 2⟩] ∧
    ends (gridOf [.body [[⟨1, 2, 1⟩, ⟨2, 2, 1⟩, ⟨3, 1, 1⟩], [⟨4, 1, 1⟩]]]) noBorders = .panic :=
  ⟨tiles_of_check (by decide +kernel) (by decide +kernel) (by decide +kernel), by decide +kernel⟩

/-- A cell with `rowspan=0` beside another one: the code looks behind the end of the table. -/
theorem C246_zero_fails : starts (gridOf [.body [[⟨1, 0, 1⟩, ⟨2, 1, 1⟩], [⟨3, 1, 1⟩]]]) noBorders = .panic := by
  decide +kernel

end Verif.Seams
