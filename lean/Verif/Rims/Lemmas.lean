import Verif.Rims.Spec
import Verif.Seams.Grids
/-!
# Borders at the sides of cells and tables: lemmas
-/
namespace Verif.Rims
open Verif.Table (Slot Grid Border Cell harmonize)
open Verif.Table.Spec (Rect)
open Verif.Seams (Res pred64 Tiles covers_iff slot_of_cover slot_cases corner colSpan rowSpan)

variable {g : Grid} {rs : List Rect}

theorem pred64_eq {n : Nat} (h : 0 < n) : pred64 n = n - 1 := by
  unfold pred64
  rw [if_neg (by omega)]

theorem place_lt {w h i j : Nat} (hi : i < h) (hj : j < w) : i * w + j < w * h := by
  have h1 : (i + 1) * w ≤ h * w := Nat.mul_le_mul_right _ hi
  rw [Nat.succ_mul, Nat.mul_comm h] at h1
  omega

theorem place_inj {w i j i' j' : Nat} (hj : j < w) (hj' : j' < w) (h : i * w + j = i' * w + j') : i = i' ∧ j = j' := by
  have h1 : (i * w + j) % w = (i' * w + j') % w := by rw [h]
  rw [Nat.mul_comm i, Nat.mul_comm i', Nat.mul_add_mod, Nat.mul_add_mod, Nat.mod_eq_of_lt hj, Nat.mod_eq_of_lt hj'] at h1
  subst h1
  have h2 : i * w = i' * w := by omega
  exact ⟨Nat.eq_of_mul_eq_mul_right (by omega) h2, rfl⟩

/-- The grid can be numbered. -/
def Few (g : Grid) : Prop := g.w * g.h < 2 ^ 64

theorem place_eq (hf : Few g) {i j : Nat} (hi : i < g.h) (hj : j < g.w) : place g i j = i * g.w + j := by
  unfold place wrap
  exact Nat.mod_eq_of_lt (Nat.lt_trans (place_lt hi hj) hf)

/-- The slots at a side of a cell are where the code writes. -/
theorem spot_iff (h : Tiles g rs) (hf : Few g) {r : Rect} (hr : r ∈ rs) (s : Side) (p : Nat) :
    (∃ k, k < turns r.cell s ∧ spot g r.cell r.x r.y k s = p) ↔
      ∃ x y, r.Covers x y ∧ OnSide s r x y ∧ p = y * g.w + x := by
  obtain ⟨c1, c2⟩ := corner h hr
  have h1 := h.cols r hr
  have h2 := (h.rows r hr).1
  constructor
  · rintro ⟨k, hk, rfl⟩
    cases s with
    | top =>
      have hk : k < r.cell.colSpan := hk
      exact ⟨r.x + k, r.y, (covers_iff h hr _ _).2 (by omega), rfl, place_eq hf (by omega) (by omega)⟩
    | bottom =>
      have hk : k < r.cell.colSpan := hk
      refine ⟨r.x + k, r.y + r.cell.rowSpan - 1, (covers_iff h hr _ _).2 (by omega), by simp only [OnSide]; omega, ?_⟩
      simp only [spot]
      rw [pred64_eq (by omega)]
      exact place_eq hf (by omega) (by omega)
    | start =>
      have hk : k < r.cell.rowSpan := hk
      exact ⟨r.x, r.y + k, (covers_iff h hr _ _).2 (by omega), rfl, place_eq hf (by omega) (by omega)⟩
    | fin =>
      have hk : k < r.cell.rowSpan := hk
      refine ⟨r.x + r.cell.colSpan - 1, r.y + k, (covers_iff h hr _ _).2 (by omega), by simp only [OnSide]; omega, ?_⟩
      simp only [spot]
      rw [pred64_eq (by omega)]
      exact place_eq hf (by omega) (by omega)
  · rintro ⟨x, y, hc, ho, rfl⟩
    rw [covers_iff h hr] at hc
    cases s with
    | top =>
      have ho : y = r.y := ho
      refine ⟨x - r.x, by simp only [turns]; omega, ?_⟩
      simp only [spot]
      rw [show r.x + (x - r.x) = x by omega, ho]
      exact place_eq hf (by omega) (by omega)
    | bottom =>
      have ho : y + 1 = r.y + r.cell.rowSpan := ho
      refine ⟨x - r.x, by simp only [turns]; omega, ?_⟩
      simp only [spot]
      rw [show r.x + (x - r.x) = x by omega, ← ho, pred64_eq (by omega)]
      exact place_eq hf (by omega) (by omega)
    | start =>
      have ho : x = r.x := ho
      refine ⟨y - r.y, by simp only [turns]; omega, ?_⟩
      simp only [spot]
      rw [show r.y + (y - r.y) = y by omega, ho]
      exact place_eq hf (by omega) (by omega)
    | fin =>
      have ho : x + 1 = r.x + r.cell.colSpan := ho
      refine ⟨y - r.y, by simp only [turns]; omega, ?_⟩
      simp only [spot]
      rw [show r.y + (y - r.y) = y by omega, ← ho, pred64_eq (by omega)]
      exact place_eq hf (by omega) (by omega)

theorem write_iff (h : Tiles g rs) (hf : Few g) (f : Nat → Side → Int) (s : Side) (p : Nat × Int) :
    p ∈ allWrites g f s ↔ ∃ r ∈ rs, ∃ x y, r.Covers x y ∧ OnSide s r x y ∧ p = (y * g.w + x, f r.cell.id s) := by
  unfold allWrites
  simp only [List.mem_flatMap, List.mem_range]
  constructor
  · rintro ⟨i, hi, j, hj, hp⟩
    unfold cellWrites at hp
    rcases slot_cases h hj hi with he | ⟨r, hr, hc, he⟩
    · rw [he] at hp
      cases hp
    · rw [he] at hp
      simp only at hp
      split at hp
      · next ha =>
        obtain ⟨k, hk, rfl⟩ := List.mem_map.1 hp
        obtain ⟨rfl, rfl⟩ := ha
        obtain ⟨x, y, h1, h2, h3⟩ := (spot_iff h hf hr s _).1 ⟨k, List.mem_range.1 hk, rfl⟩
        exact ⟨r, hr, x, y, h1, h2, by rw [h3]⟩
      · cases hp
  · rintro ⟨r, hr, x, y, h1, h2, rfl⟩
    obtain ⟨k, hk, e⟩ := (spot_iff h hf hr s _).2 ⟨x, y, h1, h2, rfl⟩
    have hin := h.shows.inside r hr r.x r.y ((covers_iff h hr _ _).2 (by have := h.cols r hr; have := (h.rows r hr).1; omega))
    refine ⟨r.y, hin.2, r.x, hin.1, ?_⟩
    unfold cellWrites
    rw [h.shows.first r hr]
    simp only [and_self, if_true]
    exact List.mem_map.2 ⟨k, List.mem_range.2 hk, by rw [e]⟩

theorem filled_eq {ws : List (Nat × Int)} {k : Nat} {v : Int} (h1 : ∃ p ∈ ws, p.1 = k) (h2 : ∀ p ∈ ws, p.1 = k → p.2 = v) :
    filled ws k = v := by
  have key : ∀ (l : List (Nat × Int)) (acc : Int), (∀ p ∈ l, p.1 = k → p.2 = v) → ((∃ p ∈ l, p.1 = k) ∨ acc = v) →
      l.foldl (fun acc w => if w.1 = k then w.2 else acc) acc = v := by
    intro l
    induction l with
    | nil =>
      intro acc _ h
      rcases h with ⟨p, hp, -⟩ | h
      · cases hp
      · exact h
    | cons q l ih =>
      intro acc ha h
      rw [List.foldl_cons]
      apply ih _ (fun p hp => ha p (List.mem_cons_of_mem _ hp))
      by_cases hq : q.1 = k
      · rw [if_pos hq]; exact .inr (ha q List.mem_cons_self hq)
      · rw [if_neg hq]
        rcases h with ⟨p, hp, e⟩ | h
        · rcases List.mem_cons.1 hp with rfl | hp
          · exact absurd e hq
          · exact .inl ⟨p, hp, e⟩
        · exact .inr h
  exact key ws 0 h2 (.inl h1)

theorem filled_none {ws : List (Nat × Int)} {k : Nat} (h : ∀ p ∈ ws, p.1 ≠ k) : filled ws k = 0 := by
  have key : ∀ (l : List (Nat × Int)) (acc : Int), (∀ p ∈ l, p.1 ≠ k) → l.foldl (fun acc w => if w.1 = k then w.2 else acc) acc = acc := by
    intro l
    induction l with
    | nil => intro acc _; rfl
    | cons q l ih =>
      intro acc ha
      rw [List.foldl_cons, if_neg (ha q List.mem_cons_self)]
      exact ih _ (fun p hp => ha p (List.mem_cons_of_mem _ hp))
  exact key ws 0 h

/-! ## Along a side of the table -/

/-- The line of the table at a side, as the area of collapsed borders sees lines. -/
def sideLine (g : Grid) : Side → Seams.Line
  | .top | .bottom => Seams.rowLine g 0
  | .start | .fin => Seams.colLine g 0

def sideRow (g : Grid) : Side → Nat → Slot
  | .top, k => g.slot k 0
  | .bottom, k => g.slot k (g.h - 1)
  | .start, k => g.slot 0 k
  | .fin, k => g.slot (g.w - 1) k

theorem side_tiled (h : Tiles g rs) (hw : 0 < g.w) (hh : 0 < g.h) (s : Side) : Seams.Tiled (sideLine g s) (sideRow g s) := by
  cases s with
  | top => exact Seams.row_tiled h 0 0 hh
  | bottom => exact Seams.row_tiled h 0 (g.h - 1) (by omega)
  | start => exact Seams.col_tiled h 0 0 hw
  | fin => exact Seams.col_tiled h 0 (g.w - 1) (by omega)

theorem side_len (s : Side) : (sideLine g s).len = length g s := by cases s <;> rfl
theorem side_span (s : Side) (t : Slot) : (sideLine g s).span t = spanAlong s t := by cases s <;> rfl

theorem along_eq (hw : 0 < g.w) (hh : 0 < g.h) (s : Side) {k : Nat} (hk : k < length g s) : along g s k = some (sideRow g s k) := by
  cases s <;> simp only [length] at hk <;> simp only [along, Table.Grid.get, sideRow]
  · rw [if_neg (by omega)]
  · rw [pred64_eq hw, if_neg (by omega)]
  · rw [pred64_eq hh, if_neg (by omega)]
  · rw [if_neg (by omega)]

theorem walk_facts (h : Tiles g rs) (hw : 0 < g.w) (hh : 0 < g.h) (s : Side) (n k : Nat) (hkl : k ≤ length g s) (hn : length g s < k + n)
    (hb : Seams.Bd (sideLine g s) (sideRow g s) k) :
    ∃ l, walk g s n k = .ok l ∧
      (∀ p ∈ l, p.1 < length g s ∧ p.2 = sideRow g s p.1 ∧ p.2.box.isSome ∧ (sideLine g s).lead p.2 = p.1) ∧
      ∀ x, k ≤ x → x < length g s → (sideRow g s x).box.isSome → (sideLine g s).lead (sideRow g s x) = x → (x, sideRow g s x) ∈ l := by
  have ht := side_tiled h hw hh s
  induction n generalizing k with
  | zero => omega
  | succ n ih =>
    rw [walk]
    by_cases hk : k < length g s
    · rw [if_pos hk, along_eq hw hh s hk]
      simp only
      have hk' : k < (sideLine g s).len := by rw [side_len]; exact hk
      have hlead := hb hk'
      have hhi := ht.hi k hk'
      have hfit := ht.fits k hk'
      rw [hlead] at hhi hfit
      rw [side_len] at hfit
      have hsp : 0 < (sideLine g s).span (sideRow g s k) := by omega
      have hlast := ht.const k (k + (sideLine g s).span (sideRow g s k) - 1) hk' (by omega) (by omega)
      have hb' : Seams.Bd (sideLine g s) (sideRow g s) (k + spanAlong s (sideRow g s k)) := by
        rw [← side_span (g := g)]
        have := Seams.bd_next ht (e := k + (sideLine g s).span (sideRow g s k) - 1) (by rw [side_len]; omega)
          (by rw [hlast, hlead]; omega)
        rwa [show k + (sideLine g s).span (sideRow g s k) - 1 + 1 = k + (sideLine g s).span (sideRow g s k) by omega] at this
      rw [← side_span (g := g)] at hb' ⊢
      obtain ⟨l, h1, h2, h3⟩ := ih (k + (sideLine g s).span (sideRow g s k)) hfit (by omega) hb'
      rw [h1]
      refine ⟨_, rfl, ?_, ?_⟩
      · intro p hp
        split at hp
        · next hbx =>
          rcases List.mem_cons.1 hp with rfl | hp
          · exact ⟨hk, rfl, hbx, hlead⟩
          · exact h2 p hp
        · exact h2 p hp
      · intro x hx hxl hbx hle
        by_cases hxk : x = k
        · subst hxk
          rw [if_pos hbx]
          exact List.mem_cons_self
        · have hge : k + (sideLine g s).span (sideRow g s k) ≤ x := by
            rcases Nat.lt_or_ge x (k + (sideLine g s).span (sideRow g s k)) with hlt | hge
            · have := ht.const k x hk' (by omega) (by omega)
              rw [this, hlead] at hle
              omega
            · exact hge
          have := h3 x hge hxl hbx hle
          split
          · exact List.mem_cons_of_mem _ this
          · exact this
    · rw [if_neg hk]
      exact ⟨[], rfl, by simp, by intro x; omega⟩

end Verif.Rims
