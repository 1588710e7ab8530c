import Verif.Cells.Whole
/-!
# Laying out a table: a page of it, with its header and its footer
-/
namespace Verif.Cells
open Spec
open Verif.Table (Cell Grid Axis)
open Verif.Table.Spec (Rect Shows)

/-- The rows of a page of a table with the automatic algorithm. -/
theorem page_apart {t : Table} {rs : List Rect} (h : Cells t rs) (hf : t.fixed = false) (hsx : 0 ≤ t.sx) (hsy : 0 ≤ t.sy)
    {st st' : Keep} {inp : Input} {out : Out} (hr : Reached t st) (he : run t st inp = some (st', out))
    (hrow : ∀ i, 0 ≤ entry out.rows i) {e : Nat} (hstop : inp.stop = some e) (hse : inp.start ≤ e) (heh : t.heads + e + t.feet ≤ t.grid.h)
    (hc1 : ∀ r ∈ rs, r.y + r.cell.rowSpan ≤ inp.start ∨ inp.start ≤ r.y) (hc2 : ∀ r ∈ rs, r.y + r.cell.rowSpan ≤ e ∨ e ≤ r.y)
    (hd0 : ∀ r ∈ rs, r.y + r.cell.rowSpan ≤ t.heads ∨ t.heads ≤ r.y)
    (hd1 : ∀ r ∈ rs, r.y + r.cell.rowSpan ≤ inp.start + t.heads ∨ inp.start + t.heads ≤ r.y)
    (hd2 : ∀ r ∈ rs, r.y + r.cell.rowSpan ≤ t.heads + e ∨ t.heads + e ≤ r.y)
    (hd3 : ∀ r ∈ rs, r.y + r.cell.rowSpan ≤ t.grid.h - t.feet ∨ t.grid.h - t.feet ≤ r.y)
    (hfoot : ∀ k, k < t.feet → entry out.rows (t.grid.h - t.feet + k) ≤ entry out.rows k) :
    (∀ p ∈ out.cells, ∀ q ∈ out.cells, p ≠ q → Apart p q) ∧ ∀ p ∈ out.cells, inp.y ≤ p.y ∧ p.y + p.h ≤ inp.y + out.height := by
  have hst := reached_starts hr
  have hcw := (run_fits (listed_nil t) hf hr he).1
  obtain ⟨-, st1, rh, h1, h2, rfl, rfl⟩ := run_some he
  have hlen := (widths_kept (listed_nil t) hf (reached_kept (listed_nil t) hf hr) h1).2.1.len
  simp only at hcw
  rw [List.take_of_length_le (by rw [hlen])] at hcw
  have hcw0 : ∀ j, j < t.grid.w → 0 ≤ entry st1.colWidth j := fun j _ => hcw.nonneg j
  rw [← (widths_starts h1).1] at hst
  have hl := begin_length hst
  simp only at hrow hfoot ⊢
  unfold body
  split
  · rw [hstop]
    simp only [Option.getD_some]
    have hin : ∀ r ∈ rs, r.y + r.cell.rowSpan ≤ t.grid.h := fun r hr => (rect_inside h hr).2
    obtain ⟨c1, y1, s1, e1, l1, -, -, b1⟩ := headerRows_band h hsy st1.colWidth rh hrow inp.x (a := 0) (n := t.heads) (by omega)
      (fun k _ => by rw [Nat.zero_add]) (fun r hr => ⟨Or.inr (Nat.zero_le _), by rw [Nat.zero_add]; exact hd0 r hr⟩) (inp.y + t.sy) _ hl
    rw [e1]
    simp only
    obtain ⟨c2, y2, s2, e2, l2, o2, -, b2, -⟩ := layoutRows_band h hsy st1.colWidth rh inp.x (start := inp.start + t.heads) (stop := t.heads + e) (by omega)
      (by omega) (fun r hr => ⟨hd1 r hr, hd2 r hr⟩) y1 s1 l1
    rw [e2]
    simp only
    obtain ⟨c3, y3, s3, e3, l3, o3, -, b3⟩ := headerRows_band h hsy st1.colWidth rh hrow inp.x (a := t.grid.h - t.feet) (n := t.feet) (by omega)
      hfoot (fun r hr => ⟨hd3 r hr, Or.inl (by have := hin r hr; omega)⟩) y2 s2 l2
    rw [e3]
    simp only
    have hy : inp.y + (y3 - inp.y) = y3 := by ring
    rw [hy]
    have w1 := b1.within
    have w2 := b2.within
    have w3 := b3.within
    have l1' := b1.le
    have l2' := b2.le
    have l3' := b3.le
    have a1 := band_apart h hsx hcw0 b1
    have a2 := band_apart h hsx hcw0 b2
    have a3 := band_apart h hsx hcw0 b3
    constructor
    · intro p hp q hq hne
      rw [List.mem_append, List.mem_append] at hp hq
      rcases hp with (hp | hp) | hp <;> rcases hq with (hq | hq) | hq
      · exact a1 p hp q hq hne
      · have := w1 p hp; have := w2 q hq; exact Or.inr (Or.inr (Or.inl (by linarith)))
      · have := w1 p hp; have := w3 q hq; exact Or.inr (Or.inr (Or.inl (by linarith)))
      · have := w2 p hp; have := w1 q hq; exact Or.inr (Or.inr (Or.inr (by linarith)))
      · exact a2 p hp q hq hne
      · have := w2 p hp; have := w3 q hq; exact Or.inr (Or.inr (Or.inl (by linarith)))
      · have := w3 p hp; have := w1 q hq; exact Or.inr (Or.inr (Or.inr (by linarith)))
      · have := w3 p hp; have := w2 q hq; exact Or.inr (Or.inr (Or.inr (by linarith)))
      · exact a3 p hp q hq hne
    · intro p hp
      rw [List.mem_append, List.mem_append] at hp
      rcases hp with (hp | hp) | hp
      · have := w1 p hp; constructor <;> linarith
      · have := w2 p hp; constructor <;> linarith
      · have := w3 p hp; constructor <;> linarith
  · rw [hstop]
    simp only [Option.getD_some]
    obtain ⟨c2, y2, s2, e2, l2, o2, -, b2, -⟩ := layoutRows_band h hsy st1.colWidth rh inp.x (start := inp.start) (stop := e) hse
      (by omega) (fun r hr => ⟨hc1 r hr, hc2 r hr⟩) (inp.y + t.sy) _ hl
    rw [e2]
    simp only
    have hy : inp.y + (y2 - inp.y) = y2 := by ring
    rw [hy]
    refine ⟨band_apart h hsx hcw0 b2, fun p hp => ?_⟩
    have := b2.within p hp
    constructor <;> linarith

end Verif.Cells
