import Verif.Paginate.Margins
/-!
# Margins: theorems

C37 adjoining margins collapse.
-/
namespace Verif.Paginate
open Spec

private def box (id : Nat) (mt h mb : Int) (s : Style := {}) : Box :=
  .mono { s with met := fun _ => { mt, extent := h, mb } } id []
private def div (kids : List Box) (s : Style := {}) : Box := .block s 0 kids

/-- The height of every box is that of its border boxes stacked with the gaps of their margins, and all
content stands where it belongs. Without pages, if no box is forced to break. -/
theorem C37_stacked_partial (root : Box) (h : Unforced root) (ht : Tidy 0 root) :
    renderFlow root = spots 0 0 root ∧ (layoutRoot {} root 0 0 {}).size = height 0 root := by
  obtain ⟨e1, e2⟩ := tall_box {} rfl rfl root { page := 0, y := 0, known := (root.style.met 0).height, trav := {} } h ht rfl
  exact ⟨e2, e1⟩

/-- Nested boxes, negative margins, a float, a marker, positioned boxes. -/
example :
    let doc := div [box 1 5 10 20, div [box 2 0 3 0 { marker := true }, box 3 (-5) 10 8] { met := fun _ => { mt := 12, top := 1, mb := -4 } },
      box 4 7 9 7 { float := true }, box 5 0 1 1 { pos := .out }, box 6 6 10 0]
    Unforced doc ∧ Tidy 0 doc ∧
      renderFlow doc = [⟨1, 5, 10⟩, ⟨2, 36, 3⟩, ⟨3, 31, 10⟩, ⟨4, 45, 9⟩, ⟨5, 45, 0⟩, ⟨6, 51, 10⟩] ∧ height 0 doc = 61 := by
  refine ⟨?_, ?_, ?_, ?_⟩
  · simp [div, box, Unforced, UnforcedKids, UnforcedInner, Box.style]
  · simp [div, box, Tidy, TidyKids, Box.style]
  · decide +kernel
  · decide +kernel

/-- Two boxes one below the other: between them is the larger positive margin plus the more negative one. -/
theorem C37_between_two (mt1 h1 mb1 mt2 h2 mb2 : Int) (i j : Nat) :
    ∃ y, renderFlow (div [box i mt1 h1 mb1, box j mt2 h2 mb2]) =
      [⟨i, mt1, h1⟩, ⟨j, y, h2⟩] ∧ y - (mt1 + h1) = max 0 (max mb1 mt2) + min 0 (min mb1 mt2) := by
  have := (C37_stacked_partial (div [box i mt1 h1 mb1, box j mt2 h2 mb2])
    (by simp [div, box, Unforced, UnforcedKids, UnforcedInner, Box.style]) (by simp [div, box, Tidy, TidyKids, Box.style])).1
  refine ⟨mt1 + h1 + gap mb1 mt2, ?_, by unfold gap; omega⟩
  rw [this]
  simp [div, box, spots, below, Box.style, height, gap]
  omega

/-- It does not depend on which of the two margins is above. -/
theorem C37_symmetric (s : Style) (hs : s.removed = false) (m m' : Met) (st st' : St) (h1 : st.blockSize - st.lastMb = st'.blockSize - st'.lastMb)
    (h2 : m.mt = st'.lastMb) (h3 : m'.mt = st.lastMb) : collapse s m st = collapse s m' st' := by
  rw [collapse_gap _ _ _ hs, collapse_gap _ _ _ hs]
  unfold gap
  omega

example : ∃ (m m' : Met) (st st' : St), st.blockSize - st.lastMb = st'.blockSize - st'.lastMb ∧ m.mt = st'.lastMb ∧
    m'.mt = st.lastMb ∧ st.lastMb = 10 ∧ st'.lastMb = -3 :=
  ⟨{ mt := -3 }, { mt := 10 }, { blockSize := 50, lastMb := 10 }, { blockSize := 37, lastMb := -3 }, by decide⟩

/-- Margins that adjoin through an empty box do not collapse: the two texts are 20 apart, not 10. -/
theorem C37_through_empty_fails :
    renderFlow (div [box 1 0 10 10, .block { met := fun _ => { mt := 10, mb := 10 } } 2 [], box 3 10 10 0]) =
      [⟨1, 0, 10⟩, ⟨2, 20, 0⟩, ⟨3, 30, 10⟩] := by decide +kernel

/-- The margin of the first child does not collapse with that of its parent: the text is 20 below, not 10. -/
theorem C37_first_child_fails :
    renderFlow (div [div [box 1 10 10 0] { met := fun _ => { mt := 10 } }]) = [⟨1, 20, 10⟩] := by decide +kernel

/-- A list marker with a top margin moves what follows down though it takes no space. -/
theorem C37_marker_margin_fails :
    renderFlow (div [box 1 10 10 0 { marker := true }, box 2 0 10 0]) = [⟨1, 10, 10⟩, ⟨2, 10, 10⟩] := by decide +kernel

end Verif.Paginate
