import Verif.Oof.Show
/-!
# Properties of boxes out of the flow

C228: they are laid out once, in their containing block.  C229: nothing is lost on the way to the page.  C230: the overflow
of a document is what it covers.  C231: the containing block is a padding box.
-/
namespace Verif.Oof
open Spec

/-! ## Documents for the examples -/

/-- A box with a name, a position and children. -/
def plain (i : Nat) (p : Pos) (cs : List Box) : Box := .mk { tag := { id := i, pos := p } } cs

/-- A page with a positioned box that has an absolute one in a static one, and in that a fixed one. -/
def document : Box :=
  plain 0 .static [plain 1 .relative [plain 2 .static [plain 3 .absolute [plain 4 .fixed [], plain 5 .absolute []]]],
    .mk { tag := { id := 6 }, ctx := .flex } [plain 7 .static [plain 8 .absolute []]]]

theorem document_keeps : Each Keeps document := by
  have h : ∀ k cs, (∀ c ∈ cs, ∀ w ∈ Look.wraps (Box.look c), w.pos = .static) → k.ctx = .block → Keeps k cs := by
    intro k cs hw hk
    exact ⟨hw, by simp [hk], by simp [hk]⟩
  simp only [document, plain, Each, EachAll, and_true]
  refine ⟨h _ _ (by simp [Box.look]) rfl, ⟨h _ _ (by simp [Box.look]) rfl, h _ _ (by simp [Box.look]) rfl,
    h _ _ (by simp [Box.look]) rfl, h _ _ (by simp) rfl, h _ _ (by simp) rfl⟩, ⟨by simp [Box.look], ?_, by simp⟩,
    h _ _ (by simp [Box.look]) rfl, h _ _ (by simp) rfl⟩
  intro _
  exact ⟨by simp [Box.look], Or.inr ⟨_, List.mem_cons_self, rfl⟩⟩

theorem document_shows : Each Shows document := by
  simp [document, plain, Each, EachAll, Shows, Box.look, away]

/-! ## C228 -/

/-- **C228**, where nothing is dropped.  Layout ends, and what is out of the flow is laid out once, in its containing
block: the nearest ancestor that is positioned or transformed for absolute boxes, the nearest transformed one for fixed
boxes, or else the initial containing block.  Missing: boxes in tables and drawings whose containing block is outside of
them, in flex containers without items, in floating items, and in inline boxes that are positioned (see below). -/
theorem C228_placed_partial (b : Box) (h : Each Keeps b) (n : Nat) (hn : size b < n) :
    ∃ o, layRoot n b = some o ∧ o.placed.Perm (want [] b) := by
  obtain ⟨o, ho⟩ := Option.isSome_iff_exists.1 (layRoot_ends n b hn)
  exact ⟨o, ho, (layRoot_accounts ho h).2⟩

/-- The absolute box is laid out in the relative one, what is absolute in it is in it, and the others are in the initial
containing block. -/
example : Each Keeps document ∧ size document < 10 ∧
    want [] document = [(3, some 1), (4, none), (5, some 3), (8, none)] := by
  exact ⟨document_keeps, by decide, by decide⟩

/-- It ends for every tree. -/
theorem C228_ends (b : Box) (n : Nat) (hn : size b < n) : ∃ o, layRoot n b = some o :=
  Option.isSome_iff_exists.1 (layRoot_ends n b hn)

/-- **C228 fails in tables.**  A box out of the flow in a cell, with its containing block outside of the table, is not
laid out at all: what a cell hands on is not read. -/
theorem C228_table_fails (c : Box) (hc : c.kids = []) (ha : away c.look.tag.pos = true) (hw : c.look.wraps = [])
    (i j k n : Nat) :
    let b := plain i .static [.mk { tag := { id := j }, ctx := .table } [plain k .static [c]]]
    ((layRoot (n + 5) b).map Out.placed = some []) ∧ want [] b = [(c.look.tag.id, none)] := by
  obtain ⟨l, cs⟩ := c
  simp only [Box.kids] at hc
  subst hc
  simp only [Box.look] at ha hw
  have ho : Box.oof (.mk l []) = true := by rw [oof_away]; exact ha
  have hz : handles (some { id := k, pos := .static }) l.tag = false := by
    rw [handles_holds]
    cases hp : l.tag.pos <;> simp [holds]
  have hp : l.tag.pos = .absolute ∨ l.tag.pos = .fixed := by
    cases hp : l.tag.pos <;> simp [hp, away] at ha ⊢
  refine ⟨?_, ?_⟩
  · simp [plain, layRoot, lay, run, runFlow, runDrop, runAll, drain, ho, Run.append, Box.oof, Tag.oof, Box.look, hz,
      Frag.kids]
    have hz' : handles (some { id := k }) (Box.mk l []).look.tag = false := hz
    simp [hp, drain, hz']
  · simp [plain, want, wantAll, Box.look, around, hw, ha, away, nearest, holds]
    cases hp : l.tag.pos <;> simp_all [holds, away]

/-- **C228 fails in flex containers** that have no item: their boxes out of the flow have placeholders, but are not handed
on. -/
theorem C228_flex_fails (c : Box) (hc : c.kids = []) (ha : away c.look.tag.pos = true) (hw : c.look.wraps = [])
    (i j n : Nat) :
    let b := plain i .static [.mk { tag := { id := j }, ctx := .flex } [c]]
    ((layRoot (n + 5) b).map Out.placed = some []) ∧ want [] b = [(c.look.tag.id, none)] := by
  obtain ⟨l, cs⟩ := c
  simp only [Box.kids] at hc
  subst hc
  simp only [Box.look] at ha hw
  have ho : Box.oof (.mk l []) = true := by rw [oof_away]; exact ha
  refine ⟨?_, ?_⟩
  · simp [plain, layRoot, lay, run, runFlow, runFlex, Box.removed, ho, drain, Run.append, Box.look, Frag.kids]
    simp [Box.oof, Box.look, Tag.oof, drain, Run.append]
  · simp [plain, want, wantAll, Box.look, around, hw, ha, away, nearest, holds]
    cases hp : l.tag.pos <;> simp_all [holds, away]

/-- **C228 fails in texts.**  The containing block of an absolute box in a positioned inline box is that inline box; the
box is laid out in what is around the text. -/
theorem C228_inline_fails (n : Nat) :
    let b := plain 0 .static [.mk { tag := { id := 1, pos := .relative }, ctx := .inline }
      [.mk { tag := { id := 2, pos := .absolute }, wraps := [{ id := 3, pos := .relative }] } []]]
    ((layRoot (n + 5) b).map Out.placed = some [(2, some 1)]) ∧ want [] b = [(2, some 3)] := by
  refine ⟨rfl, by decide⟩

/-- **C228 fails for floats in flex containers.**  `float` has no effect on a flex item, but the item is left out, and all
that is in it. -/
theorem C228_float_fails (n : Nat) :
    let b := Box.mk { tag := { id := 0 }, ctx := .flex }
      [plain 1 .static [], .mk { tag := { id := 2 }, floats := true } [plain 3 .absolute []]]
    ((layRoot (n + 5) b).map Out.placed = some []) ∧ want [] b = [(3, none)] := by
  refine ⟨rfl, by decide⟩

/-! ## C229 -/

/-- **C229**, where nothing is dropped and no flex container has a child out of the flow.  Every box of the document is
painted once.  Missing: what C228 misses, and the children of flex containers that are out of the flow. -/
theorem C229_painted_partial (b : Box) (h : Each Keeps b) (hs : Each Shows b) (hd : (names b).Nodup) (n : Nat)
    (hn : size b < n) : ∃ o, layRoot n b = some o ∧ (painted o.frag).Perm (names b) := by
  obtain ⟨o, ho⟩ := Option.isSome_iff_exists.1 (layRoot_ends n b hn)
  exact ⟨o, ho, layRoot_painted ho h hs hd⟩

example : Each Keeps document ∧ Each Shows document ∧ (names document).Nodup ∧ names document = [0, 1, 2, 3, 4, 5, 6, 7, 8] :=
  ⟨document_keeps, document_shows, by decide, by decide⟩

/-- **C229 fails for children of flex containers** that are out of the flow: such a box is laid out, but its placeholder
is not in the tree, and it is not painted. -/
theorem C229_flex_fails (n : Nat) :
    let b := Box.mk { tag := { id := 0 }, ctx := .flex } [plain 1 .static [], plain 2 .absolute []]
    ((layRoot (n + 5) b).map Out.placed = some [(2, none)]) ∧ ((layRoot (n + 5) b).map fun o => painted o.frag) = some [0, 1] := by
  exact ⟨rfl, rfl⟩

/-- **C229 fails in tables**: the absolute box in the cell is not painted. -/
theorem C229_table_fails (n : Nat) :
    let b := plain 0 .static [.mk { tag := { id := 1 }, ctx := .table } [plain 2 .static [plain 3 .absolute []]]]
    names b = [0, 1, 2, 3] ∧ ((layRoot (n + 6) b).map fun o => painted o.frag) = some [0, 1, 2] := by
  exact ⟨by decide, rfl⟩

/-- **C229 fails for floats in flex containers**: a floating item is not painted. -/
theorem C229_float_fails (n : Nat) :
    let b := Box.mk { tag := { id := 0 }, ctx := .flex } [plain 1 .static [], .mk { tag := { id := 2 }, floats := true } []]
    names b = [0, 1, 2] ∧ ((layRoot (n + 5) b).map fun o => painted o.frag) = some [0, 1] := by
  exact ⟨by decide, rfl⟩

/-! ## C230 -/

/-- **C230**, where nothing is dropped: the overflow of a document covers the border boxes of all its boxes, in the flow
or not. -/
theorem C230_covers_partial (b : Box) (h : Each Keeps b) (n : Nat) (hn : size b < n) :
    ∃ o, layRoot n b = some o ∧ ∀ l ∈ every b, Inside l.area (overflow o.frag) := by
  obtain ⟨o, ho⟩ := Option.isSome_iff_exists.1 (layRoot_ends n b hn)
  exact ⟨o, ho, fun l hl => overflow_covers o.frag l ((layRoot_solid ho h).mem_iff.1 hl)⟩

/-- It is no more than that if the root covers the origin.  Missing: roots elsewhere (see below). -/
theorem C230_least_partial (b : Box) (h : Each Keeps b) (hz : Inside Rect.zero b.look.area) (n : Nat) (hn : size b < n) :
    ∃ o, layRoot n b = some o ∧ ∀ R, (∀ l ∈ every b, Inside l.area R) → Inside (overflow o.frag) R := by
  obtain ⟨o, ho⟩ := Option.isSome_iff_exists.1 (layRoot_ends n b hn)
  refine ⟨o, ho, fun R hR => ?_⟩
  obtain ⟨k, cs⟩ := b
  refine overflow_least (inside_trans hz (hR k (by simp [every]))) o.frag fun l hl => hR l ?_
  exact (layRoot_solid ho h).mem_iff.2 hl

/-- A page of 100 by 100 with an absolute box that sticks out. -/
def sticking : Box :=
  .mk { tag := { id := 0 }, area := ⟨0, 0, 100, 100⟩ }
    [.mk { tag := { id := 1, pos := .absolute }, area := ⟨80, 10, 50, 20⟩ } []]

example : Each Keeps sticking ∧ Inside Rect.zero sticking.look.area ∧
    ((layRoot 5 sticking).map fun o => overflow o.frag) = some ⟨0, 0, 130, 100⟩ := by
  refine ⟨?_, ?_, by decide +kernel⟩
  · simp only [sticking, Each, EachAll, and_true]
    exact ⟨⟨by simp [Box.look], by simp, by simp⟩, by simp, by simp, by simp⟩
  · unfold Inside
    decide +kernel

/-- **C230 fails away from the origin**: a placeholder has an empty border box at the origin, so the overflow of a root
that does not cover it reaches there. -/
theorem C230_origin_fails :
    let b := Box.mk { tag := { id := 0 }, area := ⟨50, 50, 10, 10⟩ }
      [.mk { tag := { id := 1, pos := .absolute }, area := ⟨52, 52, 1, 1⟩ } []]
    Each Keeps b ∧ (∀ l ∈ every b, Inside l.area ⟨50, 50, 10, 10⟩) ∧
      ((layRoot 5 b).map fun o => overflow o.frag) = some ⟨0, 0, 60, 60⟩ := by
  refine ⟨?_, ?_, by decide +kernel⟩
  · simp only [Each, EachAll, and_true]
    exact ⟨⟨by simp [Box.look], by simp, by simp⟩, by simp, by simp, by simp⟩
  · simp only [every, everyAll, List.append_nil, List.mem_cons, List.not_mem_nil, or_false, forall_eq_or_imp, forall_eq]
    unfold Inside
    decide +kernel

/-! ## C231 -/

/-- **C231**.  The containing block that a box lays others out in is the padding box of its own fragment. -/
theorem C231_padding (i : Input) (width height : Rat) :
    containing i width height = (metrics i i.content width height).paddingBox := by
  simp only [containing, metrics, Metrics.paddingBox, Metrics.borderBox, Rect.grow, Rect.shrink, Input.content, Rect.mk.injEq]
  refine ⟨?_, ?_, ?_, ?_⟩ <;> grind

/-- The content box is inside by the padding, and the border box starts where the box was put. -/
theorem C231_content (i : Input) (width height : Rat) :
    (metrics i i.content width height).contentBox = ⟨i.content.1, i.content.2, width, height⟩ ∧
      (metrics i i.content width height).borderBox.x = i.x ∧ (metrics i i.content width height).borderBox.y = i.y := by
  simp only [metrics, Metrics.contentBox, Metrics.paddingBox, Metrics.borderBox, Rect.shrink, Input.content, Rect.mk.injEq]
  refine ⟨⟨?_, ?_, ?_, ?_⟩, ?_, ?_⟩ <;> grind

example : containing ⟨10, 20, ⟨1, 2, 3, 4⟩, ⟨5, 5, 5, 5⟩⟩ 100 50 = ⟨15, 25, 106, 54⟩ := by decide +kernel

/-- **C231 fails on pages with margins**: the initial containing block is as large as the area of the page, but it starts
at the corner of the sheet. -/
theorem C231_page_fails (x y width height : Rat) (h : x ≠ 0 ∨ y ≠ 0) : initial (x, y) width height ≠ ⟨x, y, width, height⟩ := by
  intro e
  simp only [initial, Rect.mk.injEq] at e
  rcases h with h | h
  · exact h e.1.symm
  · exact h e.2.1.symm

end Verif.Oof
