import Verif.Cells.Model
import Verif.Table.Spec
/-!
# Laying out a table: what is meant

Rectangles of slots are those of `Verif.Table.Spec`; the rest is said with sums of lengths. Only the
data (`Table`, `CellBox`, `Placed`, `Input`, `Keep`) and `run` come from the model.
-/
namespace Verif.Cells.Spec
open Verif.Table (Cell Grid Axis)
open Verif.Table.Spec (Rect Shows)

/-- The sum of what `f` says of `n` numbers from `a` on. -/
def total (f : Nat → Rat) (a : Nat) : Nat → Rat
  | 0 => 0
  | n + 1 => f a + total f (a + 1) n

/-- The entry of a list of lengths, zero where there is none. -/
def entry (v : List Rat) (i : Nat) : Rat := (v[i]?).getD 0

/-- The cells of the table: the grid shows them, each covers some slots, no two of them a common one
(a cell that is wide may run into one that reaches down from above: C28), and every row span is a
number. -/
structure Cells (t : Table) (rs : List Rect) : Prop where
  shows : Shows t.grid rs
  cols : ∀ r ∈ rs, 1 ≤ r.cell.colSpan
  rows : ∀ r ∈ rs, 1 ≤ r.cell.rowSpan ∧ r.bottom = some (r.y + r.cell.rowSpan)
  apart : rs.Pairwise fun a b => ∀ x y, a.Covers x y → ¬b.Covers x y

/-- Nothing about the table is negative, and a cell needs no less for all of its text in one line than
with all line breaks taken. -/
structure Sane (t : Table) : Prop where
  sx : 0 ≤ t.sx
  sy : 0 ≤ t.sy
  tall : ∀ id w u, 0 ≤ (t.box id).tall w u
  content : ∀ id, (t.box id).minContent ≤ (t.box id).maxContent

/-- Paddings do not depend on the width of the table: no percentages. -/
def NoPercent (t : Table) : Prop := ∀ id a b, (t.box id).padding a = (t.box id).padding b

/-- Cells get lower, not higher, when they get wider. -/
def Flows (t : Table) : Prop := ∀ id u v w, v ≤ w → (t.box id).tall w u ≤ (t.box id).tall v u

/-- What a cell needs for its content with all line breaks taken: its content, its padding, its
borders. -/
def need (t : Table) (r : Rect) : Rat :=
  (t.box r.cell.id).minContent + (t.box r.cell.id).padding 0 +
    ((t.edges r.y r.x).1 + (t.edges (r.y + r.cell.rowSpan - 1) (r.x + r.cell.colSpan - 1)).2)

/-- What a cell asks for: room for its content, and its `width` when that is a length. -/
def Asks (t : Table) (r : Rect) (q : Rat) : Prop :=
  q = need t r ∨ ∃ f, (t.box r.cell.id).width = some f ∧ ∀ a, f a = q

/-- The cell stands at the slots of the rectangle. -/
def Of (p : Placed) (r : Rect) : Prop := p.cell = r.cell ∧ p.ax = r.x ∧ p.ay = r.y

/-- Boxes that do not overlap. -/
def Apart (p q : Placed) : Prop :=
  p.x + p.w ≤ q.x ∨ q.x + q.w ≤ p.x ∨ p.y + p.h ≤ q.y ∨ q.y + q.h ≤ p.y

/-- What is left of a table after it has been laid out any number of times, in any ways. -/
inductive Reached (t : Table) : Keep → Prop
  | new : Reached t {}
  | next {st inp st' out} : Reached t st → run t st inp = some (st', out) → Reached t st'

/-- The same without layouts that measure the table (`min-content`, `max-content`). -/
inductive ReachedAuto (t : Table) : Keep → Prop
  | new : ReachedAuto t {}
  | next {st inp st' out} : ReachedAuto t st → inp.mode = .auto → run t st inp = some (st', out) → ReachedAuto t st'

/-- The whole table, in one piece. -/
def Whole (inp : Input) : Prop := inp.page = none ∧ inp.start = 0 ∧ inp.stop = none

end Verif.Cells.Spec
