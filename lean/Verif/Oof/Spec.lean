import Verif.Oof.Model
/-!
# What is meant: containing blocks, and nothing lost

Of the model, only the data are used: boxes, their positions and their areas.
-/
namespace Verif.Oof.Spec
open Verif.Oof

/-- CSS Positioned Layout 3, 2.1, and CSS Transforms 1, 3: what makes a box the containing block of an absolutely or fixed
positioned one. -/
def holds (t : Tag) : Pos → Bool
  | .absolute => decide (t.pos ≠ .static) || t.moved
  | .fixed => t.moved
  | _ => false

/-- The containing block of a box among its ancestors, the nearest first; `none` is the initial containing block. -/
def nearest (anc : List Tag) (p : Pos) : Option Nat := (anc.find? fun t => holds t p).map Tag.id

/-- Positions out of the flow. -/
def away : Pos → Bool
  | .absolute => true
  | .fixed => true
  | _ => false

/-- The inline boxes around a box in a text: they cannot be transformed (CSS Transforms 1, 2: transformable elements). -/
def around (c : Box) : List Tag := c.look.wraps.map fun w => { w with moved := false }

mutual
/-- Every box out of the flow below a box, with its containing block; `anc` are the ancestors of the box. -/
def want (anc : List Tag) : Box → List Placing
  | .mk k cs => wantAll (k.tag :: anc) cs
def wantAll (anc : List Tag) : List Box → List Placing
  | [] => []
  | c :: cs =>
    (if away c.look.tag.pos then [(c.look.tag.id, nearest (around c ++ anc) c.look.tag.pos)] else []) ++
      (want (around c ++ anc) c ++ wantAll anc cs)
end

mutual
/-- A box and all below it. -/
def every : Box → List Look
  | .mk k cs => k :: everyAll cs
def everyAll : List Box → List Look
  | [] => []
  | c :: cs => every c ++ everyAll cs
end

/-- The names of a box and of all below it. -/
def names (b : Box) : List Nat := (every b).map fun l => l.tag.id

mutual
/-- Something holds of every box of a tree and its children. -/
def Each (P : Look → List Box → Prop) : Box → Prop
  | .mk k cs => P k cs ∧ EachAll P cs
def EachAll (P : Look → List Box → Prop) : List Box → Prop
  | [] => True
  | c :: cs => Each P c ∧ EachAll P cs
end

mutual
/-- The number of boxes of a tree. -/
def size : Box → Nat
  | .mk _ cs => 1 + sizeAll cs
def sizeAll : List Box → Nat
  | [] => 0
  | c :: cs => size c + sizeAll cs
end

/-- A box whose children out of the flow are all laid out: no inline box around them is positioned; a flex container has
no floating children, and it has one in the flow unless it is empty; and from a cell of a table, or a foreign object of a
drawing, nothing has its containing block outside of it. -/
structure Keeps (k : Look) (cs : List Box) : Prop where
  wraps : ∀ c ∈ cs, ∀ w ∈ c.look.wraps, w.pos = .static
  flex : k.ctx = .flex → (∀ c ∈ cs, c.look.floats = false) ∧ (cs = [] ∨ ∃ c ∈ cs, away c.look.tag.pos = false)
  held : k.ctx = .table ∨ k.ctx = .drawing → ∀ c ∈ cs, away c.look.tag.pos = false ∧ ∀ p ∈ want [] c, p.2 ≠ none

/-- A flex container without children out of the flow. -/
def Shows (k : Look) (cs : List Box) : Prop := k.ctx = .flex → ∀ c ∈ cs, away c.look.tag.pos = false

/-- One rectangle lies in another. -/
def Inside (a b : Rect) : Prop :=
  b.x ≤ a.x ∧ b.y ≤ a.y ∧ a.x + a.width ≤ b.x + b.width ∧ a.y + a.height ≤ b.y + b.height

end Verif.Oof.Spec
