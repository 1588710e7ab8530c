import Verif.Table.Model
/-!
# The grid of a table: what is meant

HTML, "forming a table", said with rectangles: every cell is a rectangle, its column is the first one
in its row that no rectangle of an earlier row covers, and it covers as many rows and columns as it
says; with `rowspan=0` it goes down to the end of its group of rows.

Only `Cell`, `Item` and, to say what the grid shows, `Grid` come from the model.
-/
namespace Verif.Table.Spec

/-- A cell put at a place. `bottom` is the first row below it; `none` stands for the end of its group. -/
structure Rect where
  cell : Cell
  x : Nat
  y : Nat
  bottom : Option Nat
deriving DecidableEq, Repr

/-- The rectangle covers this slot. -/
def Rect.Covers (r : Rect) (x y : Nat) : Prop :=
  r.x ≤ x ∧ x < r.x + r.cell.colSpan ∧ r.y ≤ y ∧ ∀ b, r.bottom = some b → y < b

/-- A cell at a place. -/
def rectAt (c : Cell) (x y : Nat) : Rect := ⟨c, x, y, if c.rowSpan = 0 then none else some (y + c.rowSpan)⟩

/-- The cells of row `y`, from column `x` on, given the rectangles of the rows above. -/
inductive RowPlaced (above : List Rect) (y : Nat) : Nat → List Cell → List Rect → Prop
  | nil {x} : RowPlaced above y x [] []
  | cons {x x' c cs rs} : x ≤ x' → (∀ i, x ≤ i → i < x' → ∃ r ∈ above, r.Covers i y) → (∀ r ∈ above, ¬r.Covers x' y) →
      RowPlaced above y (x' + c.colSpan) cs rs → RowPlaced above y x (c :: cs) (rectAt c x' y :: rs)

/-- The rows of a group, from row `y` on. -/
inductive RowsPlaced : List Rect → Nat → List (List Cell) → List Rect → Prop
  | nil {above y} : RowsPlaced above y [] []
  | cons {above y row rows rs rs'} : RowPlaced above y 0 row rs → RowsPlaced (above ++ rs) (y + 1) rows rs' →
      RowsPlaced above y (row :: rows) (rs ++ rs')

/-- The first row below a group whose rows end at `y`: cells may reach below its last row. -/
def IsEnd (e y : Nat) (rs : List Rect) : Prop :=
  y ≤ e ∧ (∀ r ∈ rs, ∀ b, r.bottom = some b → b ≤ e) ∧ (e = y ∨ ∃ r ∈ rs, r.bottom = some e)

/-- The rectangle, with the end of its group filled in. -/
def Rect.close (e : Nat) (r : Rect) : Rect := { r with bottom := some (r.bottom.getD e) }

/-- The groups of rows of a table one below the other; the last number is the height of it all. -/
inductive Placed : List Rect → Nat → List (List (List Cell)) → List Rect → Nat → Prop
  | nil {above y} : Placed above y [] [] y
  | cons {above y rows rows' rs rs' e h} : RowsPlaced above y rows rs → IsEnd e (y + rows.length) rs →
      Placed (above ++ rs.map (Rect.close e)) e rows' rs' h → Placed above y (rows :: rows') (rs.map (Rect.close e) ++ rs') h

/-- The grid shows the rectangles: each slot shows a cell that covers it, or nothing when none does,
and the first slot of every cell shows that cell. -/
structure Shows (g : Grid) (rs : List Rect) : Prop where
  slots : ∀ x y, x < g.w → y < g.h →
    ((g.slot x y).box = none ∧ ∀ r ∈ rs, ¬r.Covers x y) ∨
    ∃ r ∈ rs, r.Covers x y ∧ g.slot x y = ⟨r.x, r.y, some r.cell⟩
  first : ∀ r ∈ rs, g.slot r.x r.y = ⟨r.x, r.y, some r.cell⟩
  inside : ∀ r ∈ rs, ∀ x y, r.Covers x y → x < g.w ∧ y < g.h

/-- The rows of the first header group. -/
def head : List Item → List (List (List Cell))
  | [] => []
  | .head rows :: _ => [rows]
  | _ :: rest => head rest

/-- The rows of the footers. -/
def feet (items : List Item) : List (List (List Cell)) :=
  items.filterMap fun
    | .foot rows => some rows
    | _ => none

/-- Rows that stand in the table itself, if any, are a group of their own. -/
def run (acc : List (List Cell)) : List (List (List Cell)) := if acc = [] then [] else [acc]

/-- The groups between the header and the footers, and the rows behind the last of them. -/
def between (seen : Bool) (acc : List (List Cell)) : List Item → List (List (List Cell)) × List (List Cell)
  | [] => ([], acc)
  | .colGroup _ _ :: rest => between seen acc rest
  | .row cells :: rest => between seen (acc ++ [cells]) rest
  | .foot _ :: rest => (run acc ++ (between seen [] rest).1, (between seen [] rest).2)
  | .head rows :: rest =>
    (run acc ++ (if seen then [rows] else []) ++ (between true [] rest).1, (between true [] rest).2)
  | .body rows :: rest => (run acc ++ [rows] ++ (between seen [] rest).1, (between seen [] rest).2)

/-- The groups of rows of a table, from the top. (Rows that stand in the table behind its last group
are not ended before the first footer: HTML has it so.) -/
def groups (items : List Item) : List (List (List Cell)) :=
  head items ++ (between false [] items).1 ++
    match feet items with
    | [] => run (between false [] items).2
    | f :: fs => ((between false [] items).2 ++ f) :: fs

/-- Whether the last group is ended: rows that stand in the table itself are not. -/
def Ended (items : List Item) : Prop := feet items ≠ [] ∨ (between false [] items).2 = []

/-- How many rows below its last one a group reaches into. -/
def spill (rows : List (List Cell)) : Nat :=
  rows.foldl (fun s row => row.foldl (fun s c => max s (c.rowSpan - 1)) (s - 1)) 0

/-- The group has a cell that goes down to its end. -/
def HasZero (rows : List (List Cell)) : Prop := ∃ row ∈ rows, ∃ c ∈ row, c.rowSpan = 0

/-- Where the code gets `rowspan=0` right: groups with such cells reach one row below their last one,
or are the last group and reach no row below, or one row if it is ended. -/
def Tame (ended : Prop) : List (List (List Cell)) → Prop
  | [] => True
  | [g] => HasZero g → spill g = 0 ∨ (spill g = 1 ∧ ended)
  | g :: g' :: gs => (HasZero g → spill g = 1) ∧ Tame ended (g' :: gs)

/-- Every cell spans at least one column. -/
def ValidRows (rows : List (List Cell)) : Prop := ∀ row ∈ rows, ∀ c ∈ row, 1 ≤ c.colSpan

/-! ## Columns and rows -/

/-- The column groups a table begins with: the spans of their columns, and their own span, which counts
when they have no columns. -/
def leading : List Item → List (List Nat × Nat)
  | .colGroup columns span :: rest => (columns, span) :: leading rest
  | _ => []

/-- How many columns a group stands for. -/
def spanned : List Nat × Nat → Nat
  | ([], span) => span
  | (columns, _) => columns.foldr (· + ·) 0

/-- Spans side by side, from column `x`: the first and the last column of each. -/
def ranges (x : Nat) : List Nat → List Axis
  | [] => []
  | n :: ns => ⟨x, x + n - 1⟩ :: ranges (x + n) ns

/-- The columns of the groups, from column `x`. -/
def columnRanges (x : Nat) : List (List Nat × Nat) → List Axis
  | [] => []
  | g :: gs => ranges x g.1 ++ columnRanges (x + spanned g) gs

/-- No cell of the group spans more than one row. -/
def OneRow (rows : List (List Cell)) : Prop := ∀ row ∈ rows, ∀ c ∈ row, c.rowSpan ≤ 1

/-- The rows from `y` on, each for itself. -/
def ownRows (y : Nat) : Nat → List Axis
  | 0 => []
  | n + 1 => ⟨y, y⟩ :: ownRows (y + 1) n

/-! ## Span attributes -/

/-- HTML: `colspan` is 1 unless it is a number above 0; it is at most 1000. -/
def htmlColSpan : Option Int → Nat
  | some n => if n ≤ 0 then 1 else min n.toNat 1000
  | none => 1

/-- HTML: `rowspan` is 1 unless it is a number that is not negative; it is at most 65534. -/
def htmlRowSpan : Option Int → Nat
  | some n => if n < 0 then 1 else min n.toNat 65534
  | none => 1

/-! ## Borders -/

/-- CSS Tables, the strength of the styles. -/
def strength : Style → Nat
  | .double => 8
  | .solid => 7
  | .dashed => 6
  | .dotted => 5
  | .ridge => 4
  | .outset => 3
  | .groove => 2
  | .inset => 1
  | .none => 0
  | .hidden => 0

/-- CSS Tables, border specificity: the first of two borders wins over the second one. With `styles`
off, the styles are not compared. -/
def Wins (styles : Bool) (a b : Border) : Prop :=
  (a.style = .hidden ∧ b.style ≠ .hidden) ∨
  ((a.style = .hidden ↔ b.style = .hidden) ∧
    (b.width < a.width ∨ (a.width = b.width ∧ styles = true ∧ strength b.style < strength a.style)))

/-- The winner of several borders: the first one no other wins over. -/
def Winner (styles : Bool) (bs : List Border) (b : Border) : Prop :=
  ∃ l r, bs = l ++ b :: r ∧ (∀ a ∈ l, Wins styles b a) ∧ (∀ a ∈ r, ¬Wins styles a b)

end Verif.Table.Spec
