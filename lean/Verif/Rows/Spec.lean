import Verif.Rows.Model
/-!
# Where tables are broken: what is meant
-/
namespace Verif.Rows

/-- The rows of the table that go over the pages: all but header and footer if these are repeated. -/
def first (t : Table) : Nat := if t.repeats then t.lo else 0
def behind (t : Table) : Nat := if t.repeats then t.hi + 1 else t.height

/-- The table has rows besides header and footer, as many as there are, and less than a machine can count; a table whose
header and footer are not repeated has no footer. -/
structure Sound (t : Table) : Prop where
  some : first t < behind t
  few : t.hi + t.height + 1 < 2 ^ 64
  foot : t.repeats = false → t.hi + 1 = t.height

/-- How far down rows may go. -/
def room (t : Table) : Int := if t.repeats then t.pageH - t.foot else t.pageH

/-- The cells of the row are its own and end with it, and it is small: CSS says that such rows are not to be split
(css-tables-3, "freely fragmentable"). -/
def Small (t : Table) (i : Nat) : Prop :=
  (∀ c, some c ∈ (t.row i).slots → c.own = true ∧ c.rowSpan = 1) ∧ 2 * (t.row i).height ≤ t.width ∧ 2 * (t.row i).height ≤ t.pageH

/-- Laying out rows: a row is laid out to its end or not, and it is if there is room for it. -/
def Honest (t : Table) (lay : Nat → Nat → Int → RowOut) : Prop :=
  ∀ s i y, first t ≤ i → i < behind t → (lay s i y).someUndone = !(lay s i y).allDone ∧
    (y + (t.row i).height ≤ room t → (lay s i y).allDone = true)

/-- Every row finds room at the top of every page. -/
def Fits (t : Table) (top : Nat → Int) : Prop :=
  ∀ p i, first t ≤ i → i < behind t → firstY t (top p) + (t.row i).height ≤ room t

/-- A page break is asked for between this row and the next one: by one of the rows, or by one of their groups if they are of
different ones. -/
def Asked (t : Table) (i : Nat) : Prop :=
  (∃ r, (t.row i).row = some r ∧ r.after = .page) ∨ (∃ r, (t.row (i + 1)).row = some r ∧ r.before = .page) ∨
  ((t.row i).group.map (·.1) ≠ (t.row (i + 1)).group.map (·.1) ∧
    ((∃ g, (t.row i).group = some g ∧ g.2.after = .page) ∨ (∃ g, (t.row (i + 1)).group = some g ∧ g.2.before = .page)))

/-- The rows are on the pages one after the other, from `s` to the last, some on every page. -/
inductive Cut (t : Table) : Nat → List Page → Prop
  | last {s n} : s + n + 1 = behind t → Cut t s [⟨List.range' s (n + 1), t.repeats⟩]
  | cons {s n l} : s + n + 1 < behind t → Cut t (s + n + 1) l → Cut t s (⟨List.range' s (n + 1), t.repeats⟩ :: l)

/-- Where the row `s + k` is on a page that begins with row `s` at `y`. -/
def place (t : Table) (lay : Nat → Int → RowOut) (s : Nat) (y : Int) : Nat → Int
  | 0 => y
  | k + 1 => place t lay s y k + (lay (s + k) (place t lay s y k)).sizeY + t.spacing

/-- The pages are full: from page `p` on, where row `s` is the first, every page but the last ends where a break is asked for
or before a row that cannot be laid out to its end. -/
inductive Full (t : Table) (lay : Nat → Nat → Int → RowOut) (top : Nat → Int) : Nat → Nat → List Page → Prop
  | last {p s page} : Full t lay top p s [page]
  | cons {p s page l} : (Asked t (s + page.rows.length - 1) ∨
      (lay s (s + page.rows.length) (place t (lay s) s (firstY t (top p)) page.rows.length)).allDone = false) →
      Full t lay top (p + 1) (s + page.rows.length) l → Full t lay top p s (page :: l)

end Verif.Rows
