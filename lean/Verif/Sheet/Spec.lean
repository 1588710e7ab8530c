import Verif.Sheet.Model
import Verif.Values.Spec

/-!
# Sheets: specification

What the properties speak of: how many pixels of a page an inch has, which rectangle a margin box belongs in, how
far margins reach.  Nothing here refers to the functions that print.
-/

namespace Verif.Sheet
open Verif.Values (Tok Lit Cased)
open Verif.Run (Flow Orientation)

/-! ## C199: the size of the paper -/

/-- `Asks o w h`: the options ask for a page of width `w` and height `h`. -/
inductive Asks (o : Opts) : Rat → Rat → Prop where
  /-- Nothing but a paper. -/
  | portrait : o.width = none → o.height = none → o.orientation = .portrait → Asks o o.stock.minor o.stock.major
  | landscape : o.width = none → o.height = none → o.orientation = .landscape → Asks o o.stock.major o.stock.minor
  /-- Sizes take precedence over the paper. -/
  | both {w h} : o.width = some w → o.height = some h → Asks o w h
  | width {w} : o.width = some w → o.height = none → o.orientation = .portrait → Asks o w o.stock.major
  | height {h} : o.width = none → o.height = some h → o.orientation = .portrait → Asks o o.stock.minor h
  | widthLandscape {w} : o.width = some w → o.height = none → o.orientation = .landscape → Asks o w o.stock.minor
  | heightLandscape {h} : o.width = none → o.height = some h → o.orientation = .landscape → Asks o o.stock.major h

/-! ## C200: scales -/

/-- How many dots a pixel is: an inch is 96 pixels and 2.54 centimetres. -/
def dots : List (String × Rat) := [("dpi", 1 / 96), ("dpcm", 254 / 9600), ("dppx", 1), ("x", 1)]

/-- A number and a unit in any case ask for a scale. -/
inductive Scale (l : List Tok) : Rat → Prop where
  | mk {n : Lit} {u w k} : (u, k) ∈ dots → Cased w u.toList → l = [.dim (n.text ++ w)] → Scale l (n.value * k)

/-! ## C201: margins -/

/-- `Reach whole s d`: a margin `s` of a page that is `whole` across reaches `d`; margins that are relative to fonts
are left out. -/
inductive Reach (whole : Rat) : Side → Rat → Prop where
  | auto : Reach whole .auto 0
  | px {v} : Reach whole (.px v) v
  | percent {p d} : 100 * d = p * whole → Reach whole (.percent p) d

/-! ## C202: margin boxes -/

/-- Left of, right of or within the columns of the content; above, below or within its rows. -/
inductive Band where
  | before | within | after
  deriving DecidableEq, Repr

/-- Where the margin boxes are, CSS Paged Media 3 §4.2. -/
def place : Area → Option (Band × Band)
  | .footnote => none
  | .topLeftCorner => some (.before, .before)
  | .top | .topLeft | .topCenter | .topRight => some (.within, .before)
  | .topRightCorner => some (.after, .before)
  | .left | .leftTop | .leftMiddle | .leftBottom => some (.before, .within)
  | .right | .rightTop | .rightMiddle | .rightBottom => some (.after, .within)
  | .bottomLeftCorner => some (.before, .after)
  | .bottom | .bottomLeft | .bottomCenter | .bottomRight => some (.within, .after)
  | .bottomRightCorner => some (.after, .after)

/-- `In b lo from to hi v`: `v` is in the band of `lo … from … to … hi`. -/
def In (b : Band) (lo start stop hi v : Rat) : Prop :=
  match b with
  | .before => lo ≤ v ∧ v < start
  | .within => start ≤ v ∧ v < stop
  | .after => stop ≤ v ∧ v < hi

/-- A point is in a rectangle. -/
def Rect.Has (r : Rect) (x y : Rat) : Prop := r.x ≤ x ∧ x < r.x + r.width ∧ r.y ≤ y ∧ y < r.y + r.height

/-- A rectangle lies within another. -/
structure Inside (r s : Rect) : Prop where
  left : s.x ≤ r.x
  top : s.y ≤ r.y
  width : 0 ≤ r.width
  height : 0 ≤ r.height
  right : r.x + r.width ≤ s.x + s.width
  bottom : r.y + r.height ≤ s.y + s.height

/-- The rectangle that is given to a margin box. -/
inductive Given (l : List Item) (a : Area) (r : Rect) : Prop where
  | corner : .corner a r ∈ l → Given l a r
  | main {subs} : .strip a subs r ∈ l → Given l a r
  | sub {m subs} : .strip m subs r ∈ l → a ∈ subs → Given l a r

/-- How often a margin box is painted. -/
def times (a : Area) : List Item → Nat
  | [] => 0
  | .corner b _ :: l => (if a = b then 1 else 0) + times a l
  | .strip m subs _ :: l => (if a = m then 1 else 0) + subs.count a + times a l
  | _ :: l => times a l

/-! ## C203: headers and footers -/

/-- The medium of a printed document in an area. -/
def medium (o : Opts) (zoom width height : Rat) : Media := ⟨true, width, height, o.orientation, some zoom⟩

/-- The height that a header or footer is given on a page with this area: what was asked for, otherwise its height
when it is laid out in that area. -/
inductive Tall (tall : Doc → Media → Rat) (o : Opts) (zoom : Rat) (area : Rect) : Option Doc → Option Rat → Rat → Prop where
  | asked {doc h} : Tall tall o zoom area doc (some h) h
  | auto {d} : Tall tall o zoom area (some d) none (tall d (medium o zoom area.width area.height))
  | nothing : Tall tall o zoom area none none 0

/-! ## C205: the command line -/

/-- The level of the log. -/
inductive Logs (a : Args) : Level → Prop where
  | quiet : a.quiet = true → a.verbose = false → Logs a .fatal
  | verbose : a.verbose = true → a.quiet = false → Logs a .print
  | plain : a.verbose = false → a.quiet = false → Logs a .info

/-- What a name on the command line stands for: `-` is a stream. -/
inductive Names (e : Env) (stream : String) : String → String → Prop where
  | dash : Names e stream "-" stream
  | other {n} : n ≠ "-" → Names e stream n (e.url n)

/-- Names one by one. -/
inductive AllNames (e : Env) (stream : String) : List String → List String → Prop where
  | nil : AllNames e stream [] []
  | cons {n u ns us} : Names e stream n u → AllNames e stream ns us → AllNames e stream (n :: ns) (u :: us)

/-- The format of the output: as asked for, by the suffix of the output, or PDF. -/
inductive Formats (e : Env) (a : Args) (output : String) : String → Prop where
  | asked {f} : a.format = some f → Formats e a output f
  | suffix : a.format = none → e.suffix output ≠ "" → Formats e a output (e.fromSuffix (e.suffix output))
  | pdf : a.format = none → e.suffix output = "" → Formats e a output "public.pdf"

/-- Pages are made for PDF, or when asked for. -/
def Paged (flow : Flow) (format : String) : Prop :=
  flow = .paginate ∨ (flow = .auto ∧ format = "public.pdf")

end Verif.Sheet
