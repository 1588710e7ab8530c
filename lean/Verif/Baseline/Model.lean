/-!
# Boxes in lines: their baselines and the room they take: model

`layout/inline.cpp` 17–100, `layout/base/output.cpp` 18–39 and the baselines of the formatting contexts: `layout/block.cpp`
276–431, `layout/replaced.cpp` 43–66, `layout/base/layout-impl.cpp` 356–361.  Paths are relative to `src/vaev-engine`.

Of the four baselines of a `BaselinePositionsSet` only the alphabetic one is used (inline.cpp 99–100).  Heights are given:
a box comes with the places of its lines and of its children, as layout finds them (C15 and others).  Lengths are
rational numbers.
-/
namespace Verif.Baseline

mutual
/-- What a box contains.  Of a paragraph: the number that `metrics.alphabeticBaseline()` gives for its font, and the
baselines of its lines, from the top of its content (`Prose::_lines`, at least one). -/
inductive Content where
  | para (alpha : Rat) (line : Rat) (lines : List Rat)
  | image
  /-- flex containers, grids and tables -/
  | other
  | block (kids : List Box)
/-- A box: the top of its border box in the content of its parent; its border and padding at the top; the height of its
border box; its margin at the bottom; whether it is passed over in the loop of its parent (absolutely positioned or
running); whether it scrolls. -/
inductive Box where
  | mk (top edge height marginBottom : Rat) (skip scrolls : Bool) (content : Content)
end

def Box.top : Box → Rat | .mk t .. => t
def Box.edge : Box → Rat | .mk _ e .. => e
def Box.height : Box → Rat | .mk _ _ h .. => h
def Box.marginBottom : Box → Rat | .mk _ _ _ m .. => m
def Box.skip : Box → Bool | .mk _ _ _ _ s .. => s
def Box.scrolls : Box → Bool | .mk _ _ _ _ _ s _ => s
def Box.content : Box → Content | .mk _ _ _ _ _ _ c => c

/-- `firstBaselineSet` and `lastBaselineSet`. -/
structure Lines where
  first : Rat
  last : Rat
deriving DecidableEq

mutual
/-- The baselines in the output of the formatting context: `_computeBaselinePositions` (inline.cpp 28–35, where the place of
the line is not added to the alphabetic one) for first and last line; the height for images (replaced.cpp 64–65);
nothing, that is zero, for flex containers, grids and tables (output.cpp 72–73); for blocks the loop below.  `height` is
the height of the content. -/
def output (height : Rat) : Content → Lines
  | .para a _ _ => ⟨a, a⟩
  | .image => ⟨height, height⟩
  | .other => ⟨0, 0⟩
  | .block ks => loop true ⟨0, 0⟩ ks
/-- The loop of block.cpp 276–417: children that are passed over leave the baselines alone; the first child in the list
gives the first baseline, every one the last.  They are moved by the place of the child (406–408).
`layoutBorderBox` (layout-impl.cpp 356–361) does not move them. -/
def loop (atStart : Bool) (l : Lines) : List Box → Lines
  | [] => l
  | .mk t _ h _ skip _ c :: ks =>
    if skip then loop false l ks
    else
      let o := output h c
      loop false ⟨if atStart then o.first + t else l.first, o.last + t⟩ ks
end

/-- `baseline-source`, values/baseline.cpp. -/
inductive Source where
  | auto | first | last
deriving DecidableEq

/-- `getUsedBaselineFromBox`, inline.cpp 17–26.  `inlineBlock`: the box is `inline flow-root`. -/
def used (src : Source) (inlineBlock : Bool) (l : Lines) : Rat :=
  match src with
  | .first => l.first
  | .last => l.last
  | .auto => if inlineBlock then l.last else l.first

/-- The baseline of the place held free for a box in a line, measured from its top, inline.cpp 96–100.  (The height of an
image is that of its content.) -/
def baseline (src : Source) (inlineBlock : Bool) (contentHeight : Rat) (b : Box) : Rat :=
  used src inlineBlock (output contentHeight b.content)

/-! ## Widths -/

/-- A box in a line, horizontally: its width as a content box if it has one (`computeSpecifiedBorderBoxWidth`), borders and
paddings, margins, and the narrowest and widest its content can be. -/
structure Atom where
  width : Option Rat
  edges : Rat
  margins : Rat
  minC : Rat
  maxC : Rat

/-- The width of content laid out in a space: as wide as the space, but not more than it wants nor less than it needs.
(Paragraphs in `Prose::layout`.) -/
def filled (minC maxC space : Rat) : Rat := if space < minC then minC else if maxC < space then maxC else space

/-- The width of the place held free for a box in a line whose width is `space`, inline.cpp 70–98: the border box. -/
def strut (space : Rat) (a : Atom) : Rat :=
  match a.width with
  | some w => w + a.edges
  | none => filled a.minC a.maxC space + a.edges

end Verif.Baseline
