/-!
# Model of boxes out of the flow: where they are laid out, and whether they are painted

Source: `layout/base/layout-impl.cpp`, `layout/base/fragment.cpp`, `layout/base/layout.cpp`, `layout/positioned.cpp`,
`layout/paint.cpp` and the parts of the formatting contexts (`layout/block.cpp`, `layout/inline.cpp`, `layout/flex.cpp`,
`layout/table.cpp`, `layout/svg.cpp`) that hand on boxes out of the flow.  All paths are relative to
`/repo/src/vaev-engine`.

Kept is which boxes are laid out, by whom, and what fragments there are.  Sizes and positions are not computed: the border
box that layout gives to a box is a field of the box (`Look.area`).  A document is laid out in one piece, with
`generateFragment` set: pages and trial layouts are left out, and so are running elements.  A placeholder is an object
that the fragment tree and the list of pending boxes share; here it is known by the box it stands for, and giving it its
fragment (`fill`) rewrites the tree.  Loops have fuel; `none` is a loop that did not end within it.
-/
namespace Verif.Oof

/-- `RectAu` (Karm): a corner and a size.  `Au` is taken to be exact. -/
structure Rect where
  x : Rat
  y : Rat
  width : Rat
  height : Rat
  deriving DecidableEq, Repr

/-- `RectAu{}` -/
def Rect.zero : Rect := ⟨0, 0, 0, 0⟩

/-- `InsetsAu` (Karm). -/
structure Insets where
  top : Rat
  right : Rat
  bottom : Rat
  left : Rat
  deriving DecidableEq, Repr

/-- `Rect::grow` by insets (Karm). -/
def Rect.grow (r : Rect) (i : Insets) : Rect :=
  ⟨r.x - i.left, r.y - i.top, r.width + (i.left + i.right), r.height + (i.top + i.bottom)⟩

/-- `Rect::shrink` by insets (Karm). -/
def Rect.shrink (r : Rect) (i : Insets) : Rect :=
  ⟨r.x + i.left, r.y + i.top, r.width - (i.left + i.right), r.height - (i.top + i.bottom)⟩

/-- `Rect::mergeWith` (Karm): the smallest rectangle around both. -/
def merge (a b : Rect) : Rect :=
  let x0 := if a.x ≤ b.x then a.x else b.x
  let y0 := if a.y ≤ b.y then a.y else b.y
  let x1 := if a.x + a.width ≤ b.x + b.width then b.x + b.width else a.x + a.width
  let y1 := if a.y + a.height ≤ b.y + b.height then b.y + b.height else a.y + a.height
  ⟨x0, y0, x1 - x0, y1 - y0⟩

/-- `Position`, `values/insets.cpp:19-62`, without running positions. -/
inductive Pos where
  | static
  | relative
  | sticky
  | absolute
  | fixed
  deriving DecidableEq, Repr

/-- What `layout/positioned.cpp` reads of a box: which one it is, its `position`, and whether its `transform` is not
`none`. -/
structure Tag where
  id : Nat
  pos : Pos := .static
  moved : Bool := false
  deriving DecidableEq, Repr

/-- The formatting contexts that `_constructFormatingContext` tells apart, `layout/base/layout-impl.cpp:24-52`.  Grids are
laid out as blocks (`layout/grid.cpp:10-12`); a replaced box is a block without children. -/
inductive Ctx where
  | block
  | inline
  | flex
  | table
  | drawing
  deriving DecidableEq, Repr

/-- A box: what layout reads of its style, and the border box it is given.  `wraps` are the inline boxes around an atomic
box in a text, the nearest first; they have no boxes of their own (`layout/builder.cpp`). -/
structure Look where
  tag : Tag
  ctx : Ctx := .block
  floats : Bool := false
  wraps : List Tag := []
  area : Rect := Rect.zero
  deriving DecidableEq, Repr

/-- The tree of boxes, `layout/base/box.cpp`.  The children of a table are its cells: rows and groups are passed over
(`layout/table.cpp:1440-1570`). -/
inductive Box where
  | mk (look : Look) (kids : List Box)

def Box.look : Box → Look
  | .mk k _ => k

def Box.kids : Box → List Box
  | .mk _ cs => cs

/-- Which box it is. -/
def Box.id (b : Box) : Nat := b.look.tag.id

/-- `oneOf(c.style->position, Keywords::ABSOLUTE, Keywords::FIXED)`, `layout/block.cpp:289`, `layout/inline.cpp:118`,
`layout/flex.cpp:1516`. -/
def Tag.oof (t : Tag) : Bool := t.pos == .absolute || t.pos == .fixed

def Box.oof (b : Box) : Bool := b.look.tag.oof

/-- `Box::isRemovedFromFlow`, `layout/base/box.cpp:115-120`. -/
def Box.removed (b : Box) : Bool := b.look.floats || b.oof

/-- `_isAbsoluteAndFixedPositioningContainingBlock`, `layout/positioned.cpp:132-143`. -/
def holdsAll (t : Tag) : Bool := t.moved

/-- `isAbsolutePositioningContainingBlock`, `layout/positioned.cpp:146-162`. -/
def holdsAbsolute (t : Tag) : Bool :=
  if t.pos != .static then true
  else if holdsAll t then true
  else false

/-- `isFixedPositioningContainingBlock`, `layout/positioned.cpp:165-170`. -/
def holdsFixed (t : Tag) : Bool := holdsAll t

/-- Whether a box lays out a pending one, `layout/base/layout-impl.cpp:278-281`; `none` is the root of the layout, which
lays out all that is left (360-364). -/
def handles : Option Tag → Tag → Bool
  | none, _ => true
  | some t, c => (c.pos == .absolute && holdsAbsolute t) || (c.pos == .fixed && holdsFixed t)

/-- Fragments, `layout/base/fragment.cpp`: of boxes, with the flag `OOF` (15-17), and placeholders (137-185) with or
without the fragment they stand for. -/
inductive Frag where
  | box (look : Look) (oof : Bool) (kids : List Frag)
  | hole (id : Nat)
  | filled (id : Nat) (frag : Frag)

/-- `childFragment->flags().set(Fragment::OOF)`, `layout/base/layout-impl.cpp:292`. -/
def Frag.flag : Frag → Frag
  | .box l _ ks => .box l true ks
  | f => f

/-- `c->flags().has(Fragment::OOF)` -/
def Frag.isOof : Frag → Bool
  | .box _ o _ => o
  | _ => false

mutual
/-- `oofChild->fragment = childFragment`, `layout/base/layout-impl.cpp:294`: the placeholder of a box is given its
fragment, wherever it is.  One that has a fragment is not given another: a placeholder is pending only once. -/
def fill (i : Nat) (g : Frag) : Frag → Frag
  | .box l o ks => .box l o (fillAll i g ks)
  | .hole j => if j = i then .filled j g else .hole j
  | .filled j h => .filled j (fill i g h)
def fillAll (i : Nat) (g : Frag) : List Frag → List Frag
  | [] => []
  | f :: fs => fill i g f :: fillAll i g fs
end

/-- A box that was laid out as out of the flow, and the box that it was laid out in; `none` is the initial containing
block. -/
abbrev Placing := Nat × Option Nat

/-- `Output`, `layout/base/output.cpp:51-84`, with the boxes out of the flow that were laid out. -/
structure Out where
  frag : Frag
  stash : List Box
  placed : List Placing

/-- What a formatting context has gathered: the children of its fragment, the boxes it hands on, and those laid out. -/
structure Run where
  frags : List Frag
  stash : List Box
  placed : List Placing

/-- One after the other. -/
def Run.append (a b : Run) : Run := ⟨a.frags ++ b.frags, a.stash ++ b.stash, a.placed ++ b.placed⟩

/-- `BlockFormatingContext::run`, `layout/block.cpp:283-384`, and `InlineFormatingContext::run`,
`layout/inline.cpp:110-184`: a placeholder for a box out of the flow, the fragment of any other. -/
def runFlow (lay : Box → Option Out) : List Box → Option Run
  | [] => some ⟨[], [], []⟩
  | c :: cs =>
    if c.oof then
      match runFlow lay cs with
      | none => none
      | some r => some (Run.append ⟨[.hole c.id], [c], []⟩ r)
    else
      match lay c with
      | none => none
      | some o =>
        match runFlow lay cs with
        | none => none
        | some r => some (Run.append ⟨[o.frag], o.stash, o.placed⟩ r)

/-- Boxes laid out one after the other: the loop of `_commit`, `layout/flex.cpp:1480-1509`, and those over cells
(`layout/table.cpp:1553-1566`) and over foreign objects (`layout/svg.cpp:182-194`). -/
def runAll (lay : Box → Option Out) : List Box → Option Run
  | [] => some ⟨[], [], []⟩
  | c :: cs =>
    match lay c with
    | none => none
    | some o =>
      match runAll lay cs with
      | none => none
      | some r => some (Run.append ⟨[o.frag], o.stash, o.placed⟩ r)

/-- `FlexFormatingContext::run`, `layout/flex.cpp:1532-1609`.  Items are those in the flow (666-679).  Without one, there
are placeholders, but no stash (683-700).  Otherwise the fragment is built (1599) before the placeholders are made (1600),
so they are in the stash alone.  The order of lines is left out. -/
def runFlex (lay : Box → Option Out) (cs : List Box) : Option Run :=
  if (cs.filter fun c => !c.removed).isEmpty then
    some ⟨(cs.filter Box.oof).map fun c => .hole c.id, [], []⟩
  else
    match runAll lay (cs.filter fun c => !c.removed) with
    | none => none
    | some r => some ⟨r.frags, r.stash ++ cs.filter Box.oof, r.placed⟩

/-- Tables and drawings, `layout/table.cpp:1500-1566`, `layout/svg.cpp:190-193`: of the output of a cell or of a foreign
object, the stash is not read. -/
def runDrop (lay : Box → Option Out) (cs : List Box) : Option Run :=
  match runAll lay cs with
  | none => none
  | some r => some ⟨r.frags, [], r.placed⟩

/-- `_dispatchFormatingContext`, `layout/base/layout-impl.cpp:54-63`. -/
def run (lay : Box → Option Out) (k : Look) (cs : List Box) : Option Run :=
  match k.ctx with
  | .block => runFlow lay cs
  | .inline => runFlow lay cs
  | .flex => runFlex lay cs
  | .table => runDrop lay cs
  | .drawing => runDrop lay cs

/-- The loop over the pending boxes, `layout/base/layout-impl.cpp:275-301` and 360-374: `frags` are the children of the
fragment so far.  A box that is laid out hands its own stash to the end of the list. -/
def drain (lay : Box → Option Out) : Nat → Option Tag → List Frag → List Box → Option Run
  | 0, _, _, _ => none
  | _ + 1, _, frags, [] => some ⟨frags, [], []⟩
  | n + 1, k, frags, c :: rest =>
    if handles k c.look.tag then
      match lay c with
      | none => none
      | some o =>
        match drain lay n k (fillAll c.id o.frag.flag frags ++ [o.frag.flag]) (rest ++ o.stash) with
        | none => none
        | some d => some ⟨d.frags, d.stash, (c.id, k.map Tag.id) :: (o.placed ++ d.placed)⟩
    else
      match drain lay n k frags rest with
      | none => none
      | some d => some ⟨d.frags, c :: d.stash, d.placed⟩

/-- `layoutContentBox`, `layout/base/layout-impl.cpp:262-306`, and `layoutBorderBox`, 327-332. -/
def lay : Nat → Box → Option Out
  | 0, _ => none
  | n + 1, .mk k cs =>
    match run (lay n) k cs with
    | none => none
    | some r =>
      match drain (lay n) n (some k.tag) r.frags r.stash with
      | none => none
      | some d => some ⟨.box k false d.frags, d.stash, r.placed ++ d.placed⟩

/-- The children of a fragment. -/
def Frag.kids : Frag → List Frag
  | .box _ _ ks => ks
  | _ => []

/-- `layoutRoot`, `layout/base/layout-impl.cpp:334-377`. -/
def layRoot (n : Nat) (b : Box) : Option Out :=
  match lay n b with
  | none => none
  | some o =>
    match drain (lay n) n none o.frag.kids o.stash with
    | none => none
    | some d => some ⟨.box b.look false d.frags, d.stash, o.placed ++ d.placed⟩

/-! ## Painting and overflow -/

mutual
/-- The fragments that `_paintChildren` comes to, `layout/paint.cpp:342-388`: a placeholder is replaced by its fragment,
if it has one (355-359).  Stacking contexts, which decide when a fragment is painted and not whether, are in
`Verif.Paint`. -/
def painted : Frag → List Nat
  | .box l _ ks => l.tag.id :: paintedAll ks
  | .hole _ => []
  | .filled _ f => painted f
/-- The loop over the children: flagged ones are skipped (351-352). -/
def paintedAll : List Frag → List Nat
  | [] => []
  | f :: fs => (if f.isOof then [] else painted f) ++ paintedAll fs
end

mutual
/-- `Fragment::scrollableOverflow`, `layout/base/fragment.cpp:55-60`; the border box of a placeholder is empty and at the
origin (146-148), and it has no children. -/
def overflow : Frag → Rect
  | .box l _ ks => overflowAll l.area ks
  | .hole _ => Rect.zero
  | .filled _ _ => Rect.zero
def overflowAll (r : Rect) : List Frag → Rect
  | [] => r
  | f :: fs => overflowAll (merge r (overflow f)) fs
end

/-! ## The containing block -/

/-- `BoxMetrics`, `layout/base/fragment.cpp:337-364`, and its border and padding boxes. -/
structure Metrics where
  padding : Insets
  borders : Insets
  x : Rat
  y : Rat
  width : Rat
  height : Rat

def Metrics.borderBox (m : Metrics) : Rect := ⟨m.x, m.y, m.width, m.height⟩
def Metrics.paddingBox (m : Metrics) : Rect := m.borderBox.shrink m.borders
def Metrics.contentBox (m : Metrics) : Rect := m.paddingBox.shrink m.padding

/-- `Input` as `layoutBorderBox` gets it: the corner of the border box and the spacings. -/
structure Input where
  x : Rat
  y : Rat
  padding : Insets
  borders : Insets

/-- `_adaptToContentBox`, `layout/base/layout-impl.cpp:308-325`: the corner of the content box. -/
def Input.content (i : Input) : Rat × Rat := (i.x + i.borders.left + i.padding.left, i.y + i.borders.top + i.padding.top)

/-- `computeBoxMetrics`, `layout/base/layout-impl.cpp:221-232`, of a content box at `p` of the given size. -/
def metrics (i : Input) (p : Rat × Rat) (width height : Rat) : Metrics :=
  { padding := i.padding, borders := i.borders
    x := p.1 - i.borders.left - i.padding.left
    y := p.2 - i.borders.top - i.padding.top
    width := width + (i.borders.left + i.borders.right) + (i.padding.left + i.padding.right)
    height := height + (i.borders.top + i.borders.bottom) + (i.padding.top + i.padding.bottom) }

/-- The containing block that a box lays others out in, `layout/base/layout-impl.cpp:283-286`. -/
def containing (i : Input) (width height : Rat) : Rect :=
  (Rect.mk i.content.1 i.content.2 width height).grow i.padding

/-- The containing block that the root lays the rest out in, `layout/base/layout-impl.cpp:364`: the size
`input.containingBlock`, made into a rectangle at the origin, whatever `input.position` is. -/
def initial (_position : Rat × Rat) (width height : Rat) : Rect := ⟨0, 0, width, height⟩

end Verif.Oof
