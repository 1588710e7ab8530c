/-!
# Painting: from the fragments of a page to the order in which things are drawn

Model of `src/vaev-engine/layout/paint.cpp` (lines 98–388 and 760–821) and of
`Box::impliesNewStackingContext` in `src/vaev-engine/layout/base/box.cpp` 127–133.

What is drawn is kept as a list of draws, first drawn first. The geometry of a draw, its colours,
and the shapes of clips are left out; which effects lie over a draw is kept.
-/

namespace Verif.Paint

/-- What a box of the tree holds of its own (`Box::content`, box.cpp; paint.cpp 310–328). -/
inductive Content where
  | none
  | prose
  | image
  deriving DecidableEq, Repr

/-- The fragment classes that painting tells apart (layout/base/fragment.cpp): `BoxFragment`,
`SvgRootFragment`, `SvgGroupFragment` and `SvgShapeFragment`. The `Bool` of `svgRoot` says that one
side of its border box is zero (paint.cpp 330); that of `shape` says that it has a fill or a stroke
to be drawn with (paint.cpp 227–231, whose resolution of colours is left out). -/
inductive Kind where
  | box
  | svgRoot (flat : Bool)
  | group
  | shape (inked : Bool)
  deriving DecidableEq, Repr

/-- What painting reads of the box a fragment comes from and of its style. `name` stands for the
identity of the box. `borders` and `outline` say that there is something of them to draw
(`buildBorders`, paint.cpp 42–75, and `buildOutline`, 77–96); borders that a table hands to its
cells (343–348, 381) are taken to be in `borders` already. `coloured` says that the background colour
is not fully transparent (104); it is the only background there is. `translucent` is `opacity != 1.0`,
`clip` and `transform` are `clip->has()` and `transform->has()` (box.cpp 130–132). -/
structure Look where
  name : Nat
  root : Bool := false
  zIndex : Option Int := none
  positioned : Bool := false
  inline : Bool := false
  floats : Bool := false
  clip : Bool := false
  transform : Bool := false
  translucent : Bool := false
  hidden : Bool := false
  coloured : Bool := false
  borders : Bool := false
  outline : Bool := false
  content : Content := .none
  deriving DecidableEq, Repr

/-- How a child is held by its parent (paint.cpp 350–359): as it is, flagged as out of the flow
(`Fragment::OOF`), or through a placeholder that has been given its fragment. A placeholder that was
given none is left out of the tree. -/
inductive Slot where
  | flow
  | oof
  | put
  deriving DecidableEq, Repr

mutual
/-- A fragment and its children (layout/base/fragment.cpp). -/
inductive Frag where
  | mk (kind : Kind) (look : Look) (kids : Kids)
/-- The children of a fragment, in tree order. -/
inductive Kids where
  | nil
  | cons (slot : Slot) (frag : Frag) (rest : Kids)
end

/-- The effects that can be put over what is painted (paint.cpp 808–813). -/
inductive Effect where
  | opacity
  | transform
  | clip
  deriving DecidableEq, Repr

/-- The kinds of things drawn: the canvas cleared to a colour (`Scene::Clear`, 123), the background
colour, borders and outline of a box (`Scene::Box`, 120, which draws them in this order), a line of
text or an image (310–328), an SVG shape (233–239). -/
inductive Mark where
  | canvas
  | fill
  | borders
  | outline
  | text
  | image
  | shape
  deriving DecidableEq, Repr

/-- One thing drawn: for which box, what, and under which effects of which boxes, outermost first. -/
structure Draw where
  name : Nat
  mark : Mark
  under : List (Nat × Effect) := []
  deriving DecidableEq, Repr

/-- A node added to a stack, with its `zIndex`. -/
structure Piece where
  z : Int
  draws : List Draw
  deriving DecidableEq, Repr

/-- `Limits<isize>::MIN` (paint.cpp 121) on a 64-bit machine. -/
def lowest : Int := -9223372036854775808

/-- The level a box has for its stack: `zIndex.unwrapOr<isize>(0)` (paint.cpp 773, 793, 798, 804). -/
def Look.level (b : Look) : Int := b.zIndex.getD 0

/-- `Box::impliesNewStackingContext` (box.cpp 128–133). -/
def Look.isolates (b : Look) : Bool :=
  b.zIndex.isSome || b.clip || b.transform || b.translucent

/-- The draws of `Scene::Box` (paint.cpp 101–127). The background colour is not handed over for the
root element (105); for it the whole canvas is cleared to it first (122–123). Clearing with a fully
transparent colour is taken to draw nothing. -/
def decoration (b : Look) : List Draw :=
  (if b.root && b.coloured then [⟨b.name, .canvas, []⟩] else []) ++
  (if !b.root && b.coloured then [⟨b.name, .fill, []⟩] else []) ++
  (if b.borders then [⟨b.name, .borders, []⟩] else []) ++
  (if b.outline then [⟨b.name, .outline, []⟩] else [])

/-- `_paintFragBordersAndBackgrounds` (paint.cpp 98–128): a node is added if there are backgrounds,
borders or an outline (115). -/
def decorate (b : Look) : List Piece :=
  if (b.coloured && !b.root) || b.borders || b.outline then
    [⟨if b.isolates then lowest else 0, decoration b⟩]
  else []

/-- The text or image of a box fragment (paint.cpp 310–328). -/
def fillIn (b : Look) : List Piece :=
  match b.content with
  | .none => []
  | .prose => [⟨0, [⟨b.name, .text, []⟩]⟩]
  | .image => [⟨0, [⟨b.name, .image, []⟩]⟩]

/-- `_paintFrag` (paint.cpp 301–340); `inside` stands for what `_paintSVGRoot` gives. -/
def own (k : Kind) (b : Look) (inside : List Draw) : List Piece :=
  if b.hidden then []
  else match k with
    | .box => decorate b ++ fillIn b
    | .svgRoot flat => if flat then [] else [⟨0, inside⟩]
    | _ => []

/-- Put a draw under further effects. -/
def Draw.beneath (e : List (Nat × Effect)) (d : Draw) : Draw := { d with under := e ++ d.under }

/-- The effects of a box, outermost first (paint.cpp 808–813). -/
def Look.effects (b : Look) : List (Nat × Effect) :=
  (if b.translucent then [(b.name, .opacity)] else []) ++
  (if b.transform then [(b.name, .transform)] else []) ++
  (if b.clip then [(b.name, .clip)] else [])

/-- `_applyTransformIfNeeded` (paint.cpp 140–148): the only effect put over SVG elements. -/
def Look.moved (b : Look) : List (Nat × Effect) :=
  if b.transform then [(b.name, .transform)] else []

/-- Put a piece before the first one that is not below it. -/
def place (p : Piece) : List Piece → List Piece
  | [] => [p]
  | q :: l => if p.z ≤ q.z then p :: q :: l else q :: place p l

/-- `Scene::Stack::prepare` (Karm): a stable sort of the nodes by `zIndex`. Karm is not in the
repository; that the sort is stable, and that `Clip`, `Transform`, `Opacity` and `Clear` nodes have
the `zIndex` of the node they hold, is assumed. -/
def arrange : List Piece → List Piece
  | [] => []
  | p :: l => place p (arrange l)

/-- What a stack draws. -/
def stack (l : List Piece) : List Draw := (arrange l).flatMap (·.draws)

/-- The six predicates of `_paintStackingContext` (paint.cpp 772–799), in their order. -/
def negative (b : Look) : Bool := decide (b.level < 0)
def blocks (b : Look) : Bool := b.zIndex.isNone && !b.inline && !b.positioned
def floating (b : Look) : Bool := b.zIndex.isNone && !b.positioned && b.floats
def inlines (b : Look) : Bool := b.zIndex.isNone && b.inline && !b.positioned
def zero (b : Look) : Bool := decide (b.level = 0) && b.positioned
def positive (b : Look) : Bool := decide (0 < b.level)

/-- `SvgRootFragment` or not. -/
def Kind.isSvgRoot : Kind → Bool
  | .svgRoot _ => true
  | _ => false

/-- The look of a fragment (`Fragment::style`). -/
def Frag.look : Frag → Look
  | .mk _ b _ => b

/-- The class of a fragment. -/
def Frag.kind : Frag → Kind
  | .mk k _ _ => k

/-- `_establishStackingContext` (paint.cpp 802–816), given what `_paintStackingContext` puts on the
inner stack. -/
def establish (b : Look) (inner : List Piece) : Piece :=
  ⟨b.level, (stack inner).map (Draw.beneath b.effects)⟩

mutual
/-- `_paintStackingContext` (paint.cpp 764–800). -/
def context : Frag → List Piece
  | .mk k b kids =>
    own k b (svgKids kids) ++
      if k.isSvgRoot then []
      else pass negative kids ++ pass blocks kids ++ pass floating kids ++ pass inlines kids ++
        pass zero kids ++ pass positive kids
/-- `_paintChildren` (paint.cpp 342–388) with the predicate `p`. -/
def pass (p : Look → Bool) : Kids → List Piece
  | .nil => []
  | .cons slot f rest =>
    (if slot = .oof then []
     else if f.look.isolates then
       (if p f.look then [establish f.look (context f)] else [])
     else if f.look.positioned then
       (if p f.look then context f else [])
     else flow p (slot = .put) f) ++ pass p rest
/-- The rest of the loop body (paint.cpp 377–386), for a child that neither stacks nor is positioned.
`held` says that the child is a placeholder, and so no SVG root, whatever it holds (385). -/
def flow (p : Look → Bool) (held : Bool) : Frag → List Piece
  | .mk k b kids =>
    (if p b then own k b (svgKids kids) else []) ++
      if !held && k.isSvgRoot then [] else pass p kids
/-- `_paintSVGAggregate` (paint.cpp 274–282), and the case of `_paintSVGElement` for a foreign object
(262–270), which stacks it on a stack of its own. So the nodes added are all at level 0 and stay in
tree order. -/
def svgKids : Kids → List Draw
  | .nil => []
  | .cons _ f rest =>
    (if f.kind = .box then (establish f.look (context f)).draws
     else svgElement f) ++ svgKids rest
/-- `_paintSVGElement` (paint.cpp 243–261). -/
def svgElement : Frag → List Draw
  | .mk k b kids =>
    match k with
    | .shape inked => if inked then [⟨b.name, .shape, b.moved⟩] else []
    | _ => (svgKids kids).map (Draw.beneath b.moved)
end

/-- `paint` (paint.cpp 818–821), on an empty stack. -/
def paint (f : Frag) : List Draw := stack [establish f.look (context f)]

end Verif.Paint
