import Verif.Paint.Model

/-!
# What should be painted, and in which order

Written without the passes and stacks of the model: what is due for a tree is the list of what each
of its boxes shows, in tree order. The order is said with `paint` itself, of smaller trees.
-/

namespace Verif.Paint

/-- What a box shows of its own: its background colour (that of the root element is the colour of
the canvas), its borders, its outline, and its text or image; nothing if it is hidden. -/
def shows (b : Look) : List Draw :=
  if b.hidden then []
  else
    (if b.coloured then [⟨b.name, if b.root then .canvas else .fill, []⟩] else []) ++
    (if b.borders then [⟨b.name, .borders, []⟩] else []) ++
    (if b.outline then [⟨b.name, .outline, []⟩] else []) ++
    (match b.content with
      | .none => []
      | .prose => [⟨b.name, .text, []⟩]
      | .image => [⟨b.name, .image, []⟩])

/-- The effects a box asks for, outermost first. -/
def asks (b : Look) : List (Nat × Effect) :=
  (if b.translucent then [(b.name, .opacity)] else []) ++
  (if b.transform then [(b.name, .transform)] else []) ++
  (if b.clip then [(b.name, .clip)] else [])

/-- The same draws, under further effects. -/
def underAll (e : List (Nat × Effect)) (l : List Draw) : List Draw :=
  l.map fun d => ⟨d.name, d.mark, e ++ d.under⟩

mutual
/-- All that a tree has to show, in tree order, each thing under the effects of exactly the boxes it
is in. An SVG image without area shows nothing, and neither does a hidden shape. Children flagged
as out of the flow are those that a placeholder stands for elsewhere. -/
def due : Frag → List Draw
  | .mk k b kids => underAll (asks b) <|
    match k with
    | .box => shows b ++ dueKids kids
    | .svgRoot flat => if flat then [] else dueKids kids
    | .group => dueKids kids
    | .shape inked => if inked && !b.hidden then [⟨b.name, .shape, []⟩] else []
def dueKids : Kids → List Draw
  | .nil => []
  | .cons slot f rest => (if slot = .oof then [] else due f) ++ dueKids rest
end

/-- A box that the passes take exactly once: if it is not positioned, it has no `z-index` (which has
no meaning for it) and does not float. -/
def settled (b : Look) : Bool := b.positioned || (b.zIndex.isNone && !b.floats)

/-- The colour of the root element is only painted if it also has a border or an outline. -/
def grounded (b : Look) : Bool := !b.root || !b.coloured || b.borders || b.outline

mutual
/-- Trees that are painted in full: every box inside is `settled`, the root element is `grounded`, a
placeholder holds a positioned box; SVG images are not hidden, and inside of them nothing is hidden,
translucent or clipped. -/
def fair : Frag → Bool
  | .mk k b kids =>
    match k with
    | .box => grounded b && fairKids kids
    | .svgRoot _ => !b.hidden && fairSvg kids
    | _ => false
def fairKids : Kids → Bool
  | .nil => true
  | .cons slot f rest =>
    (slot = .oof || (settled f.look && (slot = .flow || f.look.positioned) && fair f)) && fairKids rest
def fairSvg : Kids → Bool
  | .nil => true
  | .cons slot f rest => slot = .flow && fairElement f && fairSvg rest
def fairElement : Frag → Bool
  | .mk k b kids =>
    match k with
    | .box => grounded b && fairKids kids
    | .svgRoot flat => !flat && !b.translucent && !b.clip && fairSvg kids
    | .group => !b.translucent && !b.clip && fairSvg kids
    | .shape _ => !b.hidden && !b.translucent && !b.clip
end

mutual
/-- No foreign objects in an SVG image. -/
def bare : Kids → Bool
  | .nil => true
  | .cons _ f rest => bareIn f && bare rest
def bareIn : Frag → Bool
  | .mk k _ kids => k ≠ .box && bare kids
end

/-- What a fragment itself shows, by its class. -/
def showsOf : Frag → List Draw
  | .mk .box b _ => shows b
  | .mk (.shape true) b _ => if b.hidden then [] else [⟨b.name, .shape, []⟩]
  | .mk .. => []

mutual
/-- `Inside f es g`: the fragment `g` is `f` or somewhere in it, and `es` are the effects of the boxes
on the way from `f` to `g`, both of them among these. Nothing is inside of an SVG image without area. -/
inductive Inside : Frag → List (Nat × Effect) → Frag → Prop
  | here (f : Frag) : Inside f (asks f.look) f
  | deeper {k b kids es g} (hk : k ≠ .svgRoot true) (hs : ∀ i, k ≠ .shape i)
      (h : InsideKids kids es g) : Inside (.mk k b kids) (asks b ++ es) g
inductive InsideKids : Kids → List (Nat × Effect) → Frag → Prop
  | first {slot f rest es g} (ho : slot ≠ .oof) (h : Inside f es g) :
      InsideKids (.cons slot f rest) es g
  | later {slot f rest es g} (h : InsideKids rest es g) : InsideKids (.cons slot f rest) es g
end

/-- The children of a fragment. -/
def Frag.kids : Frag → Kids
  | .mk _ _ kids => kids

/-- A box whose contents are painted as one: one that is positioned and has a `z-index`, or one with
an effect. -/
def whole (b : Look) : Bool :=
  (b.positioned && b.zIndex.isSome) || b.translucent || b.transform || b.clip

/-- The layer a whole box is in. -/
def rank (b : Look) : Int := b.zIndex.getD 0

/-- What a fragment shows without its children; an SVG image is one thing. -/
def alone : Frag → List Draw
  | .mk k b kids => if k.isSvgRoot then paint (.mk k b kids) else shows b

mutual
/-- What the boxes that are not positioned show, in tree order: the inline-level ones
(`inline = true`), or the others. A whole box comes as one. -/
def layer (inline : Bool) : Kids → List Draw
  | .nil => []
  | .cons slot f rest =>
    (if slot = .oof || f.look.positioned then []
     else if whole f.look then (if f.look.inline = inline then paint f else [])
     else layerIn inline f) ++ layer inline rest
def layerIn (inline : Bool) : Frag → List Draw
  | .mk k b kids =>
    (if b.inline = inline then alone (.mk k b kids) else []) ++
      if k.isSvgRoot then [] else layer inline kids
end

mutual
/-- What the positioned boxes at level 0 show, in tree order: a whole one as one, another by itself,
then its blocks, its inlines and the positioned boxes in it. -/
def middle : Kids → List Draw
  | .nil => []
  | .cons slot f rest =>
    (if slot = .oof then []
     else if whole f.look then
       (if f.look.positioned && rank f.look = 0 then paint f else [])
     else middleIn f) ++ middle rest
def middleIn : Frag → List Draw
  | .mk k b kids =>
    if b.positioned then
      alone (.mk k b kids) ++
        if k.isSvgRoot then [] else layer false kids ++ layer true kids ++ middle kids
    else if k.isSvgRoot then [] else middle kids
end

mutual
/-- The whole boxes above or below level 0, in tree order, but for those inside of other whole
boxes. -/
def stacked : Kids → List Frag
  | .nil => []
  | .cons slot f rest =>
    (if slot = .oof then []
     else if whole f.look then (if rank f.look ≠ 0 then [f] else [])
     else stackedIn f) ++ stacked rest
def stackedIn : Frag → List Frag
  | .mk k _ kids => if k.isSvgRoot then [] else stacked kids
end

mutual
/-- No box that is positioned but not whole has a whole box above or below level 0 inside. -/
def shallow : Kids → Bool
  | .nil => true
  | .cons slot f rest =>
    (slot = .oof || whole f.look || shallowIn f) && shallow rest
def shallowIn : Frag → Bool
  | .mk k b kids =>
    k.isSvgRoot || (if b.positioned then (stacked kids).isEmpty else shallow kids)
end

/-- In order of their levels, lowest first. -/
def Rising (l : List Frag) : Prop := l.Pairwise fun f g => rank f.look ≤ rank g.look

/-- What a box shows of its own, apart in background, borders and outline, and its text or image. -/
def backdrop (b : Look) : List Draw := shows { b with content := .none }
def foreground (b : Look) : List Draw :=
  shows { b with coloured := false, borders := false, outline := false }

end Verif.Paint
