import Verif.Svg.Model
import Verif.Transform.Spec

/-!
# Drawings: specification

How the contents of a drawing are fitted into its frame, where they are painted, and what bounds
them, after SVG 2.
-/

namespace Verif.Svg.Spec
open Verif.Values Verif.Transform Verif.Transform.Spec

/-! ## Frames -/

/-- A map of points fits a view box into a frame: the middle goes to the middle, all is drawn larger
by the same factor `k`, and `k` is the largest at which the view box is not wider or higher than the
frame. -/
def Fitted (vb : ViewBox) (frame : Rect) (f : Pt → Pt) : Prop :=
  ∃ k : Rat,
    (∀ p, f p = (frame.x + frame.width / 2 + k * (p.1 - (vb.minX + vb.width / 2)),
                 frame.y + frame.height / 2 + k * (p.2 - (vb.minY + vb.height / 2)))) ∧
    k * vb.width ≤ frame.width ∧ k * vb.height ≤ frame.height ∧
    (k * vb.width = frame.width ∨ k * vb.height = frame.height)

/-- A point of a rectangle. -/
def Holds (r : Rect) (p : Pt) : Prop :=
  r.x ≤ p.1 ∧ p.1 ≤ r.x + r.width ∧ r.y ≤ p.2 ∧ p.2 ≤ r.y + r.height

/-- The rectangle of a view box. -/
def area (vb : ViewBox) : Rect := ⟨vb.minX, vb.minY, vb.width, vb.height⟩

/-- `f` is `g` or somewhere in it. -/
inductive Inside (f : Frag) : Frag → Prop
  | here : Inside f f
  | group : c ∈ cs → Inside f c → Inside f (.group s cs)
  | root : c ∈ cs → Inside f c → Inside f (.root s m b cs)

/-- `f` is `g` or in it, and no drawing lies between. -/
inductive Within (f : Frag) : Frag → Prop
  | here : Within f f
  | group : c ∈ cs → Within f c → Within f (.group s cs)

/-- `e` is `g` or somewhere in it. -/
inductive Part (e : El) : El → Prop
  | here : Part e e
  | group : c ∈ cs → Part e c → Part e (.group s cs)
  | root : c ∈ cs → Part e c → Part e (.root s cs)

/-- `e` is `g` or in it, and no drawing lies between. -/
inductive Near (e : El) : El → Prop
  | here : Near e e
  | group : c ∈ cs → Near e c → Near e (.group s cs)

/-- The style of an element. -/
def styleOf : El → Style
  | .rect s => s
  | .circle s => s
  | .path s _ => s
  | .group s _ => s
  | .root s _ => s
  | .foreign s => s

/-- The style of what is laid out. -/
def fragStyle : Frag → Style
  | .rect s .. => s
  | .circle s .. => s
  | .path s .. => s
  | .group s _ => s
  | .root s .. => s
  | .foreign s _ => s

/-- An element that has no `transform`, or one whose `transform-box` is not `view-box`. -/
def Settled (s : Style) : Prop := s.transform = none ∨ s.box ≠ .view

/-! ## Places -/

/-- The same shapes, each moved by `d`. -/
inductive Moved (d : Pt) : List (Frag × Mat) → List (Frag × Mat) → Prop
  | nil : Moved d [] []
  | cons : (∀ p, m'.apply p = ((m.apply p).1 + d.1, (m.apply p).2 + d.2)) → Moved d l l' →
      Moved d ((f, m) :: l) ((f, m') :: l')

/-- A drawing, laid out and painted. -/
def drawn (o : Order) (t : Trig) (diag : Pt → Rat) (s : Style) (cs : List El)
    (known : Option Rat × Option Rat) (containing pos : Pt) : Option (List (Frag × Mat)) :=
  match run o diag s cs known containing pos with
  | .ok f => paintRoot t f
  | .error _ => none

/-! ## Bounds -/

/-- `r` lies in `b`. -/
def Covers (b r : Rect) : Prop :=
  b.x ≤ r.x ∧ r.x + r.width ≤ b.x + b.width ∧ b.y ≤ r.y ∧ r.y + r.height ≤ b.y + b.height

/-- The outline of a shape, by the rectangle around it. -/
inductive Outline : Frag → Rect → Prop
  | rect : Outline (.rect s r w) r
  | circle : Outline (.circle s cx cy r w) ⟨cx - r, cy - r, r + r, r + r⟩
  | path : Outline (.path s b w) b
  | root : Outline (.root s m b cs) b
  | foreign : Outline (.foreign s b) b

/-- The rectangle around the outline and the stroke, which reaches half its width to each side. -/
inductive Inked : Frag → Rect → Prop
  | rect : Inked (.rect s r w) ⟨r.x - w / 2, r.y - w / 2, r.width + w, r.height + w⟩
  | circle : Inked (.circle s cx cy r w) ⟨cx - r - w / 2, cy - r - w / 2, r + r + w, r + r + w⟩
  | path : Inked (.path s b w) ⟨b.x - w / 2, b.y - w / 2, b.width + w, b.height + w⟩
  | root : Inked (.root s m b cs) b
  | foreign : Inked (.foreign s b) b

/-- `b` is the smallest rectangle that covers all. -/
def Least (b : Rect) (P : Rect → Prop) : Prop :=
  (∀ r, P r → Covers b r) ∧ ∀ b', (∀ r, P r → Covers b' r) → Covers b' b

/-- Every group holds something. -/
def NoEmpty (f : Frag) : Prop := ∀ s cs, Within (.group s cs) f → cs ≠ []

/-! ## Sizes -/

/-- A size that is a length of so many pixels. -/
inductive Fixed : Size → Rat → Prop
  | mk : Fixed (.calc (.one (.val (.length (.abs v u))))) (pixels v u)

/-- A size that depends on what is around. -/
inductive Open : Size → Prop
  | auto : Open .auto
  | percent : Open (.calc (.one (.val (.percent p))))
  | two : Open (.calc (.two op l r))
  | minContent : Open .minContent
  | maxContent : Open .maxContent
  | fit : Open (.fit v)

/-- A frame is as wide or high as is known, and if nothing is known as wide as the space there is. -/
def Agrees (known : Option Rat × Option Rat) (containing : Pt) (frame : Rect) : Prop :=
  (∀ w, known.1 = some w → frame.width = w) ∧ (∀ h, known.2 = some h → frame.height = h) ∧
    (known.1 = none → known.2 = none → frame.width = containing.1)

/-- The sizes of which a drawing can make something. -/
inductive Usable : Size → Prop
  | auto : Usable .auto
  | value : Usable (.calc (.one (.val v)))
  | two : Usable (.calc (.two op l r))

/-- The style of an element, and whether its sizes are used. -/
inductive Sized (s : Style) : El → Prop
  | rect : Sized s (.rect s)
  | root : Sized s (.root s cs)
  | foreign : Sized s (.foreign s)

/-! ## Attributes -/

/-- A length as an attribute of SVG has it, in user units: a number, a percentage of `w`, or a number
of an absolute unit. -/
inductive Given (w : Rat) : Tok → Rat → Prop
  | number (n : Lit) : Given w (.number n.text) n.value
  | percent (n : Lit) : Given w (.percent (n.text ++ ['%'])) (w * n.value / 100)
  | abs (n : Lit) : (k, u, per) ∈ absTable → Cased s k.toList →
      Given w (.dim (n.text ++ s)) (n.value * 96 / per)

/-- The value of `width` or `height` in a place that is `w` wide or high. -/
def spread (w : Rat) : Option Size → Option Rat
  | some z =>
    match fromSize z with
    | .ok v => some (resolve v w)
    | .error _ => none
  | none => none

end Verif.Svg.Spec
