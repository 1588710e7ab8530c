import Verif.Short.Model
import Verif.Values.Spec

/-!
# Shorthands: specification

The grammars of the CSS specifications, written as relations between texts and values, without
the parsers of the shorthands.  The single values a shorthand is made of are what the longhand
properties read (`declared`).
-/

namespace Verif.Short
open Verif.Values

/-- A text without white space, as the values of declarations are handed to the parsers. -/
def Plain (ts : List Tok) : Prop := ∀ t ∈ ts, t ≠ .ws

/-- A token that is a word, each letter in either case. -/
inductive Word (k : String) : Tok → Prop
  | mk {w} : Cased w k.toList → Word k (.ident w)

/-! ## flex-flow and overflow -/

def Direction.word : Direction → String
  | .row => "row"
  | .rowReverse => "row-reverse"
  | .column => "column"
  | .columnReverse => "column-reverse"

def Wrap.word : Wrap → String
  | .nowrap => "nowrap"
  | .wrap => "wrap"
  | .wrapReverse => "wrap-reverse"

/-- `<'flex-direction'> || <'flex-wrap'>`: one or both, in either order; `row` and `nowrap` if not
given. -/
inductive FlowText : List Tok → Direction × Wrap → Prop
  | direction : Word d.word t → FlowText [t] (d, .nowrap)
  | wrap : Word w.word t → FlowText [t] (.row, w)
  | both : Word d.word t → Word w.word t' → FlowText [t, t'] (d, w)
  | swapped : Word w.word t → Word d.word t' → FlowText [t, t'] (d, w)

/-- The values of overflow-x and overflow-y; `overlay` is an old name of `auto`. -/
inductive OverflowWord : Overflow → Tok → Prop
  | visible : Word "visible" t → OverflowWord .visible t
  | hidden : Word "hidden" t → OverflowWord .hidden t
  | scroll : Word "scroll" t → OverflowWord .scroll t
  | auto : Word "auto" t → OverflowWord .auto t
  | overlay : Word "overlay" t → OverflowWord .auto t

/-- One value for both, or one each. -/
inductive OverflowText : List Tok → Overflow × Overflow → Prop
  | one : OverflowWord x t → OverflowText [t] (x, x)
  | two : OverflowWord x t → OverflowWord y t' → OverflowText [t, t'] (x, y)

/-! ## flex -/

/-- The token is the number `g`, as `flex-grow` reads it. -/
def IsNumber (t : Tok) (g : Rat) : Prop := declared parseNumber [t] = some g

/-- The token is the basis `b`, as `flex-basis` reads it (`C165_basis` says what that is). -/
def IsBasis (t : Tok) (b : Basis) : Prop := declared parseBasis [t] = some b

/-- What `flex-basis` may be. -/
inductive BasisTok : Tok → Basis → Prop
  | auto : Word "auto" t → BasisTok t .auto
  | content : Word "content" t → BasisTok t .content
  | minContent : Word "min-content" t → BasisTok t .minContent
  | maxContent : Word "max-content" t → BasisTok t .maxContent
  | length : declared parseCalc [t] = some c → BasisTok t (.calc c)
  | fit : Cased n "fit-content(".toList → Reads parsePL u v → BasisTok (.func n (u :: r)) (.fit v)

/-- `none | [ <'flex-grow'> <'flex-shrink'>? || <'flex-basis'> ]`, and `initial`.  What is left
out is 1 for the factors and no length for the basis.  A number is not a basis, unless it comes
behind two others.  `ok` says which numbers may be factors. -/
inductive FlexText (ok : Rat → Prop) : List Tok → Flex → Prop
  | none : Word "none" t → FlexText ok [t] ⟨.auto, 0, 0⟩
  | initial : Word "initial" t → FlexText ok [t] ⟨.auto, 0, 1⟩
  | grow : IsNumber t g → ok g → FlexText ok [t] ⟨zeroPx, g, 1⟩
  | growShrink : IsNumber t g → ok g → IsNumber t' s → ok s → FlexText ok [t, t'] ⟨zeroPx, g, s⟩
  | growBasis : IsNumber t g → ok g → IsBasis u b → (∀ x, ¬ IsNumber u x) →
      FlexText ok [t, u] ⟨b, g, 1⟩
  | growShrinkBasis : IsNumber t g → ok g → IsNumber t' s → ok s → IsBasis u b →
      FlexText ok [t, t', u] ⟨b, g, s⟩
  | basis : IsBasis u b → (∀ x, ¬ IsNumber u x) → FlexText ok [u] ⟨b, 1, 1⟩
  | basisGrow : IsBasis u b → (∀ x, ¬ IsNumber u x) → IsNumber t g → ok g →
      FlexText ok [u, t] ⟨b, g, 1⟩
  | basisGrowShrink : IsBasis u b → (∀ x, ¬ IsNumber u x) → IsNumber t g → ok g → IsNumber t' s →
      ok s → FlexText ok [u, t, t'] ⟨b, g, s⟩

/-- The tokens of numbers have numbers for texts, as those of the lexer do. -/
def Numeric (ts : List Tok) : Prop := ∀ s, .number s ∈ ts → ∃ n : Lit, s = n.text

/-! ## border-radius -/

/-- A corner: its horizontal and its vertical radius. -/
abbrev Corner := PL × PL

/-- The corners, from the top start one on and round the box. -/
def Radii.all (r : Radii) : Sides Corner := ⟨(r.b, r.a), (r.c, r.d), (r.f, r.e), (r.g, r.h)⟩

/-- Horizontal and vertical radii put together, corner by corner. -/
def corners (h v : Sides PL) : Sides Corner :=
  ⟨(h.top, v.top), (h.right, v.right), (h.bottom, v.bottom), (h.left, v.left)⟩

def slash : Tok := .delim ['/']

/-! ## list-style -/

/-- A part of a list style. -/
inductive LPart where
  | none
  | image (s : List Char)
  | name (s : List Char)
  | text (s : List Char)
  | position (p : ListPosition)

/-- A token that is a url, quoted or not. -/
inductive UrlTok (s : List Char) : Tok → Prop
  | plain : UrlTok s (.url s)
  | quoted : Cased n "url(".toList → eatWs c = [.str s] → UrlTok s (.func n c)

/-- How the parts are written.  The name of a counter style is any word that is not one of the
others. -/
inductive LWrites : LPart → Tok → Prop
  | none : Word "none" t → LWrites .none t
  | image : UrlTok s t → LWrites (.image s) t
  | name : ¬ Word "none" (.ident s) → ¬ Word "inside" (.ident s) → ¬ Word "outside" (.ident s) →
      LWrites (.name s) (.ident s)
  | text : LWrites (.text s) (.str s)
  | inside : Word "inside" t → LWrites (.position .inside) t
  | outside : Word "outside" t → LWrites (.position .outside) t

def LPart.image? : LPart → Option ListImage
  | .image s => some (.url s)
  | _ => .none

def LPart.type? : LPart → Option ListType
  | .name s => some (.name s)
  | .text s => some (.text s)
  | _ => .none

def LPart.position? : LPart → Option ListPosition
  | .position p => some p
  | _ => .none

def LPart.kind : LPart → Nat
  | .none => 0
  | .image _ => 1
  | .name _ => 2
  | .text _ => 2
  | .position _ => 3

/-- Whether one of the parts is `none`. -/
def hasNone (ps : List LPart) : Bool := ps.any fun p => match p with | .none => true | _ => false

/-- What the parts say: what is not given is `none`, `disc` and `outside`; the type is `none` if
it is not given and `none` is. -/
def listOf (ps : List LPart) : ListStyle :=
  ⟨(ps.findSome? LPart.image?).getD .none,
   (ps.findSome? LPart.type?).getD (if hasNone ps then .none else .name "disc".toList),
   (ps.findSome? LPart.position?).getD .outside⟩

/-- Parts and tokens, one to one. -/
inductive Texts {α : Type} (w : α → Tok → Prop) : List α → List Tok → Prop
  | nil : Texts w [] []
  | cons : w p t → Texts w ps ts → Texts w (p :: ps) (t :: ts)

/-! ## outline -/

/-- A part of an outline. -/
inductive OPart (κ : Type) where
  | width (w : LineWidth)
  | style (s : BStyle)
  | color (c : κ)
  | auto

/-- How the parts are written: a width is what the parser of `outline-width` reads; a style is a
keyword; a colour is what the parser of colours reads, and not a length. -/
inductive OWrites (color : List Tok → Out κ) : OPart κ → Tok → Prop
  | width : Reads parseLineWidth t w → OWrites color (.width w) t
  | style : (k, s) ∈ styleNames → Word k t → OWrites color (.style s) t
  | color : Reads color t c → (∀ r, parseCalcOf parseLen (t :: r) = (none, t :: r)) → t ≠ .ws →
      OWrites color (.color c) t
  | auto : Word "auto" t → OWrites color .auto t

def OPart.kind : OPart κ → Nat
  | .width _ => 0
  | .style _ => 1
  | .color _ => 2
  | .auto => 3

def OPart.width? : OPart κ → Option LineWidth
  | .width w => some w
  | _ => .none
def OPart.style? : OPart κ → Option BStyle
  | .style s => some s
  | _ => .none
def OPart.color? : OPart κ → Option κ
  | .color c => some c
  | _ => .none
def hasAuto (ps : List (OPart κ)) : Bool := ps.any fun p => match p with | .auto => true | _ => false

/-- What the parts say: what is not given is `medium`, `none` (`auto`, if that is written) and
`auto`. -/
def outlineOf (ps : List (OPart κ)) : Outline κ :=
  ⟨(ps.findSome? OPart.width?).getD .medium,
   match ps.findSome? OPart.style? with
    | some s => some s
    | none => if hasAuto ps then none else some .none,
   ps.findSome? OPart.color?⟩

/-! ## font -/

/-- A part of a font in front of the size. -/
inductive FPart where
  | normal
  | style (s : FStyle)
  | weight (w : Weight)
  | width (w : Rat)

def FPart.kind : FPart → Nat
  | .normal => 0
  | .style _ => 1
  | .weight _ => 2
  | .width _ => 3

/-- The units of angles. -/
def angleUnits : List (String × AngleUnit) :=
  [("deg", .deg), ("grad", .grad), ("rad", .rad), ("turn", .turn)]

/-- The names of widths, in percent. -/
def widthNames : List (String × Rat) :=
  [("ultra-condensed", 50), ("extra-condensed", 125 / 2), ("condensed", 75),
   ("semi-condensed", 175 / 2), ("semi-expanded", 225 / 2), ("expanded", 125),
   ("extra-expanded", 150), ("ultra-expanded", 200)]

/-- How the parts are written; `normal` says nothing. -/
inductive FWrites : FPart → List Tok → Prop
  | normal : Word "normal" t → FWrites .normal [t]
  | italic : Word "italic" t → FWrites (.style .italic) [t]
  | oblique : Word "oblique" t → FWrites (.style (.oblique 14 .deg)) [t]
  | angle (n : Lit) : Word "oblique" t → (k, u) ∈ angleUnits → Cased w k.toList →
      FWrites (.style (.oblique n.value u)) [t, .dim (n.text ++ w)]
  | lighter : Word "lighter" t → FWrites (.weight .lighter) [t]
  | bolder : Word "bolder" t → FWrites (.weight .bolder) [t]
  | bold : Word "bold" t → FWrites (.weight (.abs 700)) [t]
  | weight (ds : List (Fin 10)) : ds ≠ [] → decimal ds ≤ 1000 →
      FWrites (.weight (.abs (decimal ds))) [.number (ds.map digitChar)]
  | width : (k, w) ∈ widthNames → Word k t → FWrites (.width w) [t]

/-- The texts of parts, one behind the other. -/
inductive FTexts : List FPart → List Tok → Prop
  | nil : FTexts [] []
  | cons : FWrites p ts → FTexts ps us → FTexts (p :: ps) (ts ++ us)

def FPart.style? : FPart → Option FStyle
  | .style s => some s
  | _ => none
def FPart.weight? : FPart → Option Weight
  | .weight w => some w
  | _ => none
def FPart.width? : FPart → Option Rat
  | .width w => some w
  | _ => none

/-- The names of sizes. -/
def sizeNames : List (String × FSize) :=
  [("xx-small", .xxSmall), ("x-small", .xSmall), ("small", .small), ("medium", .medium),
   ("large", .large), ("x-large", .xLarge), ("xx-large", .xxLarge), ("smaller", .smaller),
   ("larger", .larger)]

/-- The size: a length with a unit, or a word. -/
inductive SizeTok : Tok → FSize → Prop
  | length : Reads parseLength (.dim s) v → SizeTok (.dim s) (.length v)
  | word : (k, v) ∈ sizeNames → Word k t → SizeTok t v

/-- A line height behind its slash, or nothing. -/
inductive LHText : List Tok → Prop
  | none : LHText []
  | some : Reads parseLHeight t v → LHText [slash, t]

/-- The name of one family: a string, or words with a space between them. -/
inductive FamilyText : List Tok → List Char → Prop
  | str : FamilyText [.str s] s
  | word : FamilyText [.ident s] s
  | more : FamilyText ts n → (∀ s, ts ≠ [.str s]) → FamilyText (ts ++ [.ident s]) (n ++ ' ' :: s)

/-! ## Font sources -/

/-- The words for formats. -/
def formatWords : List String :=
  ["collection", "embedded-opentype", "opentype", "svg", "truetype", "woff", "woff2"]

/-- One source with a url, and its format if it has one. -/
inductive SrcText : List Tok → Source → Prop
  | url : UrlTok s t → SrcText [t] (.url s none)
  | str : UrlTok s t → Cased n "format(".toList → eatWs c = [.str f] →
      SrcText [t, .func n c] (.url s (some f))
  | word : UrlTok s t → Cased n "format(".toList → eatWs c = [.ident f] → k ∈ formatWords →
      Cased f k.toList → SrcText [t, .func n c] (.url s (some f))

/-- Sources with commas between them. -/
inductive SrcTexts : List Tok → List Source → Prop
  | one : SrcText ts s → SrcTexts ts [s]
  | more : SrcText ts s → SrcTexts us ss → SrcTexts (ts ++ .comma :: us) (s :: ss)

/-! ## Positions -/

/-- Where a position is: the anchor of each axis and the distance from it; `center` is half
way. -/
inductive HSide : Item → HAnchor → Prop
  | left : HSide .left .left
  | right : HSide .right .right

inductive VSide : Item → VAnchor → Prop
  | top : VSide .top .top
  | bottom : VSide .bottom .bottom

/-- What the grammar of CSS takes for a horizontal position in front of a vertical one. -/
inductive HPart : Item → HAnchor → Calc → Prop
  | side : HSide i h → HPart i h zero
  | center : HPart .center .center zero
  | offset : HPart (.offset c) .left c

inductive VPart : Item → VAnchor → Calc → Prop
  | side : VSide i v → VPart i v zero
  | center : VPart .center .center zero
  | offset : VPart (.offset c) .top c

/-- `[ center | [ left | right ] <length-percentage>? ]` -/
inductive HPair : List Item → HAnchor → Calc → Prop
  | center : HPair [.center] .center zero
  | side : HSide i h → HPair [i] h zero
  | offset : HSide i h → HPair [i, .offset c] h c

inductive VPair : List Item → VAnchor → Calc → Prop
  | center : VPair [.center] .center zero
  | side : VSide i v → VPair [i] v zero
  | offset : VSide i v → VPair [i, .offset c] v c

/-- `<position>` of CSS (css-backgrounds 3, `<bg-position>`). -/
inductive PositionText : List Item → Position → Prop
  | horizontal : HPart i h x → PositionText [i] ⟨h, x, .center, zero⟩
  | vertical : VSide i v → PositionText [i] ⟨.center, zero, v, zero⟩
  | two : HPart i h x → VPart j v y → PositionText [i, j] ⟨h, x, v, y⟩
  | pairs : HPair is h x → VPair js v y → PositionText (is ++ js) ⟨h, x, v, y⟩
  | swapped : HPair is h x → VPair js v y → PositionText (js ++ is) ⟨h, x, v, y⟩

end Verif.Short
