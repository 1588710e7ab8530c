import Verif.Values.Color

/-!
# Values: specification

What the properties speak of, written without the parsers of the model: letters in any case,
decimal literals and their values, the worth of each unit, the values of sums and products, the
keywords of `display`, the sides of a shorthand and the parts of a border.
-/

namespace Verif.Values

/-! ## Letters -/

/-- The same character, or the same letter in the other case. -/
def SameLetter (a b : Char) : Prop :=
  a = b ∨ (97 ≤ b.toNat ∧ b.toNat ≤ 122 ∧ a.toNat + 32 = b.toNat) ∨
    (97 ≤ a.toNat ∧ a.toNat ≤ 122 ∧ b.toNat + 32 = a.toNat)

/-- `w` is `k`, each letter in either case. -/
inductive Cased : List Char → List Char → Prop
  | nil : Cased [] []
  | cons : SameLetter a b → Cased w k → Cased (a :: w) (b :: k)

/-! ## Hex digits -/

/-- The hex digits and what they stand for. -/
def hexTable : List (Char × Nat) :=
  [('0', 0), ('1', 1), ('2', 2), ('3', 3), ('4', 4), ('5', 5), ('6', 6), ('7', 7), ('8', 8),
   ('9', 9), ('a', 10), ('b', 11), ('c', 12), ('d', 13), ('e', 14), ('f', 15),
   ('A', 10), ('B', 11), ('C', 12), ('D', 13), ('E', 14), ('F', 15)]

def HexDigit (c : Char) (n : Nat) : Prop := (c, n) ∈ hexTable

/-- A reader of hexadecimal numbers that reads one and two digits right; nothing is said of other
texts. -/
structure ReadsHex (atou : List Char → Option Nat) : Prop where
  one : ∀ {c n}, HexDigit c n → atou [c] = some n
  two : ∀ {c d m n}, HexDigit c m → HexDigit d n → atou [c, d] = some (16 * m + n)

/-! ## Decimal literals -/

/-- A decimal literal: a sign or none, digits, and a point with digits or none.  No exponent. -/
structure Lit where
  sign : Option Bool
  whole : List (Fin 10)
  frac : List (Fin 10)
  digits : whole ≠ [] ∨ frac ≠ []

/-- The character of a digit. -/
def digitChar : Fin 10 → Char
  | 0 => '0' | 1 => '1' | 2 => '2' | 3 => '3' | 4 => '4'
  | 5 => '5' | 6 => '6' | 7 => '7' | 8 => '8' | 9 => '9'

/-- How a literal is written. -/
def Lit.text (n : Lit) : List Char :=
  (match n.sign with
    | none => []
    | some true => ['-']
    | some false => ['+']) ++
  n.whole.map digitChar ++ (if n.frac = [] then [] else '.' :: n.frac.map digitChar)

/-- The number digits write in the decimal system. -/
def decimal : List (Fin 10) → Nat
  | [] => 0
  | d :: ds => d.val * 10 ^ ds.length + decimal ds

/-- The number a literal stands for. -/
def Lit.value (n : Lit) : Rat :=
  let v : Rat := (decimal n.whole : Rat) + (decimal n.frac : Rat) / ((10 ^ n.frac.length : Nat) : Rat)
  if n.sign = some true then -v else v

/-- A literal with no point and no sign. -/
def natLit (d : Fin 10) (ds : List (Fin 10)) : Lit := ⟨none, d :: ds, [], .inl (by simp)⟩

/-! ## Units -/

/-- The absolute units and how many of each make an inch. -/
def absTable : List (String × AbsUnit × Rat) :=
  [("px", .px, 96), ("pt", .pt, 72), ("pc", .pc, 6), ("in", .in, 1), ("cm", .cm, 254 / 100),
   ("mm", .mm, 254 / 10), ("q", .q, 1016 / 10)]

/-- What one of a relative unit is worth, in pixels. -/
def worth (c : Ctx) : RelUnit → Rat
  | .em => c.fontSize
  | .rem => c.rootFontSize
  | .ex => c.xHeight
  | .rex => c.rootXHeight
  | .cap => c.capHeight
  | .rcap => c.rootCapHeight
  | .ch | .ic => c.zeroAdvance
  | .rch | .ric => c.rootZeroAdvance
  | .lh => c.lineHeight
  | .rlh => c.rootLineHeight
  | .vw | .lvw => c.largeWidth / 100
  | .svw => c.smallWidth / 100
  | .dvw => c.dynamicWidth / 100
  | .vh | .lvh => c.largeHeight / 100
  | .svh => c.smallHeight / 100
  | .dvh => c.dynamicHeight / 100
  | .vi | .lvi => (if c.horizontal then c.largeWidth else c.largeHeight) / 100
  | .svi => (if c.horizontal then c.smallWidth else c.smallHeight) / 100
  | .dvi => (if c.horizontal then c.dynamicWidth else c.dynamicHeight) / 100
  | .vb | .lvb => (if c.horizontal then c.largeHeight else c.largeWidth) / 100
  | .svb => (if c.horizontal then c.smallHeight else c.smallWidth) / 100
  | .dvb => (if c.horizontal then c.dynamicHeight else c.dynamicWidth) / 100
  | .vmin | .lvmin => if c.largeWidth ≤ c.largeHeight then c.largeWidth / 100 else c.largeHeight / 100
  | .svmin => if c.smallWidth ≤ c.smallHeight then c.smallWidth / 100 else c.smallHeight / 100
  | .dvmin => if c.dynamicWidth ≤ c.dynamicHeight then c.dynamicWidth / 100 else c.dynamicHeight / 100
  | .vmax | .lvmax => if c.largeWidth ≤ c.largeHeight then c.largeHeight / 100 else c.largeWidth / 100
  | .svmax => if c.smallWidth ≤ c.smallHeight then c.smallHeight / 100 else c.smallWidth / 100
  | .dvmax => if c.dynamicWidth ≤ c.dynamicHeight then c.dynamicHeight / 100 else c.dynamicWidth / 100

/-- The units that are the smaller or larger of two. -/
def RelUnit.isMinMax : RelUnit → Bool
  | .vmin | .svmin | .lvmin | .dvmin | .vmax | .svmax | .lvmax | .dvmax => true
  | _ => false

/-- The names of the relative units. -/
def relTable : List (String × RelUnit) :=
  [("em", .em), ("rem", .rem), ("ex", .ex), ("rex", .rex), ("cap", .cap), ("rcap", .rcap),
   ("ch", .ch), ("rch", .rch), ("ic", .ic), ("ric", .ric), ("lh", .lh), ("rlh", .rlh),
   ("vw", .vw), ("svw", .svw), ("lvw", .lvw), ("dvw", .dvw),
   ("vh", .vh), ("svh", .svh), ("lvh", .lvh), ("dvh", .dvh),
   ("vi", .vi), ("svi", .svi), ("lvi", .lvi), ("dvi", .dvi),
   ("vb", .vb), ("svb", .svb), ("lvb", .lvb), ("dvb", .dvb),
   ("vmin", .vmin), ("svmin", .svmin), ("lvmin", .lvmin), ("dvmin", .dvmin),
   ("vmax", .vmax), ("svmax", .svmax), ("lvmax", .lvmax), ("dvmax", .dvmax)]

/-- A rounding to whole subpixels: anything that keeps the order. -/
def Monotone (near : Rat → Int) : Prop := ∀ a b, a ≤ b → near a ≤ near b

/-! ## calc() -/

/-- One operand as it is written: a token, and the number of pixels it stands for where a
percentage is of `relative` and the units are those of `c`. -/
inductive Written (c : Ctx) (relative : Rat) : Tok → Rat → Prop
  | number (n : Lit) : Written c relative (.number n.text) n.value
  | percent (n : Lit) : Written c relative (.percent (n.text ++ ['%'])) (relative * n.value / 100)
  | abs {k u per w} (n : Lit) : (k, u, per) ∈ absTable → Cased w k.toList →
      Written c relative (.dim (n.text ++ w)) (n.value * 96 / per)
  | rel {k u w} (n : Lit) : (k, u) ∈ relTable → Cased w k.toList →
      Written c relative (.dim (n.text ++ w)) (n.value * worth c u)

/-- A length in pixels, exactly: number times the worth of the unit. -/
def exactPx (c : Ctx) : Length → Rat
  | .abs v .px => v
  | .abs v .pt => v * 96 / 72
  | .abs v .pc => v * 96 / 6
  | .abs v .in => v * 96
  | .abs v .cm => v * 96 / (254 / 100)
  | .abs v .mm => v * 96 / (254 / 10)
  | .abs v .q => v * 96 / (1016 / 10)
  | .rel v u => v * worth c u

/-- The operators and what they do; a quotient by zero has no value. -/
inductive Applied : Char → Rat → Rat → Option Rat → Prop
  | add : Applied '+' a b (some (a + b))
  | sub : Applied '-' a b (some (a - b))
  | mul : Applied '*' a b (some (a * b))
  | div : b ≠ 0 → Applied '/' a b (some (a / b))
  | undef : Applied '/' a 0 none

/-- What `calc` value a declaration of a width, margin or padding gives, in pixels: `none` when
it is rejected; `some none` when it has no value. -/
def calcPx (c : Ctx) (relative : Rat) (toks : List Tok) : Option (Option Rat) :=
  (declared parseCalc toks).map (resolveCalc (exactPx c) relative)

/-! ## display -/

/-- The keywords that stand alone. -/
def aloneTable : List (String × Display) :=
  [("none", .box .none), ("contents", .box .contents),
   ("inline-block", .default .flowRoot .inline false),
   ("inline-table", .default .table .inline false),
   ("inline-flex", .default .flex .inline false),
   ("inline-grid", .default .grid .inline false),
   ("table-row-group", .internal .rowGroup), ("table-header-group", .internal .headerGroup),
   ("table-footer-group", .internal .footerGroup), ("table-row", .internal .row),
   ("table-cell", .internal .cell), ("table-column-group", .internal .columnGroup),
   ("table-column", .internal .column), ("table-caption", .internal .caption),
   ("ruby-base", .internal .rubyBase), ("ruby-text", .internal .rubyText),
   ("ruby-base-container", .internal .rubyBaseContainer),
   ("ruby-text-container", .internal .rubyTextContainer)]

/-- The keywords that combine: the inner layout, the outer role, and being a list item. -/
inductive Part where
  | inside (i : Inside)
  | outside (o : Outside)
  | item
  deriving DecidableEq, Repr

def Part.keyword : Part → String
  | .inside .flow => "flow"
  | .inside .flowRoot => "flow-root"
  | .inside .flex => "flex"
  | .inside .grid => "grid"
  | .inside .ruby => "ruby"
  | .inside .table => "table"
  | .inside .math => "math"
  | .outside .block => "block"
  | .outside .inline => "inline"
  | .outside .runIn => "run-in"
  | .item => "list-item"

/-- The kind of a part: a value has at most one of each kind. -/
def Part.kind : Part → Nat
  | .inside _ => 0
  | .outside _ => 1
  | .item => 2

/-- What parts, in any order, mean: the inner layout is `flow` and the outer role `block` when
not said. -/
def ofParts (ps : List Part) : Display :=
  .default ((ps.findSome? fun p => match p with | .inside i => some i | _ => none).getD .flow)
    ((ps.findSome? fun p => match p with | .outside o => some o | _ => none).getD .block)
    (ps.contains .item)

/-- `toks` is the parts `ps` written one after the other, in any case of letters. -/
inductive WrittenParts : List Part → List Tok → Prop
  | nil : WrittenParts [] []
  | cons {w p ps ts} : Cased w (Part.keyword p).toList → WrittenParts ps ts → WrittenParts (p :: ps) (.ident w :: ts)

/-! ## Four sides -/

/-- One to four values: the sides go top, right, bottom, left; a missing one is as its opposite,
the right as the top. -/
def sidesOf : List α → Option (Sides α)
  | [a] => some ⟨a, a, a, a⟩
  | [a, b] => some ⟨a, b, a, b⟩
  | [a, b, c] => some ⟨a, b, c, b⟩
  | [a, b, c, d] => some ⟨a, b, c, d⟩
  | _ => none

/-- `p` reads `v` from the token `t`, whatever follows. -/
def Reads (p : List Tok → Out α) (t : Tok) (v : α) : Prop := ∀ r, p (t :: r) = (some v, r)

/-- `p` reads `vs` from the tokens, one each. -/
inductive ReadsAll (p : List Tok → Out α) : List Tok → List α → Prop
  | nil : ReadsAll p [] []
  | cons : Reads p t v → ReadsAll p ts vs → ReadsAll p (t :: ts) (v :: vs)

/-! ## Border -/

/-- A part of a border. -/
inductive BPart (κ : Type) where
  | width (w : LineWidth)
  | style (s : BStyle)
  | color (c : κ)
  deriving DecidableEq, Repr

def BPart.kind : BPart κ → Nat
  | .width _ => 0
  | .style _ => 1
  | .color _ => 2

/-- The border with the parts given, and `medium`, `none` and the current colour for those that
are not. -/
def borderOf (current : κ) (ps : List (BPart κ)) : Border κ :=
  ⟨(ps.findSome? fun p => match p with | .width w => some w | _ => none).getD .medium,
   (ps.findSome? fun p => match p with | .style s => some s | _ => none).getD .none,
   (ps.findSome? fun p => match p with | .color c => some c | _ => none).getD current⟩

/-- The names of the styles of lines. -/
def styleNames : List (String × BStyle) :=
  [("none", .none), ("solid", .solid), ("dashed", .dashed), ("dotted", .dotted),
   ("hidden", .hidden), ("double", .double), ("groove", .groove), ("ridge", .ridge),
   ("outset", .outset)]

/-- How parts are written, a token each: a width is what the parser of widths reads; a style is
one of the keywords, in any case; a colour is what the parser of colours reads and is not a
width. -/
inductive WritesPart (color : List Tok → Out κ) : BPart κ → Tok → Prop
  | width : Reads parseLineWidth t w → WritesPart color (.width w) t
  | style : (k, s) ∈ styleNames → Cased w k.toList → WritesPart color (.style s) (.ident w)
  | color : Reads color t c → (∀ r, parseLineWidth (t :: r) = (none, t :: r)) → t ≠ .ws →
      WritesPart color (.color c) t

inductive WritesParts (color : List Tok → Out κ) : List (BPart κ) → List Tok → Prop
  | nil : WritesParts color [] []
  | cons : WritesPart color p t → WritesParts color ps ts → WritesParts color (p :: ps) (t :: ts)

end Verif.Values
