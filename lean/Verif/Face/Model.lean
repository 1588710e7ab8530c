import Verif.Short.Model
/-!
# The descriptors of `@font-face`: model

`/repo/src/vaev-engine/style/fonts.cpp`, read by `parseDeclarations<FontDescriptor>`, `style/decls.cpp`
lines 15–83, and applied by `_evalFontfaceRules`, `loader/loader-impl.cpp` lines 60–72.

* A declaration is its name and its value; the value has no white space between its tokens, as
  `consumeDeclarationValue` (css/parser.cpp lines 242–265) leaves it out, but this is not assumed.
* `same14` is whether an angle is equal to 14 degrees: angles are compared in radians
  (values/angle.cpp lines 82–84).
* Numbers are exact. `Gfx::FontStretch::fromPercent` (Karm) is left out: the width is in percent.
* Reading where there is nothing is a `crash`.
-/
namespace Verif.Face
open Verif.Values Verif.Short

/-- An angle. -/
abbrev Angle := Rat × AngleUnit

/-- `FontDisplay`, values/font.cpp lines 20–30. -/
inductive Display where
  | auto | block | swap | fallback | optional
  deriving DecidableEq, Repr

/-- `Union<None, FontStyle, Range<Angle>>`, fonts.cpp line 23. -/
inductive Style where
  | none
  | style (s : FStyle)
  | range (a b : Angle)
  deriving DecidableEq, Repr

/-- `FontDescriptor`, fonts.cpp lines 483–541, for those that can be read; a range is its ends. -/
inductive Desc where
  | family (n : List Char)
  | src (ss : List Source)
  | style (s : Style)
  | weight (w : Option (Int × Int))
  | width (w : Option (Rat × Rat))
  | instance_
  | display (d : Display)
  | ascent (p : Option Rat)
  | descent (p : Option Rat)
  | lineGap (p : Option Rat)
  | size (p : Rat)
  deriving DecidableEq, Repr

/-- What became of a declaration. -/
inductive Res (α : Type) where
  | ok (a : α)
  | crash
  deriving DecidableEq, Repr

/-- `FontStyleFontDescriptor::parse`, fonts.cpp lines 198–218: only an angle of 14 degrees, or none,
is equal to `OBLIQUE`, and may be followed by a second one. -/
def parseStyleDesc (same14 : Angle → Bool) (l : List Tok) : Out Style :=
  match skipIdent "auto".toList l with
  | some r => (some .none, r)
  | none =>
    match parseFStyle l with
    | (none, r) => (none, r)
    | (some (.oblique v u), r) =>
      if same14 (v, u) then
        match parseAngle r with
        | (none, r') => (some (.style (.oblique v u)), r')
        | (some a, r') => (some (.range (v, u) a), r')
      else (some (.style (.oblique v u)), r)
    | (some s, r) => (some (.style s), r)

/-- `ValueParser<Gfx::FontWeight>::parse`, values/font.cpp lines 221–238. -/
def parseAbsWeight (l : List Tok) : Out Int :=
  match skipAny [("normal", (400 : Int)), ("bold", 700)] l with
  | some (v, r) => (some v, r)
  | none =>
    match parseInteger l with
    | (none, r) => (none, r)
    | (some n, r) => if n < 0 ∨ n > 1000 then (none, r) else (some n, r)

/-- `FontWeightFontDescriptor::parse` and `FontWidthFontDescriptor::parse`, fonts.cpp lines 234–254 and
270–287: one value or two. -/
def parseRange {α : Type} (p : List Tok → Out α) (l : List Tok) : Out (Option (α × α)) :=
  match skipIdent "auto".toList l with
  | some r => (some none, r)
  | none =>
    match p l with
    | (none, r) => (none, r)
    | (some a, r) =>
      match p r with
      | (none, r') => (some (some (a, a)), r')
      | (some b, r') => (some (some (a, b)), r')

/-- `FontDisplayFontDescriptor::parse`, fonts.cpp lines 371–387. -/
def displayKw : List (String × Display) :=
  [("auto", .auto), ("block", .block), ("swap", .swap), ("fallback", .fallback), ("optional", .optional)]

/-- `AscentOverrideFontDescriptor::parse` and the like, fonts.cpp lines 404–412, 429–437 and 453–461. -/
def parseOverride (l : List Tok) : Out (Option Rat) :=
  match skipIdent "normal".toList l with
  | some r => (some none, r)
  | none =>
    match parsePercent l with
    | (some p, r) => (some (some p), r)
    | (none, r) => (none, r)

/-- `FontNamedInstanceFontDescriptor::parse`, fonts.cpp lines 347–355. -/
def parseInstance (l : List Tok) : Out Unit :=
  match skipIdent "auto".toList l with
  | some r => (some (), r)
  | none =>
    match l with
    | .str _ :: r => (some (), r)
    | l => (none, l)

/-- `FontFamilyFontDescriptor::parse`, fonts.cpp lines 92–102: one string or one word. -/
def parseFamilyDesc : List Tok → Res (Out (List Char))
  | [] => .crash
  | .str s :: r => .ok (some s, r)
  | .ident s :: r => .ok (some s, r)
  | l => .ok (none, l)

/-- `_parseDeclaration`, decls.cpp lines 26–37: all of the value must have been read. -/
def whole {α : Type} (f : α → Desc) (o : Out α) : Res (Option Desc) :=
  match o with
  | (some v, []) => .ok (some (f v))
  | _ => .ok none

/-- `parseDeclaration<FontDescriptor>`, decls.cpp lines 39–59: the descriptors in turn, by name.
`unicode-range`, `font-feature-settings` and `font-variation-settings` have no parser (lines 16–23);
`mapLegacyAlias`, fonts.cpp lines 513–520, is not called. -/
def parseDesc (same14 : Angle → Bool) (name : List Char) (value : List Tok) : Res (Option Desc) :=
  let l := eatWs value
  if eqCi name "font-family".toList then
    match parseFamilyDesc l with
    | .crash => .crash
    | .ok o => whole .family o
  else if eqCi name "src".toList then whole .src (parseSrc l)
  else if eqCi name "font-style".toList then whole .style (parseStyleDesc same14 l)
  else if eqCi name "font-weight".toList then whole .weight (parseRange parseAbsWeight l)
  else if eqCi name "font-width".toList then whole .width (parseRange parseFWidth l)
  else if eqCi name "unicode-range".toList then .ok none
  else if eqCi name "font-feature-settings".toList then .ok none
  else if eqCi name "font-variation-settings".toList then .ok none
  else if eqCi name "font-named-instance".toList then whole (fun _ => .instance_) (parseInstance l)
  else if eqCi name "font-display".toList then whole .display (parseKw displayKw l)
  else if eqCi name "ascent-override".toList then whole .ascent (parseOverride l)
  else if eqCi name "descent-override".toList then whole .descent (parseOverride l)
  else if eqCi name "line-gap-override".toList then whole .lineGap (parseOverride l)
  else if eqCi name "size-adjust".toList then whole .size (parsePercent l)
  else .ok none

/-- `parseDeclarations`, decls.cpp lines 61–78. -/
def parseAll (same14 : Angle → Bool) : List (List Char × List Tok) → Res (List Desc)
  | [] => .ok []
  | d :: r =>
    match parseDesc same14 d.1 d.2 with
    | .crash => .crash
    | .ok o =>
      match parseAll same14 r with
      | .crash => .crash
      | .ok l => .ok (o.toList ++ l)

/-- `FontFace`, fonts.cpp lines 18–38. -/
structure Face where
  family : List Char := []
  sources : List Source := []
  style : Style := .style .normal
  weight : Option (Int × Int) := some (400, 400)
  width : Option (Rat × Rat) := some (100, 100)
  ascent : Option Rat := none
  descent : Option Rat := none
  lineGap : Option Rat := none
  size : Option Rat := none
  display : Display := .auto
  deriving DecidableEq, Repr

/-- `FontDescriptor::apply`, fonts.cpp lines 528–532. -/
def Desc.apply (f : Face) : Desc → Face
  | .family n => { f with family := n }
  | .src ss => { f with sources := ss }
  | .style s => { f with style := s }
  | .weight w => { f with weight := w }
  | .width w => { f with width := w }
  | .instance_ => f
  | .display d => { f with display := d }
  | .ascent p => { f with ascent := p }
  | .descent p => { f with descent := p }
  | .lineGap p => { f with lineGap := p }
  | .size p => { f with size := some p }

/-- The face of an `@font-face` rule, loader-impl.cpp lines 62–66. -/
def faceOf (same14 : Angle → Bool) (ds : List (List Char × List Tok)) : Res Face :=
  match parseAll same14 ds with
  | .crash => .crash
  | .ok l => .ok (l.foldl Desc.apply {})

/-- `FontFace::valid`, fonts.cpp lines 40–42. -/
def Face.valid (f : Face) : Bool := !f.family.isEmpty && !f.sources.isEmpty

/-- `Gfx::FontStyle`. -/
inductive Slant where
  | normal | italic | oblique
  deriving DecidableEq, Repr

/-- `Gfx::FontAttrs`. -/
structure Attrs where
  family : List Char
  weight : Int
  stretch : Rat
  style : Slant
  deriving DecidableEq, Repr

/-- `FontStyle::val`. -/
def slantOf : FStyle → Slant
  | .normal => .normal
  | .italic => .italic
  | .oblique _ _ => .oblique

/-- `FontFace::attributes`, fonts.cpp lines 44–63. -/
def Face.attrs (f : Face) : Attrs where
  family := f.family
  weight := match f.weight with
    | some w => w.1
    | none => 400
  stretch := match f.width with
    | some w => w.1
    | none => 100
  style := match f.style with
    | .style s => slantOf s
    | _ => .normal

/-- `Gfx::FontAdjust`. -/
structure Adjust where
  ascent : Rat
  descent : Rat
  lineGap : Rat
  size : Rat
  deriving DecidableEq, Repr

/-- `FontFace::adjustments`, fonts.cpp lines 65–72. -/
def Face.adjust (f : Face) : Adjust where
  ascent := f.ascent.getD 100 / 100
  descent := f.descent.getD 100 / 100
  lineGap := f.lineGap.getD 100 / 100
  size := f.size.getD 100 / 100

end Verif.Face
