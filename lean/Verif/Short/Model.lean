import Verif.Values.Model

/-!
# Shorthands: flex, flex-flow, overflow, border-radius, list-style, outline, font, font sources
and positions

Model of the parsers of the shorthand properties that are not shorthands of four sides, of the
`src` descriptor of `@font-face` and of positions, on the component values and with the parsers
of `Verif.Values`.  As there, a parser returns the value it found, if any, and what is left of
the input, which may be less than what was there even if no value was found.

Numbers are exact rationals; the exponent `Io::atof` would accept is not modelled.
-/

namespace Verif.Short
open Verif.Values

/-- A chain of `if (c.skip(ident(k))) return Ok(v)` that ends with an error. -/
def parseKw (table : List (String × α)) (l : List Tok) : Out α :=
  match skipAny table l with
  | some (v, r) => (some v, r)
  | none => (none, l)

/-! ## flex-flow and overflow -/

/-- `FlexDirection`, values/flex.cpp 22–29. -/
inductive Direction where
  | row | rowReverse | column | columnReverse
  deriving DecidableEq, Repr

/-- `ValueParser<FlexDirection>::parse`, values/flex.cpp 31–48. -/
def directionKw : List (String × Direction) :=
  [("row", .row), ("row-reverse", .rowReverse), ("column", .column),
   ("column-reverse", .columnReverse)]

/-- `FlexWrap`, values/flex.cpp 53–59. -/
inductive Wrap where
  | nowrap | wrap | wrapReverse
  deriving DecidableEq, Repr

/-- `ValueParser<FlexWrap>::parse`, values/flex.cpp 61–76. -/
def wrapKw : List (String × Wrap) :=
  [("nowrap", .nowrap), ("wrap", .wrap), ("wrap-reverse", .wrapReverse)]

/-- `FlexFlowProperty::Registration::parse`, props/flex.cpp 207–232. -/
def parseFlow (l : List Tok) : Out (Direction × Wrap) :=
  match parseKw directionKw l with
  | (some d, l1) =>
    match parseKw wrapKw l1 with
    | (some w, l2) => (some (d, w), l2)
    | (none, l2) => (some (d, .nowrap), l2)
  | (none, l1) =>
    match parseKw wrapKw l1 with
    | (none, l2) => (none, l2)
    | (some w, l2) =>
      match parseKw directionKw l2 with
      | (some d, l3) => (some (d, w), l3)
      | (none, l3) => (some (.row, w), l3)

/-- `Overflow`, values/overflow.cpp 14–21. -/
inductive Overflow where
  | visible | hidden | scroll | auto
  deriving DecidableEq, Repr

/-- `ValueParser<Overflow>::parse`, values/overflow.cpp 23–43. -/
def overflowKw : List (String × Overflow) :=
  [("overlay", .auto), ("visible", .visible), ("hidden", .hidden), ("scroll", .scroll),
   ("auto", .auto)]

/-- `OverflowProperty::Registration::parse`, props/overflow.cpp 173–190. -/
def parseOverflow (l : List Tok) : Out (Overflow × Overflow) :=
  match parseKw overflowKw (eatWs l) with
  | (none, l1) => (none, l1)
  | (some x, l1) =>
    match eatWs l1 with
    | [] => (some (x, x), [])
    | l2 =>
      match parseKw overflowKw l2 with
      | (none, l3) => (none, l3)
      | (some y, l3) => (some (x, y), l3)

/-! ## flex -/

/-- `FlexBasis`, values/flex.cpp 78–81, and `Size`, values/sizing.cpp 58–60. -/
inductive Basis where
  | auto | content | minContent | maxContent
  | calc (c : Calc)
  | fit (v : PL)
  deriving DecidableEq, Repr

/-- `ValueParser<FitContent>::parse`, values/sizing.cpp 40–56.  Names of functions are compared
without their case (css/lexer.cpp 84–86). -/
def parseFit : List Tok → Out PL
  | .func name content :: r =>
    if eqCi name "fit-content(".toList then
      match parsePL content with
      | (some v, _) => (some v, r)
      | (none, _) => (none, .func name content :: r)
    else (none, .func name content :: r)
  | l => (none, l)

/-- The parser of `FlexBasis`: `auto`, `content`, then the alternatives of `Size` in order. -/
def parseBasis (l : List Tok) : Out Basis :=
  match skipAny [("auto", Basis.auto), ("content", .content)] l with
  | some (v, r) => (some v, r)
  | none =>
    match parseCalc l with
    | (some c, r) => (some (.calc c), r)
    | (none, l1) =>
      match skipAny [("min-content", Basis.minContent), ("max-content", .maxContent)] l1 with
      | some (v, r) => (some v, r)
      | none =>
        match parseFit l1 with
        | (some v, r) => (some (.fit v), r)
        | (none, r) => (none, r)

/-- `FlexItemProps`, values/flex.cpp 83–91. -/
structure Flex where
  basis : Basis
  grow : Rat
  shrink : Rat
  deriving DecidableEq, Repr

/-- The lambda `parseGrowShrink`, props/flex.cpp 289–301: whether it succeeded, with the new
value. -/
def growShrink (v : Flex) (l : List Tok) : Out Flex :=
  match parseNumber l with
  | (none, l1) => (none, l1)
  | (some g, l1) =>
    match parseNumber l1 with
    | (some s, l2) => (some { v with grow := g, shrink := s }, l2)
    | (none, l2) => (some { v with grow := g }, l2)

/-- `Length{}`: no pixels. -/
def zeroPx : Basis := .calc (.one (.val (.length (.abs 0 .px))))

/-- `FlexProperty::Registration::parse`, props/flex.cpp 271–320. -/
def parseFlex (l : List Tok) : Out Flex :=
  match skipAny [("none", (⟨.auto, 0, 0⟩ : Flex)), ("initial", ⟨.auto, 0, 1⟩)] l with
  | some (v, r) => (some v, r)
  | none =>
    let value : Flex := ⟨zeroPx, 1, 1⟩
    match growShrink value l with
    | (some v, l1) =>
      match parseBasis l1 with
      | (some b, l2) => (some { v with basis := b }, l2)
      | (none, l2) => (some v, l2)
    | (none, l1) =>
      match parseBasis l1 with
      | (none, l2) => (none, l2)
      | (some b, l2) =>
        match growShrink { value with basis := b } l2 with
        | (some v, l3) => (some v, l3)
        | (none, l3) => (some { value with basis := b }, l3)

/-! ## border-radius -/

/-- `Math::Radii<T>` (Karm): `a` and `b` are the vertical and horizontal radius of the top start
corner, `d` and `c` of the top end, `e` and `f` of the bottom end, `h` and `g` of the bottom start
one (as layout/base/layout-impl.cpp 128–142 resolves them). -/
structure Radii where
  a : PL
  b : PL
  c : PL
  d : PL
  e : PL
  f : PL
  g : PL
  h : PL
  deriving DecidableEq, Repr

/-- The constructors of `Math::Radii<T>` (Karm, not in the repository): one radius each for the
four corners from the top start one on.  The constructors of one and of two values are this one
with the values repeated. -/
def Radii.corners (v1 v2 v3 v4 : PL) : Radii := ⟨v1, v1, v2, v2, v3, v3, v4, v4⟩

/-- `parsePostSlash`, values/borders.cpp 180–236.  The radii are of a type that a value of
`PercentOr<Length>` converts to; here it is that type itself. -/
def postSlash (l : List Tok) (radii : Option Radii) : Out Radii :=
  let zero : PL := .length (.abs 0 .px)
  match eatWs l with
  | .delim s :: r =>
    if s = ['/'] then
      let radii := radii.getD (.corners zero zero zero zero)
      match parsePL (eatWs r) with
      | (none, l1) => (some radii, l1)
      | (some v1, l1) =>
      match parsePL l1 with
      | (none, l2) => (some { radii with a := v1, d := v1, e := v1, h := v1 }, l2)
      | (some v2, l2) =>
      match parsePL (eatWs l2) with
      | (none, l3) => (some { radii with a := v1, d := v2, e := v1, h := v2 }, l3)
      | (some v3, l3) =>
      match parsePL (eatWs l3) with
      | (none, l4) => (some { radii with a := v1, d := v2, e := v3, h := v2 }, l4)
      | (some v4, l4) => (some { radii with a := v1, d := v2, e := v3, h := v4 }, l4)
    else (radii, .delim s :: r)
  | l => (radii, l)

/-- `ValueParser<Math::Radii<T>>::parse`, values/borders.cpp 155–178.  In the case of three values
the second is taken out of its result twice (line 175): that it is still there the second time is
an assumption on `Karm::Res::take`, which moves a trivially copyable value. -/
def parseRadii (l : List Tok) : Out Radii :=
  if l.isEmpty then (none, l) else
  match parsePL l with
  | (none, l1) => postSlash l1 none
  | (some v1, l1) =>
  match parsePL l1 with
  | (none, l2) => postSlash l2 (some (.corners v1 v1 v1 v1))
  | (some v2, l2) =>
  match parsePL l2 with
  | (none, l3) => postSlash l3 (some (.corners v1 v2 v1 v2))
  | (some v3, l3) =>
  match parsePL l3 with
  | (none, l4) => postSlash l4 (some (.corners v1 v2 v3 v2))
  | (some v4, l4) => postSlash l4 (some (.corners v1 v2 v3 v4))

/-! ## Urls and list-style -/

/-- `parseUrlIntoString`, values/primitives.cpp 142–162: the function has been stepped over when
what is inside turns out not to be a string. -/
def parseUrl : List Tok → Out (List Char)
  | .url s :: r => (some s, r)
  | .func name content :: r =>
    if eqCi name "url(".toList then
      match eatWs content with
      | .str s :: _ => (some s, r)
      | _ => (none, r)
    else (none, .func name content :: r)
  | l => (none, l)

/-- `ListImage`, values/list.cpp 13–14. -/
inductive ListImage where
  | none
  | url (s : List Char)
  deriving DecidableEq, Repr

/-- `ListType`, values/list.cpp 16–17.  A `CounterSymbolsFunc` is never made: its parser compares
a function with a token (values/counter.cpp 48), which are never equal (css/parser.cpp 104–107). -/
inductive ListType where
  | none
  | name (s : List Char)
  | text (s : List Char)
  deriving DecidableEq, Repr

/-- `ListPosition`, values/list.cpp 19–20. -/
inductive ListPosition where
  | inside | outside
  deriving DecidableEq, Repr

/-- The parser of `Union<Keywords::None, Image>`; of images only urls are read
(values/image.cpp 147–152). -/
def parseListImage (l : List Tok) : Out ListImage :=
  match skipIdent "none".toList l with
  | some r => (some .none, r)
  | none =>
    match parseUrl l with
    | (some s, r) => (some (.url s), r)
    | (none, r) => (none, r)

/-- The parser of `Union<Keywords::None, CustomIdent, CounterSymbolsFunc, String>`
(`ValueParser<CustomIdent>`, values/primitives.cpp 119–136, takes any identifier). -/
def parseListType (l : List Tok) : Out ListType :=
  match skipIdent "none".toList l with
  | some r => (some .none, r)
  | none =>
    match l with
    | .ident s :: r => (some (.name s), r)
    | .str s :: r => (some (.text s), r)
    | l => (none, l)

/-- The parser of `Union<Keywords::Inside, Keywords::Outside>`. -/
def parseListPosition (l : List Tok) : Out ListPosition :=
  parseKw [("inside", .inside), ("outside", .outside)] l

/-- `ListStyleProperty::Value`, props/list.cpp 143–152. -/
structure ListStyle where
  image : ListImage
  type : ListType
  position : ListPosition
  deriving DecidableEq, Repr

/-- The loop of `ListStyleProperty::Registration::parse`, props/list.cpp 176–205.  Bounded by
`fuel`: each turn that goes on has read something. -/
def listLoop : Nat → ListStyle → List Tok → Out ListStyle
  | 0, _, l => (none, l)
  | _ + 1, v, [] => (some v, [])
  | n + 1, v, l =>
    match skipIdent "none".toList l with
    | some r => listLoop n { v with type := .none, image := .none } r
    | none =>
    match parseListImage l with
    | (some i, r) => listLoop n { v with image := i } r
    | (none, l1) =>
    match parseListType l1 with
    | (some t, r) => listLoop n { v with type := t } r
    | (none, l2) =>
    match parseListPosition l2 with
    | (some p, r) => listLoop n { v with position := p } r
    | (none, l3) => (none, l3)

/-- `ListStyleProperty::Registration::parse` with the initial values of `Value`,
props/list.cpp 143–152. -/
def parseListStyle (l : List Tok) : Out ListStyle :=
  listLoop (l.length + 1) ⟨.none, .name "disc".toList, .outside⟩ l

/-! ## outline -/

/-- `SpecifiedOutline` without the offset, which the shorthand does not set,
values/outline.cpp 12–17, for any type of colours; `none` is `auto`. -/
structure Outline (κ : Type) where
  width : LineWidth
  style : Option BStyle
  color : Option κ
  deriving DecidableEq, Repr

/-- The loop of `OutlineProperty::Registration::parse`, props/outline.cpp 194–226.  `color` is the
colour parser. -/
def outlineLoop (color : List Tok → Out κ) : Nat → Bool → Outline κ → List Tok → Out (Outline κ)
  | 0, _, v, l => (some v, l)
  | _ + 1, _, v, [] => (some v, [])
  | n + 1, styleSet, v, l =>
    match parseCalcOf parseLen l with
    | (some w, r) => outlineLoop color n styleSet { v with width := .calc w } r
    | (none, l1) =>
    match color l1 with
    | (some c, r) => outlineLoop color n styleSet { v with color := some c } r
    | (none, l2) =>
    match parseStyle l2 with
    | (some s, r) => outlineLoop color n true { v with style := some s } r
    | (none, l3) =>
    match skipIdent "auto".toList l3 with
    | some r =>
      outlineLoop color n styleSet
        { v with style := if styleSet then v.style else none, color := none } r
    | none => (some v, l3)

/-- `OutlineProperty::Registration::parse`, props/outline.cpp 194–226. -/
def parseOutline (color : List Tok → Out κ) (l : List Tok) : Out (Outline κ) :=
  outlineLoop color (l.length + 1) false ⟨.medium, some .none, none⟩ l

/-! ## font -/

/-- `Angle::Unit`, values/angle.cpp. -/
inductive AngleUnit where
  | deg | grad | rad | turn
  deriving DecidableEq, Repr

/-- `_parseAngleUnit`, values/angle.cpp 128–139. -/
def angleNames : List (List Char × AngleUnit) :=
  [("deg".toList, .deg), ("grad".toList, .grad), ("rad".toList, .rad), ("turn".toList, .turn)]

/-- `ValueParser<Angle>::parse`, values/angle.cpp 141–155. -/
def parseAngle : List Tok → Out (Rat × AngleUnit)
  | .dim s :: r =>
    let (v, rest) := (atof s).getD (0, s)
    match valueOfCi angleNames rest with
    | some u => (some (v, u), r)
    | none => (none, .dim s :: r)
  | l => (none, l)

/-- `FontStyle`, values/font.cpp 125–151; `oblique` without an angle has 14 degrees. -/
inductive FStyle where
  | normal | italic
  | oblique (v : Rat) (u : AngleUnit)
  deriving DecidableEq, Repr

/-- `ValueParser<FontStyle>::parse`, values/font.cpp 154–173. -/
def parseFStyle (l : List Tok) : Out FStyle :=
  match skipAny [("normal", FStyle.normal), ("italic", .italic)] l with
  | some (v, r) => (some v, r)
  | none =>
    match skipIdent "oblique".toList l with
    | none => (none, l)
    | some r =>
      match parseAngle r with
      | (some (v, u), r') => (some (.oblique v u), r')
      | (none, r') => (some (.oblique 14 .deg), r')

/-- `FontWeight`, values/font.cpp 175–217. -/
inductive Weight where
  | lighter | bolder
  | abs (n : Int)
  deriving DecidableEq, Repr

/-- `Io::atoi` with `scan.ended()` behind it: a sign, if any, and digits, and nothing else. -/
def wholeInt (s : List Char) : Option Int :=
  let sign := readSign s
  if sign.2.isEmpty || !sign.2.all Char.isDigit then none
  else some (if sign.1 then -(digitsVal sign.2 : Int) else digitsVal sign.2)

/-- `ValueParser<Integer>::parse`, values/primitives.cpp 24–40: a number is stepped over even if
it is not an integer. -/
def parseInteger : List Tok → Out Int
  | .number s :: r => (wholeInt s, r)
  | l => (none, l)

/-- `ValueParser<FontWeight>::parse` and `ValueParser<Gfx::FontWeight>::parse`, values/font.cpp
221–255; `REGULAR` and `BOLD` are 400 and 700. -/
def parseWeight (l : List Tok) : Out Weight :=
  match skipAny [("bolder", Weight.bolder), ("lighter", .lighter), ("normal", .abs 400),
      ("bold", .abs 700)] l with
  | some (v, r) => (some v, r)
  | none =>
    match parseInteger l with
    | (none, r) => (none, r)
    | (some n, r) => if n < 0 ∨ n > 1000 then (none, r) else (some (.abs n), r)

/-- `FontWidth`, a percentage, values/font.cpp 35–93, and its keywords, 101–119. -/
def fwidthKw : List (String × Rat) :=
  [("normal", 100), ("condensed", 75), ("expanded", 125), ("ultra-condensed", 50),
   ("extra-condensed", 125 / 2), ("semi-condensed", 175 / 2), ("semi-expanded", 225 / 2),
   ("extra-expanded", 150), ("ultra-expanded", 200)]

/-- `ValueParser<FontWidth>::parse`, values/font.cpp 95–123. -/
def parseFWidth (l : List Tok) : Out Rat :=
  match skipAny fwidthKw l with
  | some (v, r) => (some v, r)
  | none => parsePercent l

/-- `FontSize`, values/font.cpp 260–271. -/
inductive FSize where
  | length (l : Length)
  | percent (v : Rat)
  | xxSmall | xSmall | small | medium | large | xLarge | xxLarge | smaller | larger
  deriving DecidableEq, Repr

/-- The keywords of `FontSize`, values/font.cpp 263–271, values/defs/keywords.inc. -/
def fsizeKw : List (String × FSize) :=
  [("xx-small", .xxSmall), ("x-small", .xSmall), ("small", .small), ("medium", .medium),
   ("large", .large), ("x-large", .xLarge), ("xx-large", .xxLarge), ("smaller", .smaller),
   ("larger", .larger)]

/-- The parser of `FontSize`: each alternative in turn. -/
def parseFSize (l : List Tok) : Out FSize :=
  match parseLength l with
  | (some v, r) => (some (.length v), r)
  | (none, l1) =>
  match parsePercent l1 with
  | (some v, r) => (some (.percent v), r)
  | (none, l2) => parseKw fsizeKw l2

/-- The words of a family name behind the first one, values/font.cpp 434–439. -/
def moreWords : List Char → List Tok → List Char × List Tok
  | acc, .ident s :: r => moreWords (acc ++ ' ' :: s) (eatWs r)
  | acc, l => (acc, l)
termination_by _ l => l.length
decreasing_by
  have : ∀ r : List Tok, (eatWs r).length ≤ r.length := by
    intro r
    induction r with
    | nil => simp [eatWs]
    | cons t r ih => cases t <;> simp [eatWs]; omega
  have := this r
  simp; omega

/-- `ValueParser<FontFamily>::parse`, values/font.cpp 420–446. -/
def parseFamily : List Tok → Out (List Char)
  | .str s :: r => (some s, r)
  | .ident s :: r => let p := moreWords s (eatWs r); (some p.1, p.2)
  | l => (none, l)

/-- `LineHeight`, values/line-height.cpp 18–33; `normal` is 1.2. -/
inductive LHeight where
  | number (v : Rat)
  | pl (v : PL)
  deriving DecidableEq, Repr

/-- `ValueParser<LineHeight>::parse`, values/line-height.cpp 36–57: a number that cannot be read
is put back. -/
def parseLHeight (l : List Tok) : Out LHeight :=
  match skipIdent "normal".toList l with
  | some r => (some (.number (6 / 5)), r)
  | none =>
    match parseNumber l with
    | (some v, r) => (some (.number v), r)
    | (none, _) =>
      match parsePL l with
      | (some v, r) => (some (.pl v), r)
      | (none, r) => (none, r)

/-- `FontProperty::Value`, props/fonts.cpp 264–281. -/
structure Font where
  family : List Char
  weight : Option Weight
  width : Rat
  style : FStyle
  size : FSize
  deriving DecidableEq, Repr

/-- The loop of `FontProperty::Registration::parse`, props/fonts.cpp 304–330. -/
def fontLoop : Nat → Font → List Tok → Out Font
  | 0, _, l => (none, l)
  | n + 1, v, l =>
    match parseFStyle l with
    | (some s, r) => fontLoop n { v with style := s } r
    | (none, l1) =>
    match parseWeight l1 with
    | (some w, r) => fontLoop n { v with weight := some w } r
    | (none, l2) =>
    match parseFWidth l2 with
    | (some w, r) => fontLoop n { v with width := w } r
    | (none, l3) =>
    match parseFSize l3 with
    | (some s, r) => (some { v with size := s }, r)
    | (none, l4) => (none, l4)

/-- `c.skip(Css::Token::delim("/"))` and the line height behind it, whose value is dropped,
props/fonts.cpp 332–335. -/
def skipLHeight : List Tok → List Tok
  | .delim s :: r => if s = ['/'] then (parseLHeight r).2 else .delim s :: r
  | l => l

/-- `FontProperty::Registration::parse`, props/fonts.cpp 300–340. -/
def parseFont (l : List Tok) : Out Font :=
  match fontLoop (l.length + 1) ⟨"sans-serif".toList, none, 100, .normal, .medium⟩ l with
  | (none, l1) => (none, l1)
  | (some v, l1) =>
    match parseFamily (skipLHeight l1) with
    | (none, l2) => (none, l2)
    | (some f, l2) => (some { v with family := f }, l2)

/-- The longhands a `font` declaration stands for: `expandShorthand`, props/fonts.cpp 348–358.
`weight` is there only if it was given. -/
inductive Longhand where
  | style (s : FStyle)
  | width (w : Rat)
  | size (s : FSize)
  | family (f : List Char)
  | weight (w : Weight)
  deriving DecidableEq, Repr

def Font.expand (v : Font) : List Longhand :=
  [.style v.style, .width v.width, .size v.size, .family v.family] ++
    match v.weight with
    | some w => [.weight w]
    | none => []

/-! ## Font sources -/

/-- `FontSource`, values/font.cpp 402–417. -/
inductive Source where
  | url (s : List Char) (format : Option (List Char))
  | local (family : List Char)
  deriving DecidableEq, Repr

/-- style/fonts.cpp 137–143 -/
def formatNames : List String :=
  ["collection", "opentype", "svg", "truetype", "embedded-opentype", "woff", "woff2"]

/-- What is inside `format(…)`, style/fonts.cpp 127–146: `none` if it is empty; a format that is
neither a string nor a known word is left out. -/
def formatOf (content : List Tok) : Option (Option (List Char)) :=
  match eatWs content with
  | [] => none
  | .str s :: _ => some (some s)
  | .ident s :: _ => some (if formatNames.any (fun k => eqCi s k.toList) then some s else none)
  | _ => some none

/-- The `format(…)` of a source, if there is one, style/fonts.cpp 126–147. -/
def formatPart : List Tok → Option (Option (List Char)) × List Tok
  | .func name content :: r =>
    if eqCi name "format(".toList then (formatOf content, r)
    else (some none, .func name content :: r)
  | l => (some none, l)

/-- `SrcFontDescriptor::parse`, style/fonts.cpp 118–165.  `tech(…)` is looked at and left
(151–153). -/
def srcLoop : Nat → List Source → List Tok → Out (List Source)
  | 0, _, l => (none, l)
  | n + 1, acc, l =>
    match eatWs l with
    | [] => (none, [])
    | .func name content :: r =>
      if eqCi name "local(".toList then
        match parseFamily content with
        | (none, _) => (none, r)
        | (some f, _) => srcLoop n (acc ++ [.local f]) r
      else source n acc (.func name content :: r)
    | l => source n acc l
where
  /-- A source that is not `local(…)`, and what comes behind it. -/
  source (n : Nat) (acc : List Source) (l : List Tok) : Out (List Source) :=
    match parseUrl l with
    | (none, l1) => (none, l1)
    | (some s, l1) =>
      match formatPart (eatWs l1) with
      | (none, l2) => (none, l2)
      | (some f, l2) =>
        match eatWs l2 with
        | [] => (some (acc ++ [.url s f]), [])
        | .comma :: l3 => srcLoop n (acc ++ [.url s f]) l3
        | l3 => (none, l3)

/-- `SrcFontDescriptor::parse`. -/
def parseSrc (l : List Tok) : Out (List Source) := srcLoop (l.length + 1) [] l

/-! ## Positions -/

/-- What a position is made of, values/background.cpp 82: the anchors and the offsets. -/
inductive Item where
  | left | center | right | top | bottom
  | offset (c : Calc)
  deriving DecidableEq, Repr

/-- `BackgroundPosition::HorizontalAnchor`, values/background.cpp 42. -/
inductive HAnchor where
  | left | center | right
  deriving DecidableEq, Repr

/-- `BackgroundPosition::VerticalAnchor`, values/background.cpp 43. -/
inductive VAnchor where
  | top | center | bottom
  deriving DecidableEq, Repr

/-- `BackgroundPosition`, values/background.cpp 41–72. -/
structure Position where
  h : HAnchor
  x : Calc
  v : VAnchor
  y : Calc
  deriving DecidableEq, Repr

/-- `Percent(0)` as a `CalcValue`. -/
def zero : Calc := .one (.val (.percent 0))

/-- The parser of `Item`, each alternative in turn. -/
def parseItem (l : List Tok) : Out Item :=
  match skipAny [("left", Item.left), ("center", .center), ("right", .right), ("top", .top),
      ("bottom", .bottom)] l with
  | some (v, r) => (some v, r)
  | none =>
    match parseCalc l with
    | (some c, r) => (some (.offset c), r)
    | (none, r) => (none, r)

/-- Up to `n` items, values/background.cpp 84–93. -/
def items : Nat → List Tok → List Item × List Tok
  | 0, l => ([], l)
  | _ + 1, [] => ([], [])
  | n + 1, l =>
    match parseItem (eatWs l) with
    | (none, r) => ([], eatWs r)
    | (some i, r) => let p := items n (eatWs r); (i :: p.1, p.2)

/-- Two items, values/background.cpp 105–149. -/
def twoItems (a b : Item) : Option Position :=
  let (a, b) := if a = .center ∧ (b = .left ∨ b = .right) then (b, a) else (a, b)
  let horizontal : Option (HAnchor × Calc) :=
    match a with
    | .left => some (.left, zero)
    | .right => some (.right, zero)
    | .center => some (.center, zero)
    | .offset c => some (.left, c)
    | _ => none
  let vertical : Option (VAnchor × Calc) :=
    match b with
    | .bottom => some (.bottom, zero)
    | .top => some (.top, zero)
    | .center => some (.center, zero)
    | .offset c => some (.top, c)
    | _ => none
  match horizontal, vertical with
  | some (h, x), some (v, y) => some ⟨h, x, v, y⟩
  | _, _ => none

/-- The offset behind an anchor of the second pair, values/background.cpp 204–210 and 217–223:
nothing leaves the one there is; something that is not an offset is an error. -/
def secondOffset (old : Calc) : List Item → Option Calc
  | [] => some old
  | .offset c :: _ => some c
  | _ :: _ => none

/-- The second pair of three or four items, values/background.cpp 190–232: what is known so far
(`hSet`, and the position with the values it would have), and the items from the second pair on. -/
def secondPair (hSet : Bool) (p : Position) : List Item → Option Position
  | [] => none
  | .left :: r => side .left r
  | .right :: r => side .right r
  | .top :: r => (secondOffset p.y r).map fun y => { p with v := .top, y }
  | .bottom :: r => (secondOffset p.y r).map fun y => { p with v := .bottom, y }
  | .center :: r => (secondOffset p.y r).map fun y => { p with v := .center, y }
  | .offset _ :: _ => none
where
  /-- `left` or `right` as the second anchor, values/background.cpp 192–212. -/
  side (t : HAnchor) (r : List Item) : Option Position :=
    if hSet then
      if p.h = .center then
        (secondOffset p.x r).map fun x => { p with v := .center, y := p.x, h := t, x }
      else none
    else (secondOffset p.x r).map fun x => { p with h := t, x }

/-- Three or four items, values/background.cpp 151–234. -/
def moreItems (a b : Item) (r : List Item) : Option Position :=
  let start : Position := ⟨.left, zero, .top, zero⟩
  match a with
  | .left => horizontal .left
  | .right => horizontal .right
  | .center => secondPair true { start with h := .center } (b :: r)
  | .top => vertical .top
  | .bottom => vertical .bottom
  | .offset _ => none
where
  /-- values/background.cpp 162–171 -/
  horizontal (t : HAnchor) : Option Position :=
    match b with
    | .offset c => secondPair true ⟨t, c, .top, zero⟩ r
    | _ => secondPair true ⟨t, zero, .top, zero⟩ (b :: r)
  /-- values/background.cpp 178–185 -/
  vertical (t : VAnchor) : Option Position :=
    match b with
    | .offset c => secondPair false ⟨.left, zero, t, c⟩ r
    | _ => secondPair false ⟨.left, zero, t, zero⟩ (b :: r)

/-- The position some items make, values/background.cpp 95–234. -/
def positionOf : List Item → Option Position
  | [] => none
  | [a] => if a = .bottom ∨ a = .top then twoItems .center a else twoItems a .center
  | [a, b] => twoItems a b
  | a :: b :: r => moreItems a b r

/-- `ValueParser<BackgroundPosition>::parse`, values/background.cpp 75–235.  The items have been
stepped over whether they make a position or not. -/
def parsePosition (l : List Tok) : Out Position :=
  let p := items 4 l
  (positionOf p.1, p.2)

/-- `ShapeRadius`, values/basic-shape.cpp: a side, or a length. -/
inductive Radius where
  | closestSide | farthestSide
  | calc (c : Calc)
  deriving DecidableEq, Repr

/-- `Circle`, values/basic-shape.cpp 61–69. -/
structure Circle where
  radius : Radius
  position : Position
  deriving DecidableEq, Repr

/-- The parser of `ShapeRadius`, values/basic-shape.cpp 53–56: a length first. -/
def parseRadius (l : List Tok) : Out Radius :=
  match parseCalc l with
  | (some c, r) => (some (.calc c), r)
  | (none, l1) => parseKw [("closest-side", .closestSide), ("farthest-side", .farthestSide)] l1

/-- values/basic-shape.cpp 63 -/
def middle : Position := ⟨.center, zero, .center, zero⟩

/-- `at` and the position behind it, values/basic-shape.cpp 84–91: a position that cannot be read
leaves the one there is, but what was read of it has been stepped over. -/
def atPosition (l : List Tok) : Position × List Tok :=
  match skipIdent "at".toList (eatWs l) with
  | none => (middle, eatWs l)
  | some r =>
    match parsePosition (eatWs r) with
    | (some p, r') => (p, eatWs r')
    | (none, r') => (middle, eatWs r')

/-- The radius of a circle, values/basic-shape.cpp 79–82; the nearest side if there is none. -/
def radiusPart (l : List Tok) : Radius × List Tok :=
  match parseRadius l with
  | (some v, l1) => (v, l1)
  | (none, l1) => (.closestSide, l1)

/-- `ValueParser<Circle>::parse`, values/basic-shape.cpp 71–102. -/
def parseCircle : List Tok → Out Circle
  | .func name content :: r =>
    if eqCi name "circle(".toList then
      match atPosition (radiusPart content).2 with
      | (p, []) => (some ⟨(radiusPart content).1, p⟩, r)
      | _ => (none, .func name content :: r)
    else (none, .func name content :: r)
  | l => (none, l)

end Verif.Short
