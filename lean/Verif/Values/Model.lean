/-!
# Values: colours, lengths, `calc()`, `display` and the shorthands of four sides

Model of the value parsers of `src/vaev-engine/values`.  A parser works on a cursor over
component values and says whether it found a value; the cursor may have moved even when it did
not, so a parser here returns the value, if any, and what is left of the input.

Numbers are exact rationals: the rounding of `f64`/`float` is not modelled.  `Karm::Io::atof`,
`atou`, `Au::fromFloatNearest` and `Math::round` are not in the repository; what is assumed of
them is said where they appear.
-/

namespace Verif.Values

/-- A component value, as far as the value parsers look at it (css/parser.cpp 60–107,
css/lexer.cpp 26–87).  A token keeps its text; `func` is a function with its name (the text up
to and with the `(`) and contents; `str` is a string and `url` an unquoted `url(…)`, each with
what is written inside; everything else (blocks, bad strings, …) is `other`. -/
inductive Tok where
  | ident (s : List Char)
  | number (s : List Char)
  | dim (s : List Char)
  | percent (s : List Char)
  | hash (s : List Char)
  | delim (s : List Char)
  | comma
  | ws
  | func (name : List Char) (content : List Tok)
  | str (s : List Char)
  | url (s : List Char)
  | other
  deriving Repr

/-- What a parser returns: the value, if it found one, and the rest of the input
(`Res<T> parse(Cursor<Css::Sst>& c)`, values/base.cpp 31–34). -/
abbrev Out (α : Type) := Option α × List Tok

/-- `eqCi` of Karm, for ASCII letters: equal up to the case of letters. -/
def eqCi (a b : List Char) : Bool := a.map Char.toLower == b.map Char.toLower

/-- `c.skip(Css::Token::ident(k))` (css/lexer.cpp 84–86, css/parser.cpp 104–107): the next value
is an identifier that is `k` up to case; if so, step over it. -/
def skipIdent (k : List Char) : List Tok → Option (List Tok)
  | .ident s :: r => if eqCi s k then some r else none
  | _ => none

/-- `eatWhitespace`: step over whitespace (used throughout the value parsers; for a cursor over
component values, css/parser.cpp). -/
def eatWs : List Tok → List Tok
  | .ws :: r => eatWs r
  | l => l

/-! ## Hex colours -/

/-- `Gfx::Color`: four bytes. -/
structure Rgba where
  r : Nat
  g : Nat
  b : Nat
  a : Nat
  deriving DecidableEq, Repr

/-- Conversion to `u8`. -/
def u8 (n : Nat) : Nat := n % 256

/-- `_parseHexColor`, values/color.cpp 258–295.  `atou` is `Io::atou(…, {.base = 16})` on a
slice, `none` when it fails; `nextHex` is `unwrapOr(0)` of it.  The text is that of a HASH token,
which begins with `#`; a text that does not is a panic in the code and `none` here (no HASH token
is such, css/lexer.cpp).  `r | (r << 4)` is `r ||| (r <<< 4)`. -/
def hexColor (atou : List Char → Option Nat) (text : List Char) : Option Rgba :=
  match text with
  | '#' :: s =>
    let nextHex (i len : Nat) : Nat := (atou ((s.drop i).take len)).getD 0
    let twice (n : Nat) : Nat := u8 (n ||| (n <<< 4))
    if s.length = 3 then
      some ⟨twice (nextHex 0 1), twice (nextHex 1 1), twice (nextHex 2 1), 255⟩
    else if s.length = 4 then
      some ⟨twice (nextHex 0 1), twice (nextHex 1 1), twice (nextHex 2 1), twice (nextHex 3 1)⟩
    else if s.length = 6 then
      some ⟨u8 (nextHex 0 2), u8 (nextHex 2 2), u8 (nextHex 4 2), 255⟩
    else if s.length = 8 then
      some ⟨u8 (nextHex 0 2), u8 (nextHex 2 2), u8 (nextHex 4 2), u8 (nextHex 6 2)⟩
    else none
  | _ => none

/-! ## Numbers -/

/-- The digits at the beginning of a text. -/
def digitsOf (s : List Char) : List Char := s.takeWhile Char.isDigit

/-- The number written by decimal digits. -/
def digitsVal (s : List Char) : Nat := s.foldl (fun n c => 10 * n + (c.toNat - 48)) 0

/-- The sign at the beginning of a number, if any: whether it is a minus, and the rest. -/
def readSign : List Char → Bool × List Char
  | '-' :: r => (true, r)
  | '+' :: r => (false, r)
  | r => (false, r)

/-- A point followed by digits, if any: the digits, and the rest. -/
def readFrac : List Char → List Char × List Char
  | '.' :: r =>
    if (digitsOf r).isEmpty then ([], '.' :: r) else (digitsOf r, r.drop (digitsOf r).length)
  | r => ([], r)

/-- `Io::atof(scan, {.allowExp = false})`: a sign, digits, and a point with digits, each
optional, but at least one digit; the number and the rest of the text.  Karm is not in the
repository; this is what its callers rely on.  Exact, where the code rounds to `f64`. -/
def atof (s : List Char) : Option (Rat × List Char) :=
  let sign := readSign s
  let whole := digitsOf sign.2
  let frac := readFrac (sign.2.drop whole.length)
  if whole.isEmpty && frac.1.isEmpty then none
  else
    let v : Rat := (digitsVal whole : Rat) + (digitsVal frac.1 : Rat) / (10 ^ frac.1.length : Nat)
    some (if sign.1 then -v else v, frac.2)

/-! ## Lengths -/

/-- `AbsoluteLength::Unit`, values/length.cpp 318–325, values/defs/absolute-lengths.inc. -/
inductive AbsUnit where
  | cm | mm | q | «in» | pt | pc | px
  deriving DecidableEq, Repr

/-- `RelativeLength::Unit`, values/length.cpp 34–41, values/defs/relative-lengths.inc. -/
inductive RelUnit where
  | em | rem | ex | rex | cap | rcap | ch | rch | ic | ric | lh | rlh
  | vw | svw | lvw | dvw | vh | svh | lvh | dvh | vi | svi | lvi | dvi | vb | svb | lvb | dvb
  | vmin | svmin | lvmin | dvmin | vmax | svmax | lvmax | dvmax
  deriving DecidableEq, Repr

/-- The names of the absolute units, in the order of values/defs/absolute-lengths.inc. -/
def absNames : List (List Char × AbsUnit) :=
  [("CM".toList, .cm), ("MM".toList, .mm), ("Q".toList, .q), ("IN".toList, .in),
   ("PT".toList, .pt), ("PC".toList, .pc), ("PX".toList, .px)]

/-- The names of the relative units, in the order of values/defs/relative-lengths.inc. -/
def relNames : List (List Char × RelUnit) :=
  [("EM".toList, .em), ("REM".toList, .rem), ("EX".toList, .ex), ("REX".toList, .rex),
   ("CAP".toList, .cap), ("RCAP".toList, .rcap), ("CH".toList, .ch), ("RCH".toList, .rch),
   ("IC".toList, .ic), ("RIC".toList, .ric), ("LH".toList, .lh), ("RLH".toList, .rlh),
   ("VW".toList, .vw), ("SVW".toList, .svw), ("LVW".toList, .lvw), ("DVW".toList, .dvw),
   ("VH".toList, .vh), ("SVH".toList, .svh), ("LVH".toList, .lvh), ("DVH".toList, .dvh),
   ("VI".toList, .vi), ("SVI".toList, .svi), ("LVI".toList, .lvi), ("DVI".toList, .dvi),
   ("VB".toList, .vb), ("SVB".toList, .svb), ("LVB".toList, .lvb), ("DVB".toList, .dvb),
   ("VMIN".toList, .vmin), ("SVMIN".toList, .svmin), ("LVMIN".toList, .lvmin),
   ("DVMIN".toList, .dvmin), ("VMAX".toList, .vmax), ("SVMAX".toList, .svmax),
   ("LVMAX".toList, .lvmax), ("DVMAX".toList, .dvmax)]

/-- `valueOfCi` of Karm: the first name that is the text up to case. -/
def valueOfCi (names : List (List Char × α)) (s : List Char) : Option α :=
  (names.find? fun p => eqCi s p.1).map (·.2)

/-- `Length`, values/length.cpp 424–436. -/
inductive Length where
  | abs (v : Rat) (u : AbsUnit)
  | rel (v : Rat) (u : RelUnit)
  deriving DecidableEq, Repr

/-- `ValueParser<AbsoluteLength>::parse`, values/length.cpp 405–418: the cursor moves only on
success; a text with no number counts as 0 (`unwrapOr(0.0)`; `atof` leaves the text as it was). -/
def parseAbs : List Tok → Out Length
  | .dim s :: r =>
    let (v, rest) := (atof s).getD (0, s)
    match valueOfCi absNames rest with
    | some u => (some (.abs v u), r)
    | none => (none, .dim s :: r)
  | l => (none, l)

/-- `ValueParser<RelativeLength>::parse`, values/length.cpp 299–312. -/
def parseRel : List Tok → Out Length
  | .dim s :: r =>
    let (v, rest) := (atof s).getD (0, s)
    match valueOfCi relNames rest with
    | some u => (some (.rel v u), r)
    | none => (none, .dim s :: r)
  | l => (none, l)

/-- `ValueParser<Length>::parse`, values/length.cpp 457–477. -/
def parseLength : List Tok → Out Length
  | .number s :: r => if eqCi s "0".toList then (some (.abs 0 .px), r) else (none, .number s :: r)
  | .dim s :: r =>
    match parseAbs (.dim s :: r) with
    | (some v, r') => (some v, r')
    | (none, l) => parseRel l
  | l => (none, l)

/-- `AbsoluteLength::pixels`, values/length.cpp 349–374. -/
def pixels (v : Rat) : AbsUnit → Rat
  | .cm => v * 96 / (254 / 100)
  | .mm => v * 96 / (254 / 10)
  | .q => v * 96 / (1016 / 10)
  | .in => v * 96
  | .pt => v * 96 / 72
  | .pc => v * 96 / 6
  | .px => v

/-- `RelativeLengthContextData`, values/length.cpp 79–104. -/
structure Ctx where
  fontSize : Rat
  xHeight : Rat
  capHeight : Rat
  zeroAdvance : Rat
  lineHeight : Rat
  rootFontSize : Rat
  rootXHeight : Rat
  rootCapHeight : Rat
  rootZeroAdvance : Rat
  rootLineHeight : Rat
  smallWidth : Rat
  smallHeight : Rat
  largeWidth : Rat
  largeHeight : Rat
  dynamicWidth : Rat
  dynamicHeight : Rat
  /-- `boxAxis == Axis::HORIZONTAL` -/
  horizontal : Bool

/-- `resolve(RelativeLength, ctx)`, values/length.cpp 134–290.  `near` is
`Au::fromFloatNearest`. -/
def resolveRel (near : Rat → Int) (c : Ctx) (v : Rat) : RelUnit → Int
  | .em => near (v * c.fontSize)
  | .rem => near (v * c.rootFontSize)
  | .ex => near (v * c.xHeight)
  | .rex => near (v * c.rootXHeight)
  | .cap => near (v * c.capHeight)
  | .rcap => near (v * c.rootCapHeight)
  | .ch => near (v * c.zeroAdvance)
  | .rch => near (v * c.rootZeroAdvance)
  | .ic => near (v * c.zeroAdvance)
  | .ric => near (v * c.rootZeroAdvance)
  | .lh => near (v * c.lineHeight)
  | .rlh => near (v * c.rootLineHeight)
  | .vw | .lvw => near (v * c.largeWidth / 100)
  | .svw => near (v * c.smallWidth / 100)
  | .dvw => near (v * c.dynamicWidth / 100)
  | .vh | .lvh => near (v * c.largeHeight / 100)
  | .svh => near (v * c.smallHeight / 100)
  | .dvh => near (v * c.dynamicHeight / 100)
  | .vi | .lvi =>
    if c.horizontal then near (v * c.largeWidth / 100) else near (v * c.largeHeight / 100)
  | .svi =>
    if c.horizontal then near (v * c.smallWidth / 100) else near (v * c.smallHeight / 100)
  | .dvi =>
    if c.horizontal then near (v * c.dynamicWidth / 100) else near (v * c.dynamicHeight / 100)
  | .vb | .lvb =>
    if !c.horizontal then near (v * c.largeWidth / 100) else near (v * c.largeHeight / 100)
  | .svb =>
    if !c.horizontal then near (v * c.smallWidth / 100) else near (v * c.smallHeight / 100)
  | .dvb =>
    if !c.horizontal then near (v * c.dynamicWidth / 100) else near (v * c.dynamicHeight / 100)
  | .vmin | .lvmin => min (near (v * c.largeWidth / 100)) (near (v * c.largeHeight / 100))
  | .svmin => min (near (v * c.smallWidth / 100)) (near (v * c.smallHeight / 100))
  | .dvmin => min (near (v * c.dynamicWidth / 100)) (near (v * c.dynamicHeight / 100))
  | .vmax | .lvmax => max (near (v * c.largeWidth / 100)) (near (v * c.largeHeight / 100))
  | .dvmax => max (near (v * c.dynamicWidth / 100)) (near (v * c.dynamicHeight / 100))
  | .svmax => max (near (v * c.smallWidth / 100)) (near (v * c.smallHeight / 100))

/-- `resolve(Length, ctx)`, values/length.cpp 446–455 and 394–396. -/
def resolveLength (near : Rat → Int) (c : Ctx) : Length → Int
  | .rel v u => resolveRel near c v u
  | .abs v u => near (pixels v u)

/-! ## Percentages and calc() -/

/-- `PercentOr<Length>`, values/percent.cpp 35–36. -/
inductive PL where
  | percent (v : Rat)
  | length (l : Length)
  deriving DecidableEq, Repr

/-- `ValueParser<Percent>::parse`, values/percent.cpp 19–33. -/
def parsePercent : List Tok → Out Rat
  | .percent s :: r => (some ((atof s).map (·.1) |>.getD 0), r)
  | l => (none, l)

/-- The parser of `Union<Percent, Length>`: each alternative in turn
(`ValueParser<Union<Ts...>>`, values/primitives.cpp 175–185). -/
def parsePL (l : List Tok) : Out PL :=
  match parsePercent l with
  | (some v, r) => (some (.percent v), r)
  | (none, r) =>
    match parseLength r with
    | (some v, r') => (some (.length v), r')
    | (none, r') => (none, r')

/-- `CalcOp`, values/calc.cpp 18–30; the unary ones are never made. -/
inductive Op where
  | add | sub | mul | div
  deriving DecidableEq, Repr

/-- `CalcValue<PercentOr<Length>>::Value`, values/calc.cpp 38–41; `Leaf` is never made by the
parser. -/
inductive Operand where
  | val (v : PL)
  | num (v : Rat)
  deriving DecidableEq, Repr

/-- `CalcValue<PercentOr<Length>>`, values/calc.cpp 34–79. -/
inductive Calc where
  | one (v : Operand)
  | two (op : Op) (lhs rhs : Operand)
  deriving DecidableEq, Repr

/-- `ValueParser<Number>::parse`, values/primitives.cpp 57–70 (the exponent, which `atof` would
accept here, is not modelled). -/
def parseNumber : List Tok → Out Rat
  | .number s :: r => ((atof s).map (·.1), r)
  | l => (none, l)

/-- `parseVal`, values/calc.cpp 245–254; `p` is the parser of `T`. -/
def parseVal (p : List Tok → Out PL) : List Tok → Out Operand
  | .number s :: r =>
    match parseNumber (.number s :: r) with
    | (some v, r') => (some (.num v), r')
    | (none, r') => (none, r')
  | l =>
    match p l with
    | (some v, r) => (some (.val v), r)
    | (none, r) => (none, r)

/-- The operator a token's text names, values/calc.cpp 229–241.  Only delimiters have such a
text. -/
def opOf (s : List Char) : Option Op :=
  if s = ['+'] then some .add
  else if s = ['-'] then some .sub
  else if s = ['*'] then some .mul
  else if s = ['/'] then some .div
  else none

/-- `parseOp`, values/calc.cpp 220–243. -/
def parseOp : List Tok → Out Op
  | .ws :: r => parseOp r
  | .delim s :: r =>
    match opOf s with
    | some o => (some o, r)
    | none => (none, .delim s :: r)
  | l => (none, l)

/-- `ValueParser<CalcValue<T>>::parse`, values/calc.cpp 190–218; `p` is the parser of `T`, which
is `PercentOr<Length>` or `Length`.  The name is compared with its case; what is left of the
contents is not looked at. -/
def parseCalcOf (p : List Tok → Out PL) : List Tok → Out Calc
  | .func name content :: r =>
    if name = "calc(".toList then
      match parseVal p content with
      | (none, _) => (none, .func name content :: r)
      | (some lhs, c1) =>
        match parseOp c1 with
        | (none, _) => (some (.one lhs), r)
        | (some op, c2) =>
          match parseVal p (eatWs c2) with
          | (none, _) => (none, .func name content :: r)
          | (some rhs, _) => (some (.two op lhs rhs), r)
    else (none, .func name content :: r)
  | l =>
    match p l with
    | (some v, r) => (some (.one (.val v)), r)
    | (none, r) => (none, r)

/-- `parseValue<CalcValue<PercentOr<Length>>>`. -/
def parseCalc (l : List Tok) : Out Calc := parseCalcOf parsePL l

/-- `Length` as a `PercentOr<Length>`, to share the type of `calc` values. -/
def parseLen (l : List Tok) : Out PL :=
  match parseLength l with
  | (some v, r) => (some (.length v), r)
  | (none, r) => (none, r)

/-- `resolve` of one operand, values/calc.cpp 156–168 and values/percent.cpp 43–48: a value in
pixels.  The code rounds each operand to 1/64 px first; here operands and result are exact. -/
def operandPx (px : Length → Rat) (relative : Rat) : Operand → Rat
  | .val (.percent v) => relative * (v / 100)
  | .val (.length l) => px l
  | .num v => v

/-- `_resolveInfix` and `resolve`, values/calc.cpp 124–188.  Division by zero gives an infinity
in the code and `none` here. -/
def resolveCalc (px : Length → Rat) (relative : Rat) : Calc → Option Rat
  | .one v => some (operandPx px relative v)
  | .two op l r =>
    let l := operandPx px relative l
    let r := operandPx px relative r
    match op with
    | .add => some (l + r)
    | .sub => some (l - r)
    | .mul => some (l * r)
    | .div => if r = 0 then none else some (l / r)

/-! ## display -/

/-- `Display::Box`, `Internal`, `Inside`, `Outside`: values/display.cpp 20–87. -/
inductive BoxD where
  | contents | none
  deriving DecidableEq, Repr
inductive Internal where
  | rowGroup | headerGroup | footerGroup | row | cell | columnGroup | column | caption | tableBox
  | rubyBase | rubyText | rubyBaseContainer | rubyTextContainer
  deriving DecidableEq, Repr
inductive Inside where
  | flow | flowRoot | flex | grid | ruby | table | math
  deriving DecidableEq, Repr
inductive Outside where
  | block | inline | runIn
  deriving DecidableEq, Repr

/-- `Display`, values/display.cpp 19–129. -/
inductive Display where
  | box (b : BoxD)
  | internal (i : Internal)
  | default (inside : Inside) (outside : Outside) (item : Bool)
  deriving DecidableEq, Repr

/-- Try the keywords of a table in order: a chain of `if (c.skip(ident(k))) return v`. -/
def skipAny (table : List (String × α)) (l : List Tok) : Option (α × List Tok) :=
  match table with
  | [] => none
  | (k, v) :: t =>
    match skipIdent k.toList l with
    | some r => some (v, r)
    | none => skipAny t l

/-- `_parseLegacyDisplay`, values/display.cpp 331–339. -/
def legacyKw : List (String × Display) :=
  [("inline-block", .default .flowRoot .inline false),
   ("inline-table", .default .table .inline false),
   ("inline-flex", .default .flex .inline false),
   ("inline-grid", .default .grid .inline false)]
/-- `_parseBoxDisplay`, values/display.cpp 419–423. -/
def boxKw : List (String × Display) := [("contents", .box .contents), ("none", .box .none)]
/-- `_parseInternalDisplay`, values/display.cpp 386–410. -/
def internalKw : List (String × Display) :=
  [("table-row-group", .internal .rowGroup), ("table-header-group", .internal .headerGroup),
   ("table-footer-group", .internal .footerGroup), ("table-row", .internal .row),
   ("table-cell", .internal .cell), ("table-column-group", .internal .columnGroup),
   ("table-column", .internal .column), ("table-caption", .internal .caption),
   ("ruby-base", .internal .rubyBase), ("ruby-text", .internal .rubyText),
   ("ruby-base-container", .internal .rubyBaseContainer),
   ("ruby-text-container", .internal .rubyTextContainer)]
/-- `_parseInsideDisplay`, values/display.cpp 363–377. -/
def insideKw : List (String × Inside) :=
  [("flow", .flow), ("flow-root", .flowRoot), ("flex", .flex), ("grid", .grid), ("ruby", .ruby),
   ("table", .table), ("math", .math)]
/-- `_parseOutsideDisplay`, values/display.cpp 348–354. -/
def outsideKw : List (String × Outside) :=
  [("block", .block), ("inline", .inline), ("run-in", .runIn)]

/-- values/display.cpp 443 -/
def itemKw : List Char := "list-item".toList

/-- An optional part: the value and the rest, or nothing and the same input. -/
def opt (p : Option (α × List Tok)) (l : List Tok) : Option α × List Tok :=
  match p with
  | some (v, r) => (some v, r)
  | none => (none, l)

/-- `ValueParser<Display>::parse`, values/display.cpp 428–455. -/
def parseDisplay (l : List Tok) : Out Display :=
  match skipAny legacyKw l with
  | some (d, r) => (some d, r)
  | none =>
  match skipAny boxKw l with
  | some (d, r) => (some d, r)
  | none =>
  match skipAny internalKw l with
  | some (d, r) => (some d, r)
  | none =>
    let (inside, l1) := opt (skipAny insideKw l) l
    let (outside, l2) := opt (skipAny outsideKw l1) l1
    let (item, l3) := match skipIdent itemKw l2 with
      | some r => (true, r)
      | none => (false, l2)
    if inside.isNone && outside.isNone && !item then (none, l3)
    else (some (.default (inside.getD .flow) (outside.getD .block) item), l3)

/-- `Display::blockify`, values/display.cpp 271–299.  For an internal display the code copies
`_item`, a byte of the union that was never written: `junk` is what it finds there. -/
def blockify (junk : Bool) : Display → Display
  | .box b => .box b
  | .internal _ => .default .flow .block junk
  | .default i .block item => .default i .block item
  | .default .flowRoot _ item => .default .flow .block item
  | .default i _ item => .default i .block item

/-- `Display::inlinify`, values/display.cpp 302–322. -/
def inlinify : Display → Display
  | .default i .inline item => .default i .inline item
  | .default .flow _ _ => .default .flow .block false
  | .default i _ item => .default i .block item
  | d => d

/-! ## Shorthands of four sides -/

/-- `Math::Insets<T>` with its constructors (Karm): one value for all sides; vertical and
horizontal; top, horizontal and bottom; top, right, bottom and left.  Not in the repository. -/
structure Sides (α : Type) where
  top : α
  right : α
  bottom : α
  left : α
  deriving DecidableEq, Repr

/-- `ValueParser<Math::Insets<T>>::parse`, values/insets.cpp 65–89, for any parser of one
value. -/
def parseSides (p : List Tok → Out α) (l : List Tok) : Out (Sides α) :=
  if l.isEmpty then (none, l) else
  match p l with
  | (none, l1) => (none, l1)
  | (some t, l1) =>
  match p l1 with
  | (none, l2) => (some ⟨t, t, t, t⟩, l2)
  | (some r, l2) =>
  match p l2 with
  | (none, l3) => (some ⟨t, r, t, r⟩, l3)
  | (some b, l3) =>
  match p l3 with
  | (none, l4) => (some ⟨t, r, b, r⟩, l4)
  | (some f, l4) => (some ⟨t, r, b, f⟩, l4)

/-- `Width`, values/width.cpp 14–16: `auto` or a `calc` value. -/
inductive Width where
  | auto
  | calc (c : Calc)
  deriving DecidableEq, Repr

/-- The parser of `FlatUnion<Keywords::Auto, CalcValue<PercentOr<Length>>>`
(values/keywords.cpp 24–37). -/
def parseWidth (l : List Tok) : Out Width :=
  match skipIdent "auto".toList l with
  | some r => (some .auto, r)
  | none =>
    match parseCalc l with
    | (some c, r) => (some (.calc c), r)
    | (none, r) => (none, r)

/-- `_parseDeclaration`, style/decls.cpp 26–37: the value of a declaration is what the parser
makes of the contents, all of which it must have read. -/
def declared (p : List Tok → Out α) (l : List Tok) : Option α :=
  match p (eatWs l) with
  | (some v, []) => some v
  | _ => none

/-! ## The border shorthand -/

/-- `LineWidth`, values/line-width.cpp 26–30. -/
inductive LineWidth where
  | thin | medium | thick
  | calc (c : Calc)
  deriving DecidableEq, Repr

/-- `ValueParser<LineWidth>::parse`, values/line-width.cpp 49–70: `CalcValue<Length>` reads no
percentages. -/
def parseLineWidth (l : List Tok) : Out LineWidth :=
  match skipAny [("thin", LineWidth.thin), ("medium", .medium), ("thick", .thick)] l with
  | some (v, r) => (some v, r)
  | none =>
    match parseCalcOf parseLen l with
    | (some c, r) => (some (.calc c), r)
    | (none, r) => (none, r)

/-- `Gfx::BorderStyle` and its keywords, values/borders.cpp 20–47. -/
inductive BStyle where
  | none | solid | dashed | dotted | hidden | double | groove | ridge | outset
  deriving DecidableEq, Repr
def styleKw : List (String × BStyle) :=
  [("none", .none), ("solid", .solid), ("dashed", .dashed), ("dotted", .dotted),
   ("hidden", .hidden), ("double", .double), ("groove", .groove), ("ridge", .ridge),
   ("outset", .outset)]

/-- `ValueParser<Gfx::BorderStyle>::parse`, values/borders.cpp 19–47. -/
def parseStyle (l : List Tok) : Out BStyle :=
  match skipAny styleKw l with
  | some (v, r) => (some v, r)
  | none => (none, l)

/-- `SpecifiedBorder`, values/borders.cpp 51–59, for any type of colours. -/
structure Border (κ : Type) where
  width : LineWidth
  style : BStyle
  color : κ
  deriving DecidableEq, Repr

/-- `ValueParser<SpecifiedBorder>::parse`, values/borders.cpp 87–117.  `color` is the colour
parser.  The loop is bounded by `fuel`; each turn that goes on has read something. -/
def borderLoop (color : List Tok → Out κ) : Nat → Border κ → List Tok → Out (Border κ)
  | 0, b, l => (some b, l)
  | _, b, [] => (some b, [])
  | n + 1, b, l =>
    match parseLineWidth (eatWs l) with
    | (some w, r) => borderLoop color n { b with width := w } r
    | (none, l1) =>
    match color l1 with
    | (some c, r) => borderLoop color n { b with color := c } r
    | (none, l2) =>
    match parseStyle l2 with
    | (some s, r) => borderLoop color n { b with style := s } r
    | (none, l3) => (some b, l3)

def parseBorder (color : List Tok → Out κ) (current : κ) (l : List Tok) : Out (Border κ) :=
  borderLoop color (l.length + 1) ⟨.medium, .none, current⟩ l

end Verif.Values
