import Verif.Css.Token

/-!
# Media queries: model

`/repo/src/vaev-engine/style/media.cpp` and the value readers of
`/repo/src/vaev-engine/values/media.cpp`, `values/page.cpp` and `values/primitives.cpp`.

* The values of a medium are integers: a keyword is its position in its enumeration, a
  Boolean is 0 or 1, a length, ratio, resolution or count is a number in some fixed unit.
  Floating point is not modelled. How a token denotes a number is a parameter `num`; lengths
  relative to a font or a viewport, which the code compares as unresolved, are left out
  (`num` is undefined on them).
* The `Cursor` is the list of items not read yet. `Cursor::peek` at the end has no defined
  result: `R.crash`. Recursion takes fuel: `R.out`.
-/
namespace Verif.Media
open Verif.Css

/-- The fields of `Media`, media.cpp lines 17–138. -/
inductive Field where
  | type | width | height | aspectRatio | orientation | resolution | scan | grid | update | overflowBlock
  | overflowInline | color | colorIndex | monochrome | colorGamut | pointer | hover | anyPointer | anyHover
  | reducedMotion | reducedTransparency | contrast | forcedColors | colorScheme | reducedData
  | deviceWidth | deviceHeight | deviceAspectRatio
deriving DecidableEq, Repr

abbrev Media := Field → Int

/-- `MediaType`, values/media.cpp lines 15–22. -/
def typeAll : Int := 0
def typePrint : Int := 1
def typeScreen : Int := 2
def typeOther : Int := 3

/-! ## Features -/

/-- `RangePrefix`, media.cpp lines 298–305. -/
inductive Prefix where
  | min | max | exact | bool
deriving DecidableEq, Repr

/-- `RangeBound::Type`, media.cpp lines 309–315. -/
inductive BoundType where
  | none | inclusive | exclusive
deriving DecidableEq, Repr

/-- `RangeBound`, media.cpp lines 307–318. -/
structure Bound where
  value : Int := 0
  type : BoundType := .none
deriving DecidableEq, Repr

/-- `RangeFeature` (lines 331–337) and `DiscreteFeature` (lines 414–426) with the field they read. -/
inductive Feature where
  | range (f : Field) (lower upper : Bound)
  | discrete (f : Field) (value : Int) (equal : Bool)
deriving DecidableEq, Repr

/-- `RangeFeature::match(T)`, media.cpp lines 343–364. -/
def rangeMatch (lower upper : Bound) (actual : Int) : Bool :=
  let result := true
  let result := match lower.type with
    | .inclusive => result && decide (actual ≥ lower.value)
    | .exclusive => result && decide (actual > lower.value)
    | .none => result
  let result := match upper.type with
    | .inclusive => result && decide (actual ≤ upper.value)
    | .exclusive => result && decide (actual < upper.value)
    | .none => result
  if lower.type = .none ∧ upper.type = .none then decide (actual ≠ 0) else result

/-- `DiscreteFeature::match(T)`, media.cpp lines 438–442. -/
def discreteMatch (value : Int) (equal : Bool) (actual : Int) : Bool :=
  if equal = false then decide (actual ≠ 0) else decide (actual = value)

/-- `Feature::match`, media.cpp lines 366–368, 444–446 and 616–620. -/
def Feature.match (m : Media) : Feature → Bool
  | .range f lower upper => rangeMatch lower upper (m f)
  | .discrete f value equal => discreteMatch value equal (m f)

/-- `RangeFeature::make`, media.cpp lines 370–407. -/
def makeRange (f : Field) (p : Prefix) (v : Int) : Feature :=
  match p with
  | .min => .range f ⟨v, .inclusive⟩ {}
  | .max => .range f {} ⟨v, .inclusive⟩
  | .exact => .range f ⟨v, .inclusive⟩ ⟨v, .inclusive⟩
  | .bool => .range f {} {}

/-- `DiscreteFeature::make`, media.cpp lines 432–436. -/
def makeDiscrete (f : Field) (p : Prefix) (v : Int) : Feature :=
  match p with
  | .bool => .discrete f 0 false
  | _ => .discrete f v true

/-! ## Queries -/

/-- `MediaQuery`, media.cpp lines 633–738. -/
inductive Query where
  | none
  | and (l r : Query)
  | or (l r : Query)
  | not (q : Query)
  | only (q : Query)
  | feature (f : Feature)
deriving DecidableEq, Repr

/-- `MediaQuery::match`, media.cpp lines 646–655, 673–682 and 740–749. -/
def Query.match (m : Media) : Query → Bool
  | .none => true
  | .and l r => l.match m && r.match m
  | .or l r => l.match m || r.match m
  | .not q => !q.match m
  | .only q => q.match m
  | .feature f => f.match m

/-! ## Reading -/

/-- The kinds of numbers the features take. -/
inductive Kind where
  | length | number | resolution | integer
deriving DecidableEq, Repr

/-- How the value of a feature is read: a number, one of some keywords, or a Boolean. -/
inductive Shape where
  | num (k : Kind)
  | keywords (ks : List (Text × Int))
  | bool
deriving DecidableEq, Repr

/-- `ValueParser<MediaType>`, values/media.cpp lines 25–58. -/
def typeKeywords : List (Text × Int) :=
  [(u "all", typeAll), (u "print", typePrint), (u "screen", typeScreen), (u "tty", typeOther), (u "tv", typeOther),
   (u "projection", typeOther), (u "handheld", typeOther), (u "braille", typeOther), (u "embossed", typeOther),
   (u "speech", typeOther), (u "aural", typeOther)]

/-- The alternatives of `Feature`, media.cpp lines 455–605, with the keywords of
    values/media.cpp lines 60–396 and values/page.cpp lines 16–29. -/
def features : List (Text × Field × Shape) :=
  [(u "type", .type, .keywords typeKeywords),
   (u "width", .width, .num .length),
   (u "height", .height, .num .length),
   (u "aspect-ratio", .aspectRatio, .num .number),
   (u "orientation", .orientation, .keywords [(u "portrait", 0), (u "landscape", 1)]),
   (u "resolution", .resolution, .num .resolution),
   (u "scan", .scan, .keywords [(u "interlace", 0), (u "progressive", 1)]),
   (u "grid", .grid, .bool),
   (u "update", .update, .keywords [(u "none", 0), (u "slow", 1), (u "fast", 2)]),
   (u "overflow-block", .overflowBlock, .keywords [(u "none", 0), (u "scroll", 1), (u "paged", 2)]),
   (u "overflow-inline", .overflowInline, .keywords [(u "none", 0), (u "scroll", 1)]),
   (u "color", .color, .num .integer),
   (u "color-index", .colorIndex, .num .integer),
   (u "monochrome", .monochrome, .num .integer),
   (u "color-gamut", .colorGamut, .keywords [(u "srgb", 0), (u "p3", 1), (u "rec2020", 2)]),
   (u "pointer", .pointer, .keywords [(u "none", 0), (u "coarse", 1), (u "fine", 2)]),
   (u "hover", .hover, .keywords [(u "none", 0), (u "hover", 1)]),
   (u "pointer", .anyPointer, .keywords [(u "none", 0), (u "coarse", 1), (u "fine", 2)]),
   (u "hover", .anyHover, .keywords [(u "none", 0), (u "hover", 1)]),
   (u "prefers-reduced-motion", .reducedMotion, .keywords [(u "no-preference", 0), (u "reduce", 1)]),
   (u "prefers-reduced-transparency", .reducedTransparency, .keywords [(u "no-preference", 0), (u "reduce", 1)]),
   (u "prefers-contrast", .contrast, .keywords [(u "less", 2), (u "more", 1)]),
   (u "forced-colors", .forcedColors, .keywords [(u "none", 0), (u "active", 1)]),
   (u "prefers-color-scheme", .colorScheme, .keywords [(u "light", 0), (u "dark", 1)]),
   (u "prefers-reduced-data", .reducedData, .keywords [(u "no-preference", 0), (u "reduce", 1)]),
   (u "device-width", .deviceWidth, .num .length),
   (u "device-height", .deviceHeight, .num .length),
   (u "device-aspect-ratio", .deviceAspectRatio, .num .number)]

/-- The keyword readers of values/media.cpp: the first keyword the item is. -/
def readKeyword (ks : List (Text × Int)) (c : List Sst) : Option (Int × List Sst) :=
  match c with
  | [] => none
  | s :: r => (ks.find? fun k => s.isIdent k.1).map fun k => (k.2, r)

/-- `parseValue<F::Inner>`; `num` says which number an item denotes. Where a number could
    not be read the cursor may have moved; nothing is read after that. A resolution is read and
    not passed: values/resolution.cpp lines 132–146. -/
def readValue (num : Kind → Sst → Option Int) (sh : Shape) (c : List Sst) : Option (Int × List Sst) :=
  match sh, c with
  | .keywords ks, c => readKeyword ks c
  | _, [] => none
  | .num .resolution, s :: r =>
    if s.is .dimension then (num .resolution s).map fun v => (v, s :: r) else none
  | .num k, s :: r => (num k s).map fun v => (v, r)
  | .bool, s :: r => (num .integer s).map fun v => (if v > 0 then 1 else 0, r)

/-- `_explodeFeatureName`, media.cpp lines 765–772. -/
def explode (s : Text) : Prefix × Text :=
  if (u "min-").isPrefixOf s then (.min, s.drop 4)
  else if (u "max-").isPrefixOf s then (.max, s.drop 4)
  else (.exact, s)

/-- `F::make`. -/
def make (f : Field) (sh : Shape) (p : Prefix) (v : Int) : Feature :=
  match sh with
  | .num _ => makeRange f p v
  | _ => makeDiscrete f p v

def typeFeature (t : Int) : Feature := .discrete .type t true

/-- `_parseMediaFeature`, media.cpp lines 774–818. -/
def parseFeature (num : Kind → Sst → Option Int) (c : List Sst) : Feature × List Sst :=
  match c with
  | [] => (typeFeature typeOther, [])
  | .tok t :: r =>
    if t.type = .ident then
      let pn := explode t.data
      let r := eatWs r
      match features.find? fun e => e.1 == pn.2 with
      | none => (typeFeature typeOther, r)
      | some (_, f, sh) =>
        match r with
        | [] => (make f sh .bool 0, [])
        | s :: r' =>
          if s.is .colon then
            match readValue num sh (eatWs r') with
            | none => (typeFeature typeOther, eatWs r')
            | some (v, r'') => (make f sh pn.1 v, r'')
          else (make f sh .bool 0, s :: r')
    else (typeFeature typeOther, .tok t :: r)
  | s :: r => (typeFeature typeOther, s :: r)

inductive R (α : Type) where
  | ok (a : α)
  | crash
  | out
deriving DecidableEq, Repr

/-- The last two cases of `_parseMediaQueryLeaf`, media.cpp lines 830–833. -/
def parseSimple (num : Kind → Sst → Option Int) (c : List Sst) : Query × List Sst :=
  match readKeyword typeKeywords c with
  | some (t, r) => (.feature (typeFeature t), r)
  | none => let r := parseFeature num c; (.feature r.1, r.2)

mutual
/-- `_parseMediaQueryLeaf`, media.cpp lines 822–834. -/
def parseLeaf (num : Kind → Sst → Option Int) : Nat → List Sst → R (Query × List Sst)
  | 0, _ => .out
  | _ + 1, [] => .crash
  | n + 1, s :: r =>
    if s.isIdent (u "not") then
      match parseInfix num n r with
      | .ok (q, c) => .ok (.not q, c)
      | .crash => .crash
      | .out => .out
    else if s.isIdent (u "only") then parseInfix num n r
    else match s with
      | .block content =>
        match parseInfix num n content with
        | .ok (q, _) => .ok (q, r)
        | .crash => .crash
        | .out => .out
      | s => .ok (parseSimple num (s :: r))

/-- `_parseMediaQueryInfix`, media.cpp lines 836–852. -/
def parseInfix (num : Kind → Sst → Option Int) : Nat → List Sst → R (Query × List Sst)
  | 0, _ => .out
  | n + 1, c =>
    match parseLeaf num n c with
    | .ok (l, c) => infixLoop num n l (eatWs c)
    | .crash => .crash
    | .out => .out

/-- The loop of `_parseMediaQueryInfix`, media.cpp lines 840–850. -/
def infixLoop (num : Kind → Sst → Option Int) : Nat → Query → List Sst → R (Query × List Sst)
  | 0, _, _ => .out
  | _ + 1, l, [] => .ok (l, [])
  | n + 1, l, s :: r =>
    if s.isIdent (u "and") then
      match parseLeaf num n (eatWs r) with
      | .ok (x, c) => infixLoop num n (.and l x) c
      | .crash => .crash
      | .out => .out
    else if s.isIdent (u "or") then
      match parseLeaf num n (eatWs r) with
      | .ok (x, c) => infixLoop num n (.or l x) c
      | .crash => .crash
      | .out => .out
    else .ok (l, s :: r)
end

/-- The loop of `parseMediaQuery`, media.cpp lines 865–870. -/
def listLoop (num : Kind → Sst → Option Int) (fuel : Nat) : Nat → Query → List Sst → R Query
  | 0, _, _ => .out
  | _ + 1, l, [] => .ok l
  | n + 1, l, s :: r =>
    if s.is .comma then
      match parseInfix num fuel (eatWs r) with
      | .ok (x, c) => listLoop num fuel n (.or l x) (eatWs c)
      | .crash => .crash
      | .out => .out
    else .ok l

/-- `parseMediaQuery`, media.cpp lines 856–873. -/
def parseQuery (num : Kind → Sst → Option Int) (fuel : Nat) (c : List Sst) : R Query :=
  match eatWs c with
  | [] => .ok .none
  | s :: r =>
    match parseInfix num fuel (s :: r) with
    | .ok (l, c) => listLoop num fuel fuel l (eatWs c)
    | .crash => .crash
    | .out => .out

/-- Whether the rules of an `@media` apply: `MediaRule::parse` and `MediaRule::match`,
    /repo/src/vaev-engine/style/rules.cpp lines 107–109 and 323–328. -/
def applies (num : Kind → Sst → Option Int) (fuel : Nat) (c : List Sst) (m : Media) : R Bool :=
  match parseQuery num fuel c with
  | .ok q => .ok (q.match m)
  | .crash => .crash
  | .out => .out

/-- The media types a medium can have: `forView`, `forRender` and `forPrint`,
    media.cpp lines 159, 202 and 243. -/
def Real (m : Media) : Prop := m .type = typePrint ∨ m .type = typeScreen

end Verif.Media
