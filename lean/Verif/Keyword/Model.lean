import Verif.Short.Model

/-!
# Declarations: keywords, counters, generated content, alignment

Model of how the value of a declaration is read (props/base.cpp 719–788) and of the parsers of the
properties whose values are keywords, and of `counter-reset` and its kin, `content`, the alignment
properties, `border-spacing`, `row-gap`, `opacity`, `z-index` and `vertical-align`, on the component
values and with the parsers of `Verif.Values` and `Verif.Short`.

The contents of a declaration come without white space (css/parser.cpp 242–266), those of a
function inside it with it (css/parser.cpp 361–388).  What `apply` does with a value that was read
is in `Verif.Registry`.  Numbers are exact rationals, `isize` is unbounded.
-/

namespace Verif.Keyword
open Verif.Values Verif.Short

/-! ## Reading a declaration -/

/-- `Default`, props/base.cpp 482–489. -/
inductive Wide where
  | initial | inherit | unset | revert
  deriving DecidableEq, Repr

/-- `_parseDefaulted`, props/base.cpp 719–734. -/
def wideKw : List (String × Wide) :=
  [("initial", .initial), ("inherit", .inherit), ("unset", .unset), ("revert", .revert)]

/-- What becomes of a declaration of a registered property (props/base.cpp 757–788): a
`DefaultedProperty`, a `ToggleProperty`, a property with a value, or, if it could not be read, a
`DeferredProperty`, which has no effect unless it contains `var()`. -/
inductive Read (α : Type) where
  | wide (d : Wide)
  | toggle (vs : List α)
  | value (v : α)
  | unread
  deriving DecidableEq, Repr

/-- `skipOmmitableComma`, values/base.cpp 16–21. -/
def skipComma (l : List Tok) : List Tok :=
  match eatWs l with
  | .comma :: r => eatWs r
  | l => l

/-- The loop of `_parseToggle`, props/base.cpp 745–749.  `none`: the steps given were not enough;
`some none`: an option could not be read. -/
def toggleLoop (p : List Tok → Out α) : Nat → List α → List Tok → Option (Option (List α))
  | 0, _, _ => none
  | _ + 1, acc, [] => some (some acc)
  | n + 1, acc, l =>
    match p l with
    | (none, _) => some none
    | (some v, r) => toggleLoop p n (acc ++ [v]) (skipComma r)

/-- `_parseToggle`, props/base.cpp 736–751. -/
def parseToggle (p : List Tok → Out α) (n : Nat) : List Tok → Option (Option (List α))
  | .func name content :: _ =>
    if eqCi name "toggle(".toList then toggleLoop p n [] content else some none
  | _ => some none

/-- The end of `RegisteredPropertySet::parseValue`, props/base.cpp 773–780. -/
def readPlain (p : List Tok → Out α) (l : List Tok) : Read α :=
  match p l with
  | (some v, r) => if (eatWs r).isEmpty then .value v else .unread
  | (none, _) => .unread

/-- `RegisteredPropertySet::parseValue` with the options `TOP_LEVEL`, props/base.cpp 757–788, for a
registered property whose parser is `p`; `none` if `n` steps are not enough for `toggle()`. -/
def readDecl (p : List Tok → Out α) (n : Nat) (l : List Tok) : Option (Read α) :=
  match skipAny wideKw (eatWs l) with
  | some (d, _) => some (.wide d)
  | none =>
    match parseToggle p n (eatWs l) with
    | none => none
    | some (some vs) => some (.toggle vs)
    | some none => some (readPlain p (eatWs l))

/-! ## Properties whose values are keywords -/

/-- The enumerators and keywords that the properties below take as values, all in one type (the
enumerations of values/breaks.cpp 17–31 and 74–82, values/float.cpp 15–24 and 50–59,
values/table.cpp 19–23, 46–50 and 71–74, values/visibility.cpp, values/sizing.cpp, values/text.cpp
14–47, values/overflow.cpp 14–20, values/flex.cpp 22–28 and 53–58, and the keywords of
values/baseline.cpp, values/list.cpp 23 and values/transform.cpp 123–128). -/
inductive Kw where
  | auto | avoid | avoidPage | page | left | right | recto | verso | avoidColumn | column
  | avoidRegion | region | none | inlineStart | inlineEnd | both | fixed | top | bottom
  | separate | collapse | visible | hidden | contentBox | borderBox | start | «end» | center
  | justify | blockCenter | uppercase | lowercase | normal | pre | nowrap | preWrap | preLine
  | breakSpaces | scroll | row | rowReverse | columnReverse | wrap | wrapReverse | baseline
  | textBottom | alphabetic | ideographic | middle | central | mathematical | textTop | first
  | last | matchSelf | matchParent | fillBox | strokeBox | viewBox | sub | super | local'
  -- values of CSS that the code has no enumerator or keyword for
  | justifyAll | capitalize | fullWidth | fullSizeKana | mathAuto | clip | hanging
  deriving DecidableEq, Repr

/-- The properties, props/registry.cpp 33–246. -/
inductive Prop' where
  | breakBefore | breakAfter | breakInside | float | clear | tableLayout | captionSide
  | borderCollapse | visibility | boxSizing | textAlign | textTransform | whiteSpace
  | overflowX | overflowY | overflowBlock | overflowInline | flexDirection | flexWrap
  | dominantBaseline | baselineSource | alignmentBaseline | markerSide | transformBox
  deriving DecidableEq, Repr

/-- `ValueParser<BreakBetween>`, values/breaks.cpp 35–71. -/
def breakBetweenKw : List (String × Kw) :=
  [("auto", .auto), ("avoid", .avoid), ("avoid-page", .avoidPage), ("page", .page),
   ("left", .left), ("right", .right), ("recto", .recto), ("verso", .verso),
   ("avoid-column", .avoidColumn), ("column", .column), ("avoid-region", .avoidRegion),
   ("region", .region)]

/-- `ValueParser<BreakInside>`, values/breaks.cpp 84–105. -/
def breakInsideKw : List (String × Kw) :=
  [("auto", .auto), ("avoid", .avoid), ("avoid-page", .avoidPage),
   ("avoid-column", .avoidColumn), ("avoid-region", .avoidRegion)]

/-- `ValueParser<Float>`, values/float.cpp 26–46. -/
def floatKw : List (String × Kw) :=
  [("none", .none), ("inline-start", .inlineStart), ("inline-end", .inlineEnd), ("left", .left),
   ("right", .right)]

/-- `ValueParser<Clear>`, values/float.cpp 60–82. -/
def clearKw : List (String × Kw) :=
  [("none", .none), ("left", .left), ("right", .right), ("both", .both),
   ("inline-start", .inlineStart), ("inline-end", .inlineEnd)]

/-- `ValueParser<TableLayout>`, values/table.cpp 27–41. -/
def tableLayoutKw : List (String × Kw) := [("auto", .auto), ("fixed", .fixed)]

/-- `ValueParser<CaptionSide>`, values/table.cpp 53–67. -/
def captionSideKw : List (String × Kw) := [("top", .top), ("bottom", .bottom)]

/-- `ValueParser<BorderCollapse>`, values/table.cpp 77–91. -/
def borderCollapseKw : List (String × Kw) := [("collapse", .collapse), ("separate", .separate)]

/-- `VisibilityProperty::Registration::parse`, props/visibility.cpp 31–43. -/
def visibilityKw : List (String × Kw) :=
  [("visible", .visible), ("hidden", .hidden), ("collapse", .collapse)]

/-- `BoxSizingProperty::Registration::parse`, props/sizing.cpp 34–44. -/
def boxSizingKw : List (String × Kw) := [("border-box", .borderBox), ("content-box", .contentBox)]

/-- `TextAlignProperty::Registration::parse`, props/text.cpp 43–69. -/
def textAlignKw : List (String × Kw) :=
  [("left", .left), ("right", .right), ("center", .center), ("justify", .justify),
   ("start", .start), ("end", .end), ("-vaev-block-center", .blockCenter),
   ("-webkit-center", .blockCenter), ("-moz-center", .blockCenter)]

/-- `TextTransformProperty::Registration::parse`, props/text.cpp 108–125 (the word of the third is
as it stands there). -/
def textTransformKw : List (String × Kw) :=
  [("none", .none), ("uppercase", .uppercase), ("lowsercase", .lowercase)]

/-- `WhiteSpaceProperty::Registration::parse`, props/text.cpp 165–185. -/
def whiteSpaceKw : List (String × Kw) :=
  [("normal", .normal), ("nowrap", .nowrap), ("pre", .pre), ("pre-wrap", .preWrap),
   ("pre-line", .preLine), ("break-spaces", .breakSpaces)]

/-- `ValueParser<Overflow>`, values/overflow.cpp 23–43. -/
def overflowKw : List (String × Kw) :=
  [("overlay", .auto), ("visible", .visible), ("hidden", .hidden), ("scroll", .scroll),
   ("auto", .auto)]

/-- `ValueParser<FlexDirection>`, values/flex.cpp 31–48. -/
def directionKw : List (String × Kw) :=
  [("row", .row), ("row-reverse", .rowReverse), ("column", .column),
   ("column-reverse", .columnReverse)]

/-- `ValueParser<FlexWrap>`, values/flex.cpp 61–76. -/
def wrapKw : List (String × Kw) :=
  [("nowrap", .nowrap), ("wrap", .wrap), ("wrap-reverse", .wrapReverse)]

/-- `AlignmentBaseline`, values/baseline.cpp 16–24, with `ValueParser<Keyword<K>>`,
values/keywords.cpp 24–36, and `ValueParser<Union<Ts...>>`, values/primitives.cpp 175–186. -/
def alignmentKw : List (String × Kw) :=
  [("baseline", .baseline), ("text-bottom", .textBottom), ("alphabetic", .alphabetic),
   ("ideographic", .ideographic), ("middle", .middle), ("central", .central),
   ("mathematical", .mathematical), ("text-top", .textTop)]

/-- `DominantBaseline`, values/baseline.cpp 27–36. -/
def dominantKw : List (String × Kw) := ("auto", .auto) :: alignmentKw

/-- `BaselineSource`, values/baseline.cpp 13. -/
def sourceKw : List (String × Kw) := [("auto", .auto), ("first", .first), ("last", .last)]

/-- `MarkerSide`, values/list.cpp 23. -/
def markerSideKw : List (String × Kw) := [("match-self", .matchSelf), ("match-parent", .matchParent)]

/-- `TransformBox`, values/transform.cpp 123–128. -/
def transformBoxKw : List (String × Kw) :=
  [("content-box", .contentBox), ("border-box", .borderBox), ("fill-box", .fillBox),
   ("stroke-box", .strokeBox), ("view-box", .viewBox)]

def Prop'.table : Prop' → List (String × Kw)
  | .breakBefore | .breakAfter => breakBetweenKw
  | .breakInside => breakInsideKw
  | .float => floatKw
  | .clear => clearKw
  | .tableLayout => tableLayoutKw
  | .captionSide => captionSideKw
  | .borderCollapse => borderCollapseKw
  | .visibility => visibilityKw
  | .boxSizing => boxSizingKw
  | .textAlign => textAlignKw
  | .textTransform => textTransformKw
  | .whiteSpace => whiteSpaceKw
  | .overflowX | .overflowY | .overflowBlock | .overflowInline => overflowKw
  | .flexDirection => directionKw
  | .flexWrap => wrapKw
  | .dominantBaseline => dominantKw
  | .baselineSource => sourceKw
  | .alignmentBaseline => alignmentKw
  | .markerSide => markerSideKw
  | .transformBox => transformBoxKw

/-- The parser of one of the properties: a chain of `if (c.skip(ident(k)))`. -/
def Prop'.parse (P : Prop') : List Tok → Out Kw := parseKw P.table

/-! ## Names of properties -/

/-- The names of the properties of this file under which `defaultRegistry` registers them
(props/registry.cpp 33–246, props/defs/properties.inc). -/
inductive Named where
  | keyword (P : Prop')
  | counterReset | counterIncrement | counterSet | content
  | alignContent | justifyContent | justifySelf | alignSelf | justifyItems | alignItems
  | rowGap | columnGap | borderSpacing | opacity | zIndex | baselineShift | verticalAlign
  | position | backgroundAttachment | backgroundImage | backgroundPosition | backgroundRepeat
  deriving DecidableEq, Repr

def registered : List (String × Named) :=
  [("align-content", .alignContent), ("justify-content", .justifyContent),
   ("justify-self", .justifySelf), ("align-self", .alignSelf), ("justify-items", .justifyItems),
   ("align-items", .alignItems), ("row-gap", .rowGap), ("column-gap", .columnGap),
   ("dominant-baseline", .keyword .dominantBaseline), ("baseline-source", .keyword .baselineSource),
   ("alignment-baseline", .keyword .alignmentBaseline), ("baseline-shift", .baselineShift),
   ("vertical-align", .verticalAlign), ("background-attachment", .backgroundAttachment),
   ("background-image", .backgroundImage), ("background-position", .backgroundPosition),
   ("background-repeat", .backgroundRepeat), ("table-layout", .keyword .tableLayout),
   ("caption-side", .keyword .captionSide), ("transform-box", .keyword .transformBox),
   ("visibility", .keyword .visibility), ("border-collapse", .keyword .borderCollapse),
   ("border-spacing", .borderSpacing), ("content", .content),
   ("break-after", .keyword .breakAfter), ("break-before", .keyword .breakBefore),
   ("break-inside", .keyword .breakInside), ("flex-direction", .keyword .flexDirection),
   ("flex-wrap", .keyword .flexWrap), ("float", .keyword .float), ("clear", .keyword .clear),
   ("overflow-x", .keyword .overflowX), ("overflow-y", .keyword .overflowY),
   ("overflow-block", .keyword .overflowBlock), ("overflow-inline", .keyword .overflowInline),
   ("opacity", .opacity), ("position", .position), ("box-sizing", .keyword .boxSizing),
   ("text-align", .keyword .textAlign), ("text-transform", .keyword .textTransform),
   ("white-space", .keyword .whiteSpace), ("z-index", .zIndex), ("counter-reset", .counterReset),
   ("counter-increment", .counterIncrement), ("counter-set", .counterSet),
   ("marker-side", .keyword .markerSide)]

/-- The aliases of these (`legacyAlias`, props/align.cpp 231–233 and 270–272). -/
def aliases : List (String × String) :=
  [("grid-row-gap", "row-gap"), ("grid-column-gap", "column-gap")]

/-- `Map::lookup`: symbols are equal if they are the same text. -/
def lookupName (t : List (String × α)) (name : List Char) : Option α :=
  (t.find? fun p => p.1.toList == name).map (·.2)

/-- `resolveRegistration`, props/base.cpp 636–658: `none` for a name that is not registered (a
`BogusProperty`, ignored by the cascade, or a custom property). -/
def resolveName (name : List Char) : Option Named :=
  lookupName registered (((lookupName aliases name).map (·.toList)).getD name)

/-! ## Counters -/

/-- `ValueParser<CustomIdent>`, values/primitives.cpp 120–138. -/
def parseName : List Tok → Out (List Char)
  | .ident s :: r => (some s, r)
  | l => (none, l)

/-- `ValueParser<CounterProps::Reset>` and `<CounterProps::Increment>`, values/counter.cpp
205–240.  `reversed(` is compared as a token with a function, which it never equals
(css/parser.cpp 104–107), so no counter is reversed. -/
def parseCounter (l : List Tok) : Out (List Char × Int) :=
  match parseName l with
  | (none, r) => (none, r)
  | (some s, r) =>
    match parseInteger r with
    | (none, r) => (none, r)
    | (some n, r) => (some (s, n), r)

/-- `ValueParser<Vec<T>>`, values/primitives.cpp 191–207: what cannot be read ends the list, and
the cursor stays where the attempt left it. -/
def vecLoop (p : List Tok → Out α) : Nat → List α → List Tok → Out (List α)
  | 0, acc, l => (some acc, l)
  | _ + 1, acc, [] => (some acc, [])
  | n + 1, acc, l =>
    match p l with
    | (none, r) => (some acc, r)
    | (some v, r) => vecLoop p n (acc ++ [v]) r

/-- The parsers of `counter-reset`, `counter-increment` and `counter-set`, props/counter.cpp
29–34, 66–71 and 103–108. -/
def parseCounters (l : List Tok) : Out (List (List Char × Int)) :=
  match skipIdent "none".toList l with
  | some r => (some [], r)
  | none => vecLoop parseCounter (l.length + 1) [] l

/-! ## Generated content -/

/-- `ElementFunc::Target`, values/content.cpp 20–26. -/
inductive Target where
  | undefined | first | start | last | firstExcept
  deriving DecidableEq, Repr

/-- `Content`, values/content.cpp 37–43. -/
inductive Content where
  | normal
  | text (s : List Char)
  | element (name : List Char) (target : Target)
  | counter (name : List Char) (style : Option (List Char))
  deriving DecidableEq, Repr

def targetKw : List (String × Target) :=
  [("first", .first), ("last", .last), ("start", .start), ("first-except", .firstExcept)]

/-- `ValueParser<ElementFunc>`, values/content.cpp 75–106, on the contents of the function; what
is behind is not looked at. -/
def parseElement (l : List Tok) : Option Content :=
  match parseName l with
  | (none, _) => none
  | (some s, []) => some (.element s .undefined)
  | (some s, r) =>
    match skipAny targetKw (skipComma r) with
    | some (t, _) => some (.element s t)
    | none => some (.element s .undefined)

/-- `ValueParser<CounterFunc>`, values/counter.cpp 125–143, on the contents of the function.  Of
the styles only names are read: `symbols(` is compared as a token with a function. -/
def parseCounterFunc (l : List Tok) : Option Content :=
  match parseName l with
  | (none, _) => none
  | (some s, r) =>
    let r := match r with
      | .comma :: r => r
      | r => r
    some (.counter s (parseName r).1)

/-- `ValueParser<Content>`, values/content.cpp 45–73.  `counters(` goes to
`ValueParser<CountersFunc>`, values/counter.cpp 155–174, which compares a function with a token. -/
def parseContent (l : List Tok) : Out Content :=
  match skipAny [("normal", Content.normal), ("open-quote", .text "“".toList),
      ("close-quote", .text "”".toList)] l with
  | some (v, r) => (some v, r)
  | none =>
    match l with
    | .func name content :: r =>
      if eqCi name "element(".toList then
        match parseElement content with
        | some v => (some v, r)
        | none => (none, l)
      else if eqCi name "counter(".toList then
        match parseCounterFunc content with
        | some v => (some v, r)
        | none => (none, l)
      else (none, l)
    | .str s :: r => (some (.text s), r)
    | _ => (none, l)

/-! ## position -/

/-- `Position`, values/insets.cpp 15–24. -/
inductive Position where
  | static | relative | absolute | fixed | sticky
  | running (name : List Char)
  deriving DecidableEq, Repr

/-- `ValueParser<Position>`, values/insets.cpp 27–55. -/
def parsePosition (l : List Tok) : Out Position :=
  match skipAny [("static", Position.static), ("relative", .relative), ("absolute", .absolute),
      ("fixed", .fixed), ("sticky", .sticky)] l with
  | some (v, r) => (some v, r)
  | none =>
    match l with
    | .func name content :: r =>
      if eqCi name "running(".toList then
        match parseName content with
        | (some s, _) => (some (.running s), r)
        | (none, _) => (none, l)
      else (none, l)
    | _ => (none, l)

/-! ## Alignment -/

/-- `Align::Prefix`, values/align.cpp 20–28. -/
inductive Prefix where
  | noPrefix | legacy | safe | unsafe'
  deriving DecidableEq, Repr

/-- `Align::Keywords`, values/align.cpp 30–60. -/
inductive AKey where
  | noKeyword | auto | normal | center | start | «end» | selfStart | selfEnd | flexStart | flexEnd
  | left | right | firstBaseline | lastBaseline | stretch | spaceBetween | spaceAround | spaceEvenly
  deriving DecidableEq, Repr

def prefixKw : List (String × Prefix) :=
  [("legacy", .legacy), ("safe", .safe), ("unsafe", .unsafe')]

def akeyKw : List (String × AKey) :=
  [("auto", .auto), ("normal", .normal), ("center", .center), ("start", .start), ("end", .end),
   ("self-start", .selfStart), ("self-end", .selfEnd), ("flex-start", .flexStart),
   ("flex-end", .flexEnd), ("left", .left), ("right", .right),
   ("first-baseline", .firstBaseline), ("last-baseline", .lastBaseline), ("stretch", .stretch),
   ("space-between", .spaceBetween), ("space-around", .spaceAround), ("space-evenly", .spaceEvenly)]

/-- One of the words, if there is one (`if (c.skip(ident(k))) … else …`). -/
def skipOr (table : List (String × α)) (d : α) (l : List Tok) : α × List Tok :=
  match skipAny table l with
  | some q => q
  | none => (d, l)

/-- `ValueParser<Align>`, values/align.cpp 85–147, the parser of align-content, align-items,
align-self and the same for justify (props/align.cpp 34–206). -/
def parseAlign (l : List Tok) : Out (Prefix × AKey) :=
  let p := skipOr prefixKw .noPrefix l
  let k := skipOr akeyKw .noKeyword p.2
  if p.1 = .noPrefix ∧ k.1 = .noKeyword then (none, k.2) else (some (p.1, k.1), k.2)

/-! ## Amounts -/

/-- `ValueParser<BorderSpacing>`, values/table.cpp 104–123: horizontal and vertical. -/
def parseSpacing (l : List Tok) : Out (Length × Length) :=
  match parseLength l with
  | (none, r) => (none, r)
  | (some a, r) =>
    match parseLength r with
    | (some b, r) => (some (a, b), r)
    | (none, r) => (some (a, a), r)

/-- `Gap`, values/insets.cpp 91–93, the value of row-gap and column-gap (props/align.cpp 222–299). -/
inductive Gap where
  | normal
  | calc (c : Calc)
  deriving DecidableEq, Repr

def parseGap (l : List Tok) : Out Gap :=
  match skipIdent "normal".toList l with
  | some r => (some .normal, r)
  | none =>
    match parseCalc l with
    | (some c, r) => (some (.calc c), r)
    | (none, r) => (none, r)

/-- `OpacityProperty::Registration::parse`, props/visibility.cpp 76–82. -/
def parseOpacity (l : List Tok) : Out Rat :=
  match parsePercent l with
  | (some n, r) => (some (n / 100), r)
  | (none, r) => parseNumber r

/-- `ZIndex`, values/z-index.cpp: `none` is `auto` (props/positioned.cpp 189–220). -/
def parseZIndex (l : List Tok) : Out (Option Int) :=
  match skipIdent "auto".toList l with
  | some r => (some none, r)
  | none =>
    match parseInteger l with
    | (some n, r) => (some (some n), r)
    | (none, r) => (none, r)

/-! ## vertical-align -/

/-- `BaselineShift`, values/baseline.cpp 39–45. -/
inductive Shift where
  | by' (c : Calc)
  | sub | super | top | center | bottom
  deriving DecidableEq, Repr

def shiftKw : List (String × Shift) :=
  [("sub", .sub), ("super", .super), ("top", .top), ("center", .center), ("bottom", .bottom)]

def parseShift (l : List Tok) : Out Shift :=
  match parseCalc l with
  | (some c, r) => (some (.by' c), r)
  | (none, r) =>
    match skipAny shiftKw r with
    | some (v, r) => (some v, r)
    | none => (none, r)

/-- `VerticalAlignProperty::Value`, props/baseline.cpp 198–202. -/
structure VAlign where
  source : Option Kw := none
  alignment : Option Kw := none
  shift : Option Shift := none
  deriving DecidableEq, Repr

/-- `VerticalAlignProperty::Registration::parse`, props/baseline.cpp 228–276. -/
def valignLoop : Nat → VAlign → List Tok → Out VAlign
  | 0, v, l => (some v, l)
  | _ + 1, v, [] => (some v, [])
  | n + 1, v, l =>
    match parseKw [("first", Kw.first), ("last", .last)] l with
    | (some k, r) => if v.source.isNone then valignLoop n { v with source := some k } r else (none, r)
    | (none, _) =>
      match parseKw alignmentKw l with
      | (some k, r) =>
        if v.alignment.isNone then valignLoop n { v with alignment := some k } r else (none, r)
      | (none, _) =>
        match parseShift l with
        | (some s, r) =>
          if v.shift.isNone then valignLoop n { v with shift := some s } r else (none, r)
        | (none, r) => (none, r)

def parseVAlign : List Tok → Out VAlign
  | [] => (none, [])
  | l => valignLoop (l.length + 1) {} l

/-- The longhands of vertical-align as declared by it. -/
inductive VLong where
  | source (k : Kw)
  | alignment (k : Kw)
  | shift (s : Shift)
  deriving DecidableEq, Repr

/-- `VerticalAlignProperty::expandShorthand`, props/baseline.cpp 284–313. -/
def VAlign.expand (v : VAlign) : List VLong :=
  (v.source.map VLong.source).toList ++ (v.alignment.map VLong.alignment).toList ++
    (v.shift.map VLong.shift).toList

/-! ## Backgrounds -/

/-- `BackgroundAttachmentProperty::Registration::parse`, props/background.cpp 75–82: the layers,
one after the other. -/
def attachLoop : Nat → List Kw → List Tok → Out (List Kw)
  | 0, acc, l => (some acc, l)
  | _ + 1, acc, [] => (some acc, [])
  | n + 1, acc, l =>
    match parseKw [("scroll", Kw.scroll), ("fixed", .fixed), ("local", .local')] l with
    | (none, r) => (none, r)
    | (some k, r) => attachLoop n (acc ++ [k]) (eatWs r)

def parseAttachment (l : List Tok) : Out (List Kw) := attachLoop (l.length + 1) [] l

/-- The parsers of background-image, background-position and background-repeat,
props/background.cpp 119–122, 154–157 and 189–192: they look at nothing. -/
def parseNothing (l : List Tok) : Out Unit := (some (), l)

end Verif.Keyword
