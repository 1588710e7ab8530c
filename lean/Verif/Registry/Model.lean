/-!
# The property registry: `props/*.cpp`, `style/computer.cpp:354-398`

A computed style gives every leaf field of `ComputedValues` a value; values are opaque
(`V`), except that the ones `initial()` mentions are named by `Lit`.  A property is its
registration: its flags, what `initial` holds, which fields `load` reads into its value,
which fields `apply` writes from which component of the value, and which longhands
`expandShorthand` makes from which component.

Simplified: custom properties and deferred (`var()`) ones, presentation attributes, parsing
of values and `_considerElementAttributes` are left out.  The layers of `background-attachment`
are one field: `apply` writes over the first layers only, but a style starts with one layer and
is given at least one.  The `inherit` of the SVG properties returns early when the parent has the
default SVG group, which gives the values the child already has.
-/
namespace Verif.Registry

/-- The properties of `props/registry.cpp:33-244`, and two that have a class but are not
registered there: `gap` (`align.cpp:301`) and `order` (`display.cpp:86`). -/
inductive Name
  | alignContent | justifyContent | justifySelf | alignSelf | justifyItems | alignItems | rowGap | columnGap
  | dominantBaseline | baselineSource | alignmentBaseline | baselineShift | verticalAlign |
  backgroundAttachment | backgroundColor | backgroundImage | backgroundPosition | backgroundRepeat |
  background | color | display | tableLayout | captionSide | transformOrigin | transformBox | transform |
  visibility | borderTopColor | borderRightColor | borderBottomColor | borderLeftColor | borderColor |
  borderTopWidth | borderRightWidth | borderBottomWidth | borderLeftWidth | borderStyle | borderTopStyle |
  borderRightStyle | borderBottomStyle | borderLeftStyle | borderTopRightRadius | borderTopLeftRadius |
  borderBottomRightRadius | borderBottomLeftRadius | borderRadius | borderTop | borderRight | borderBottom |
  borderLeft | border | borderWidth | borderCollapse | borderSpacing | clipPath | content | breakAfter |
  breakBefore | breakInside | flexBasis | flexDirection | flexGrow | flexShrink | flexWrap | flexFlow | flex
  | float | clear | fontFamily | fontWeight | fontWidth | fontStyle | fontSize | font | lineHeight |
  marginTop | marginRight | marginBottom | marginLeft | margin | marginInlineStart | marginInlineEnd |
  marginInline | marginBlockStart | marginBlockEnd | marginBlock | outline | outlineColor | outlineOffset |
  outlineStyle | outlineWidth | overflowX | overflowY | overflowBlock | overflowInline | overflow | opacity
  | paddingTop | paddingRight | paddingBottom | paddingLeft | paddingInlineStart | paddingInlineEnd |
  padding | position | top | right | bottom | left | boxSizing | width | height | minWidth | minHeight |
  maxWidth | maxHeight | textAlign | textTransform | whiteSpace | zIndex | svgX | svgY | svgCX | svgCY |
  svgR | fill | svgD | stroke | strokeOpacity | viewBox | fillOpacity | strokeWidth | counterReset |
  counterIncrement | counterSet | listStyleImage | listStyleType | listStylePosition | listStyle |
  markerSide | gap | order
deriving DecidableEq, Repr

/-- The fields of `ComputedValues` (`style/computed.cpp`) that properties set.  `left` and
`right` are the code's `start` and `end`.  `radiusA` … `radiusH` are the members of
`Math::Radii`, two for each corner.  The last five are values CSS gives an element that the
code never stores. -/
inductive Field
  | alignContent | justifyContent | justifySelf | alignSelf | justifyItems | alignItems | rowGap | columnGap
  | dominantBaseline | baselineSource | alignmentBaseline | baselineShift | backgroundAttachment |
  backgroundColor | color | display | tableLayout | captionSide | transformOrigin | transformBox | transform
  | visibility | borderTopColor | borderRightColor | borderBottomColor | borderLeftColor | borderTopWidth |
  borderRightWidth | borderBottomWidth | borderLeftWidth | borderLeftStyle | borderRightStyle |
  borderTopStyle | borderBottomStyle | radiusC | radiusD | radiusA | radiusB | radiusE | radiusF | radiusG |
  radiusH | borderCollapse | borderSpacing | clipPath | content | breakAfter | breakBefore | breakInside |
  flexBasis | flexDirection | flexGrow | flexShrink | flexWrap | float | clear | fontFamily | fontWeight |
  fontWidth | fontStyle | fontSize | marginTop | marginRight | marginBottom | marginLeft | outlineWidth |
  outlineStyle | outlineColor | outlineOffset | overflowX | overflowY | overflowBlock | overflowInline |
  opacity | paddingTop | paddingRight | paddingBottom | paddingLeft | position | insetTop | insetRight |
  insetBottom | insetLeft | boxSizing | width | height | minWidth | minHeight | maxWidth | maxHeight |
  textAlign | textTransform | whiteSpace | zIndex | svgX | svgY | svgCX | svgCY | svgR | fill | svgD |
  stroke | strokeOpacity | viewBox | fillOpacity | strokeWidth | counterReset | counterIncrement |
  counterSet | listStyleImage | listStyleType | listStylePosition | markerSide | backgroundImage |
  backgroundPosition | backgroundRepeat | lineHeight | order
deriving DecidableEq, Repr

/-- The values `initial()` mentions. -/
inductive Lit
  | currentColor | start | stretch | flexStart | auto | legacy | normal | baseline | zero | scroll |
  transparent | none | repeat | black | inline | top | half | viewBox | visible | medium | separate | row |
  one | nowrap | sansSerif | regular | static | contentBox | left | empty | disc | outside | matchSelf
deriving DecidableEq, Repr

/-- `Property::ComputationPhase`, without the phase of custom properties.  `props/base.cpp:120-128`. -/
inductive Phase | preFont | font | normal | late
deriving DecidableEq, Repr

/-- `Property::Registration`.  `props/base.cpp:130-192`.  `copies` is an overriding `inherit`. -/
structure Reg where
  name : Name
  inherited : Bool := false
  shorthand : Bool := false
  phase : Phase := .normal
  initial : List (Option Lit)
  load : List Field
  writes : List (Field × Nat) := []
  copies : List (Field × Field) := []
  expand : List (Name × Nat) := []
deriving DecidableEq, Repr

/-! ## The registrations

A value of four sides is a `Math::Insets`: its components are top, end, bottom, start, which
is also the order of its four-argument constructor; the two-argument one gives the first to
top and bottom and the second to start and end (`values/insets.cpp:65-89`). -/

/-- `props/align.cpp:20-48`. -/
def alignContentR : Reg :=
  { name := .alignContent, initial := [some .stretch], load := [.alignContent], writes := [(.alignContent, 0)]
    }

/-- `props/align.cpp:54-82`. -/
def justifyContentR : Reg :=
  { name := .justifyContent, initial := [some .flexStart], load := [.justifyContent], writes :=
    [(.justifyContent, 0)] }

/-- `props/align.cpp:88-116`. -/
def justifySelfR : Reg :=
  { name := .justifySelf, initial := [some .auto], load := [.justifySelf], writes := [(.justifySelf, 0)] }

/-- `props/align.cpp:122-150`. -/
def alignSelfR : Reg :=
  { name := .alignSelf, initial := [some .auto], load := [.alignSelf], writes := [(.alignSelf, 0)] }

/-- `props/align.cpp:156-184`. -/
def justifyItemsR : Reg :=
  { name := .justifyItems, initial := [some .legacy], load := [.justifyItems], writes := [(.justifyItems, 0)]
    }

/-- `props/align.cpp:190-218`. -/
def alignItemsR : Reg :=
  { name := .alignItems, initial := [some .stretch], load := [.alignItems], writes := [(.alignItems, 0)] }

/-- `props/align.cpp:224-257`. -/
def rowGapR : Reg :=
  { name := .rowGap, initial := [some .normal], load := [.rowGap], writes := [(.rowGap, 0)] }

/-- `props/align.cpp:263-296`. -/
def columnGapR : Reg :=
  { name := .columnGap, initial := [some .normal], load := [.columnGap], writes := [(.columnGap, 0)] }

/-- `props/baseline.cpp:61-89`. -/
def dominantBaselineR : Reg :=
  { name := .dominantBaseline, initial := [some .auto], load := [.dominantBaseline], writes :=
    [(.dominantBaseline, 0)] }

/-- `props/baseline.cpp:95-123`. -/
def baselineSourceR : Reg :=
  { name := .baselineSource, initial := [some .auto], load := [.baselineSource], writes := [(.baselineSource,
    0)] }

/-- `props/baseline.cpp:129-157`. -/
def alignmentBaselineR : Reg :=
  { name := .alignmentBaseline, initial := [some .baseline], load := [.alignmentBaseline], writes :=
    [(.alignmentBaseline, 0)] }

/-- `props/baseline.cpp:163-191`. -/
def baselineShiftR : Reg :=
  { name := .baselineShift, initial := [some .zero], load := [.baselineShift], writes := [(.baselineShift, 0)]
    }

/-- `props/baseline.cpp:197-315`. -/
def verticalAlignR : Reg :=
  { name := .verticalAlign, shorthand := true, initial := [none, some .baseline, none], load :=
    [.baselineSource, .alignmentBaseline, .baselineShift], expand := [(.baselineSource, 0),
    (.alignmentBaseline, 1), (.baselineShift, 2)] }

/-- `props/background.cpp:58-99`. -/
def backgroundAttachmentR : Reg :=
  { name := .backgroundAttachment, initial := [some .scroll], load := [.backgroundAttachment], writes :=
    [(.backgroundAttachment, 0)] }

/-- `props/background.cpp:22-50`. -/
def backgroundColorR : Reg :=
  { name := .backgroundColor, initial := [some .transparent], load := [.backgroundColor], writes :=
    [(.backgroundColor, 0)] }

/-- `props/background.cpp:105-134`. -/
def backgroundImageR : Reg :=
  { name := .backgroundImage, initial := [some .none], load := [] }

/-- `props/background.cpp:140-169`. -/
def backgroundPositionR : Reg :=
  { name := .backgroundPosition, initial := [some .zero], load := [] }

/-- `props/background.cpp:175-205`. -/
def backgroundRepeatR : Reg :=
  { name := .backgroundRepeat, initial := [some .repeat], load := [] }

/-- `props/background.cpp:211-249`. -/
def backgroundR : Reg :=
  { name := .background, shorthand := true, initial := [some .transparent], load := [.backgroundColor], expand
    := [(.backgroundColor, 0)] }

/-- `props/background.cpp:256-292`. -/
def colorR : Reg :=
  { name := .color, inherited := true, initial := [some .black], load := [.color], writes := [(.color, 0)],
    copies := [(.color, .color)] }

/-- `props/display.cpp:17-45`. -/
def displayR : Reg :=
  { name := .display, initial := [some .inline], load := [.display], writes := [(.display, 0)] }

/-- `props/table.cpp:17-45`. -/
def tableLayoutR : Reg :=
  { name := .tableLayout, initial := [some .auto], load := [.tableLayout], writes := [(.tableLayout, 0)] }

/-- `props/table.cpp:51-87`. -/
def captionSideR : Reg :=
  { name := .captionSide, inherited := true, initial := [some .top], load := [.captionSide], writes :=
    [(.captionSide, 0)], copies := [(.captionSide, .captionSide)] }

/-- `props/transform.cpp:20-58`. -/
def transformOriginR : Reg :=
  { name := .transformOrigin, initial := [some .half], load := [.transformOrigin], writes :=
    [(.transformOrigin, 0)] }

/-- `props/transform.cpp:64-92`. -/
def transformBoxR : Reg :=
  { name := .transformBox, initial := [some .viewBox], load := [.transformBox], writes := [(.transformBox, 0)]
    }

/-- `props/transform.cpp:98-219`. -/
def transformR : Reg :=
  { name := .transform, initial := [some .none], load := [.transform], writes := [(.transform, 0)] }

/-- `props/visibility.cpp:17-56`. -/
def visibilityR : Reg :=
  { name := .visibility, initial := [some .visible], load := [.visibility], writes := [(.visibility, 0)] }

/-- `props/border.cpp:19-47`. -/
def borderTopColorR : Reg :=
  { name := .borderTopColor, initial := [some .black], load := [.borderTopColor], writes := [(.borderTopColor,
    0)] }

/-- `props/border.cpp:53-81`. -/
def borderRightColorR : Reg :=
  { name := .borderRightColor, initial := [some .black], load := [.borderRightColor], writes :=
    [(.borderRightColor, 0)] }

/-- `props/border.cpp:87-115`. -/
def borderBottomColorR : Reg :=
  { name := .borderBottomColor, initial := [some .black], load := [.borderBottomColor], writes :=
    [(.borderBottomColor, 0)] }

/-- `props/border.cpp:121-149`. -/
def borderLeftColorR : Reg :=
  { name := .borderLeftColor, initial := [some .black], load := [.borderLeftColor], writes :=
    [(.borderLeftColor, 0)] }

/-- `props/border.cpp:154-198`. -/
def borderColorR : Reg :=
  { name := .borderColor, shorthand := true, initial := [some .black, some .black, some .black, some .black],
    load := [.borderLeftColor, .borderRightColor, .borderTopColor, .borderBottomColor], expand :=
    [(.borderTopColor, 0), (.borderRightColor, 1), (.borderBottomColor, 2), (.borderLeftColor, 3)] }

/-- `props/border.cpp:394-422`. -/
def borderTopWidthR : Reg :=
  { name := .borderTopWidth, initial := [some .medium], load := [.borderTopWidth], writes :=
    [(.borderTopWidth, 0)] }

/-- `props/border.cpp:428-456`. -/
def borderRightWidthR : Reg :=
  { name := .borderRightWidth, initial := [some .medium], load := [.borderRightWidth], writes :=
    [(.borderRightWidth, 0)] }

/-- `props/border.cpp:462-490`. -/
def borderBottomWidthR : Reg :=
  { name := .borderBottomWidth, initial := [some .medium], load := [.borderBottomWidth], writes :=
    [(.borderBottomWidth, 0)] }

/-- `props/border.cpp:496-524`. -/
def borderLeftWidthR : Reg :=
  { name := .borderLeftWidth, initial := [some .medium], load := [.borderLeftWidth], writes :=
    [(.borderLeftWidth, 0)] }

/-- `props/border.cpp:343-386`. -/
def borderStyleR : Reg :=
  { name := .borderStyle, shorthand := true, initial := [some .none, some .none, some .none, some .none], load
    := [.borderLeftStyle, .borderRightStyle, .borderTopStyle, .borderBottomStyle], expand :=
    [(.borderTopStyle, 0), (.borderRightStyle, 1), (.borderBottomStyle, 2), (.borderLeftStyle, 3)] }

/-- `props/border.cpp:240-268`. -/
def borderTopStyleR : Reg :=
  { name := .borderTopStyle, initial := [some .none], load := [.borderTopStyle], writes := [(.borderTopStyle,
    0)] }

/-- `props/border.cpp:274-302`. -/
def borderRightStyleR : Reg :=
  { name := .borderRightStyle, initial := [some .none], load := [.borderRightStyle], writes :=
    [(.borderRightStyle, 0)] }

/-- `props/border.cpp:308-336`. -/
def borderBottomStyleR : Reg :=
  { name := .borderBottomStyle, initial := [some .none], load := [.borderBottomStyle], writes :=
    [(.borderBottomStyle, 0)] }

/-- `props/border.cpp:206-234`. -/
def borderLeftStyleR : Reg :=
  { name := .borderLeftStyle, initial := [some .none], load := [.borderLeftStyle], writes :=
    [(.borderLeftStyle, 0)] }

/-- `props/border.cpp:530-566`. -/
def borderTopRightRadiusR : Reg :=
  { name := .borderTopRightRadius, initial := [some .zero, some .zero], load := [.radiusC, .radiusD], writes
    := [(.radiusC, 0), (.radiusD, 1)] }

/-- `props/border.cpp:572-611`. -/
def borderTopLeftRadiusR : Reg :=
  { name := .borderTopLeftRadius, initial := [some .zero, some .zero], load := [.radiusA, .radiusB], writes :=
    [(.radiusA, 1), (.radiusB, 0)] }

/-- `props/border.cpp:617-653`. -/
def borderBottomRightRadiusR : Reg :=
  { name := .borderBottomRightRadius, initial := [some .zero, some .zero], load := [.radiusE, .radiusF],
    writes := [(.radiusE, 1), (.radiusF, 0)] }

/-- `props/border.cpp:659-698`. -/
def borderBottomLeftRadiusR : Reg :=
  { name := .borderBottomLeftRadius, initial := [some .zero, some .zero], load := [.radiusG, .radiusH], writes
    := [(.radiusG, 0), (.radiusH, 1)] }

/-- `props/border.cpp:704-733`. -/
def borderRadiusR : Reg :=
  { name := .borderRadius, initial := [some .zero, some .zero, some .zero, some .zero, some .zero, some .zero,
    some .zero, some .zero], load := [.radiusA, .radiusB, .radiusC, .radiusD, .radiusE, .radiusF, .radiusG,
    .radiusH], writes := [(.radiusA, 0), (.radiusB, 1), (.radiusC, 2), (.radiusD, 3), (.radiusE, 4),
    (.radiusF, 5), (.radiusG, 6), (.radiusH, 7)] }

/-- `props/border.cpp:739-797`. -/
def borderTopR : Reg :=
  { name := .borderTop, shorthand := true, initial := [some .medium, some .none, some .currentColor], load :=
    [.borderTopWidth, .borderTopStyle, .borderTopColor], expand := [(.borderTopWidth, 0), (.borderTopStyle,
    1), (.borderTopColor, 2)] }

/-- `props/border.cpp:803-839`. -/
def borderRightR : Reg :=
  { name := .borderRight, shorthand := true, initial := [some .medium, some .none, some .currentColor], load
    := [.borderRightWidth, .borderRightStyle, .borderRightColor], expand := [(.borderRightWidth, 0),
    (.borderRightStyle, 1), (.borderRightColor, 2)] }

/-- `props/border.cpp:845-881`. -/
def borderBottomR : Reg :=
  { name := .borderBottom, shorthand := true, initial := [some .medium, some .none, some .currentColor], load
    := [.borderBottomWidth, .borderBottomStyle, .borderBottomColor], expand := [(.borderBottomWidth, 0),
    (.borderBottomStyle, 1), (.borderBottomColor, 2)] }

/-- `props/border.cpp:887-923`. -/
def borderLeftR : Reg :=
  { name := .borderLeft, shorthand := true, initial := [some .medium, some .none, some .currentColor], load :=
    [.borderLeftWidth, .borderLeftStyle, .borderLeftColor], expand := [(.borderLeftWidth, 0),
    (.borderLeftStyle, 1), (.borderLeftColor, 2)] }

/-- `props/border.cpp:929-977`. -/
def borderR : Reg :=
  { name := .border, shorthand := true, initial := [some .medium, some .none, some .currentColor], load :=
    [.borderTopWidth, .borderTopStyle, .borderTopColor], expand := [(.borderTopWidth, 0), (.borderTopStyle,
    1), (.borderTopColor, 2), (.borderRightWidth, 0), (.borderRightStyle, 1), (.borderRightColor, 2),
    (.borderBottomWidth, 0), (.borderBottomStyle, 1), (.borderBottomColor, 2), (.borderLeftWidth, 0),
    (.borderLeftStyle, 1), (.borderLeftColor, 2)] }

/-- `props/border.cpp:983-1026`. -/
def borderWidthR : Reg :=
  { name := .borderWidth, shorthand := true, initial := [some .medium, some .medium, some .medium, some
    .medium], load := [.borderLeftWidth, .borderRightWidth, .borderTopWidth, .borderBottomWidth], expand :=
    [(.borderTopWidth, 0), (.borderRightWidth, 1), (.borderBottomWidth, 2), (.borderLeftWidth, 3)] }

/-- `props/border.cpp:1036-1072`. -/
def borderCollapseR : Reg :=
  { name := .borderCollapse, inherited := true, initial := [some .separate], load := [.borderCollapse], writes
    := [(.borderCollapse, 0)], copies := [(.borderCollapse, .borderCollapse)] }

/-- `props/border.cpp:1078-1114`. -/
def borderSpacingR : Reg :=
  { name := .borderSpacing, inherited := true, initial := [some .zero], load := [.borderSpacing], writes :=
    [(.borderSpacing, 0)], copies := [(.borderSpacing, .borderSpacing)] }

/-- `props/visibility.cpp:100-136`. -/
def clipPathR : Reg :=
  { name := .clipPath, initial := [some .none], load := [.clipPath], writes := [(.clipPath, 0)] }

/-- `props/display.cpp:52-80`. -/
def contentR : Reg :=
  { name := .content, initial := [some .normal], load := [.content], writes := [(.content, 0)] }

/-- `props/breaks.cpp:19-47`. -/
def breakAfterR : Reg :=
  { name := .breakAfter, initial := [some .auto], load := [.breakAfter], writes := [(.breakAfter, 0)] }

/-- `props/breaks.cpp:53-81`. -/
def breakBeforeR : Reg :=
  { name := .breakBefore, initial := [some .auto], load := [.breakBefore], writes := [(.breakBefore, 0)] }

/-- `props/breaks.cpp:87-115`. -/
def breakInsideR : Reg :=
  { name := .breakInside, initial := [some .auto], load := [.breakInside], writes := [(.breakInside, 0)] }

/-- `props/flex.cpp:19-47`. -/
def flexBasisR : Reg :=
  { name := .flexBasis, initial := [some .auto], load := [.flexBasis], writes := [(.flexBasis, 0)] }

/-- `props/flex.cpp:53-81`. -/
def flexDirectionR : Reg :=
  { name := .flexDirection, initial := [some .row], load := [.flexDirection], writes := [(.flexDirection, 0)]
    }

/-- `props/flex.cpp:87-115`. -/
def flexGrowR : Reg :=
  { name := .flexGrow, initial := [some .zero], load := [.flexGrow], writes := [(.flexGrow, 0)] }

/-- `props/flex.cpp:121-149`. -/
def flexShrinkR : Reg :=
  { name := .flexShrink, initial := [some .one], load := [.flexShrink], writes := [(.flexShrink, 0)] }

/-- `props/flex.cpp:155-183`. -/
def flexWrapR : Reg :=
  { name := .flexWrap, initial := [some .nowrap], load := [.flexWrap], writes := [(.flexWrap, 0)] }

/-- `props/flex.cpp:189-245`. -/
def flexFlowR : Reg :=
  { name := .flexFlow, shorthand := true, initial := [some .row, some .nowrap], load := [.flexDirection,
    .flexWrap], expand := [(.flexDirection, 0), (.flexWrap, 1)] }

/-- `props/flex.cpp:253-332`. -/
def flexR : Reg :=
  { name := .flex, shorthand := true, initial := [some .auto, some .zero, some .one], load := [.flexBasis,
    .flexGrow, .flexShrink], expand := [(.flexBasis, 0), (.flexGrow, 1), (.flexShrink, 2)] }

/-- `props/floats.cpp:18-46`. -/
def floatR : Reg :=
  { name := .float, initial := [some .none], load := [.float], writes := [(.float, 0)] }

/-- `props/floats.cpp:51-79`. -/
def clearR : Reg :=
  { name := .clear, initial := [some .none], load := [.clear], writes := [(.clear, 0)] }

/-- `props/fonts.cpp:19-68`. -/
def fontFamilyR : Reg :=
  { name := .fontFamily, inherited := true, phase := .font, initial := [some .sansSerif], load :=
    [.fontFamily], writes := [(.fontFamily, 0)], copies := [(.fontFamily, .fontFamily)] }

/-- `props/fonts.cpp:74-114`. -/
def fontWeightR : Reg :=
  { name := .fontWeight, inherited := true, phase := .font, initial := [some .regular], load := [.fontWeight],
    writes := [(.fontWeight, 0)], copies := [(.fontWeight, .fontWeight)] }

/-- `props/fonts.cpp:120-165`. -/
def fontWidthR : Reg :=
  { name := .fontWidth, inherited := true, phase := .font, initial := [some .normal], load := [.fontWidth],
    writes := [(.fontWidth, 0)], copies := [(.fontWidth, .fontWidth)] }

/-- `props/fonts.cpp:171-211`. -/
def fontStyleR : Reg :=
  { name := .fontStyle, inherited := true, phase := .font, initial := [some .normal], load := [.fontStyle],
    writes := [(.fontStyle, 0)], copies := [(.fontStyle, .fontStyle)] }

/-- `props/fonts.cpp:217-257`. -/
def fontSizeR : Reg :=
  { name := .fontSize, inherited := true, phase := .font, initial := [some .medium], load := [.fontSize],
    writes := [(.fontSize, 0)], copies := [(.fontSize, .fontSize)] }

/-- `props/fonts.cpp:263-364`. -/
def fontR : Reg :=
  { name := .font, shorthand := true, initial := [some .sansSerif, none, some .normal, some .normal, some
    .medium], load := [.fontFamily, .fontWeight, .fontWidth, .fontStyle, .fontSize], expand := [(.fontStyle,
    3), (.fontWidth, 2), (.fontSize, 4), (.fontFamily, 0), (.fontWeight, 1)] }

/-- `props/baseline.cpp:17-55`. -/
def lineHeightR : Reg :=
  { name := .lineHeight, inherited := true, initial := [some .normal], load := [] }

/-- `props/margin.cpp:20-48`. -/
def marginTopR : Reg :=
  { name := .marginTop, initial := [some .zero], load := [.marginTop], writes := [(.marginTop, 0)] }

/-- `props/margin.cpp:53-81`. -/
def marginRightR : Reg :=
  { name := .marginRight, initial := [some .zero], load := [.marginRight], writes := [(.marginRight, 0)] }

/-- `props/margin.cpp:86-114`. -/
def marginBottomR : Reg :=
  { name := .marginBottom, initial := [some .zero], load := [.marginBottom], writes := [(.marginBottom, 0)] }

/-- `props/margin.cpp:119-147`. -/
def marginLeftR : Reg :=
  { name := .marginLeft, initial := [some .zero], load := [.marginLeft], writes := [(.marginLeft, 0)] }

/-- `props/margin.cpp:152-190`. -/
def marginR : Reg :=
  { name := .margin, shorthand := true, initial := [some .zero, some .zero, some .zero, some .zero], load :=
    [.marginTop, .marginRight, .marginBottom, .marginLeft], expand := [(.marginTop, 0), (.marginBottom, 2),
    (.marginLeft, 3), (.marginRight, 1)] }

/-- `props/margin.cpp:196-225`. -/
def marginInlineStartR : Reg :=
  { name := .marginInlineStart, initial := [some .zero], load := [.marginLeft], writes := [(.marginLeft, 0)] }

/-- `props/margin.cpp:230-259`. -/
def marginInlineEndR : Reg :=
  { name := .marginInlineEnd, initial := [some .zero], load := [.marginRight], writes := [(.marginRight, 0)] }

/-- `props/margin.cpp:264-294`. -/
def marginInlineR : Reg :=
  { name := .marginInline, initial := [some .zero, some .zero, some .zero, some .zero], load := [.marginLeft,
    .marginRight, .marginLeft, .marginRight], writes := [(.marginLeft, 3), (.marginRight, 1)] }

/-- `props/margin.cpp:299-328`. -/
def marginBlockStartR : Reg :=
  { name := .marginBlockStart, initial := [some .zero], load := [.marginTop], writes := [(.marginTop, 0)] }

/-- `props/margin.cpp:333-362`. -/
def marginBlockEndR : Reg :=
  { name := .marginBlockEnd, initial := [some .zero], load := [.marginBottom], writes := [(.marginBottom, 0)]
    }

/-- `props/margin.cpp:367-397`. -/
def marginBlockR : Reg :=
  { name := .marginBlock, initial := [some .zero, some .zero, some .zero, some .zero], load := [.marginTop,
    .marginBottom, .marginTop, .marginBottom], writes := [(.marginTop, 0), (.marginBottom, 2)] }

/-- `props/outline.cpp:176-247`. -/
def outlineR : Reg :=
  { name := .outline, shorthand := true, initial := [some .medium, some .none, some .auto], load :=
    [.outlineWidth, .outlineStyle, .outlineColor], expand := [(.outlineWidth, 0), (.outlineStyle, 1),
    (.outlineColor, 2)] }

/-- `props/outline.cpp:89-137`. -/
def outlineColorR : Reg :=
  { name := .outlineColor, phase := .late, initial := [some .auto], load := [.outlineColor], writes :=
    [(.outlineColor, 0)] }

/-- `props/outline.cpp:142-170`. -/
def outlineOffsetR : Reg :=
  { name := .outlineOffset, initial := [some .zero], load := [.outlineOffset], writes := [(.outlineOffset, 0)]
    }

/-- `props/outline.cpp:53-83`. -/
def outlineStyleR : Reg :=
  { name := .outlineStyle, initial := [some .none], load := [.outlineStyle], writes := [(.outlineStyle, 0)] }

/-- `props/outline.cpp:19-47`. -/
def outlineWidthR : Reg :=
  { name := .outlineWidth, initial := [some .medium], load := [.outlineWidth], writes := [(.outlineWidth, 0)]
    }

/-- `props/overflow.cpp:19-47`. -/
def overflowXR : Reg :=
  { name := .overflowX, initial := [some .visible], load := [.overflowX], writes := [(.overflowX, 0)] }

/-- `props/overflow.cpp:53-81`. -/
def overflowYR : Reg :=
  { name := .overflowY, initial := [some .visible], load := [.overflowY], writes := [(.overflowY, 0)] }

/-- `props/overflow.cpp:87-115`. -/
def overflowBlockR : Reg :=
  { name := .overflowBlock, initial := [some .visible], load := [.overflowBlock], writes := [(.overflowBlock,
    0)] }

/-- `props/overflow.cpp:121-149`. -/
def overflowInlineR : Reg :=
  { name := .overflowInline, initial := [some .visible], load := [.overflowInline], writes :=
    [(.overflowInline, 0)] }

/-- `props/overflow.cpp:155-203`. -/
def overflowR : Reg :=
  { name := .overflow, shorthand := true, initial := [some .visible, some .visible], load := [.overflowX,
    .overflowY], expand := [(.overflowX, 0), (.overflowY, 1)] }

/-- `props/visibility.cpp:62-94`. -/
def opacityR : Reg :=
  { name := .opacity, initial := [some .one], load := [.opacity], writes := [(.opacity, 0)] }

/-- `props/padding.cpp:20-48`. -/
def paddingTopR : Reg :=
  { name := .paddingTop, initial := [some .zero], load := [.paddingTop], writes := [(.paddingTop, 0)] }

/-- `props/padding.cpp:53-81`. -/
def paddingRightR : Reg :=
  { name := .paddingRight, initial := [some .zero], load := [.paddingRight], writes := [(.paddingRight, 0)] }

/-- `props/padding.cpp:86-114`. -/
def paddingBottomR : Reg :=
  { name := .paddingBottom, initial := [some .zero], load := [.paddingBottom], writes := [(.paddingBottom, 0)]
    }

/-- `props/padding.cpp:119-147`. -/
def paddingLeftR : Reg :=
  { name := .paddingLeft, initial := [some .zero], load := [.paddingLeft], writes := [(.paddingLeft, 0)] }

/-- `props/padding.cpp:152-180`. -/
def paddingInlineStartR : Reg :=
  { name := .paddingInlineStart, initial := [some .zero], load := [.paddingLeft], writes := [(.paddingLeft,
    0)] }

/-- `props/padding.cpp:185-213`. -/
def paddingInlineEndR : Reg :=
  { name := .paddingInlineEnd, initial := [some .zero], load := [.paddingRight], writes := [(.paddingRight,
    0)] }

/-- `props/padding.cpp:218-256`. -/
def paddingR : Reg :=
  { name := .padding, shorthand := true, initial := [some .zero, some .zero, some .zero, some .zero], load :=
    [.paddingTop, .paddingRight, .paddingBottom, .paddingLeft], expand := [(.paddingTop, 0), (.paddingRight,
    1), (.paddingBottom, 2), (.paddingLeft, 3)] }

/-- `props/positioned.cpp:19-47`. -/
def positionR : Reg :=
  { name := .position, initial := [some .static], load := [.position], writes := [(.position, 0)] }

/-- `props/positioned.cpp:53-81`. -/
def topR : Reg :=
  { name := .top, initial := [some .auto], load := [.insetTop], writes := [(.insetTop, 0)] }

/-- `props/positioned.cpp:87-115`. -/
def rightR : Reg :=
  { name := .right, initial := [some .auto], load := [.insetRight], writes := [(.insetRight, 0)] }

/-- `props/positioned.cpp:121-149`. -/
def bottomR : Reg :=
  { name := .bottom, initial := [some .auto], load := [.insetBottom], writes := [(.insetBottom, 0)] }

/-- `props/positioned.cpp:155-183`. -/
def leftR : Reg :=
  { name := .left, initial := [some .auto], load := [.insetLeft], writes := [(.insetLeft, 0)] }

/-- `props/sizing.cpp:20-56`. -/
def boxSizingR : Reg :=
  { name := .boxSizing, initial := [some .contentBox], load := [.boxSizing], writes := [(.boxSizing, 0)] }

/-- `props/sizing.cpp:62-100`. -/
def widthR : Reg :=
  { name := .width, initial := [some .auto], load := [.width], writes := [(.width, 0)] }

/-- `props/sizing.cpp:107-145`. -/
def heightR : Reg :=
  { name := .height, initial := [some .auto], load := [.height], writes := [(.height, 0)] }

/-- `props/sizing.cpp:151-179`. -/
def minWidthR : Reg :=
  { name := .minWidth, initial := [some .auto], load := [.minWidth], writes := [(.minWidth, 0)] }

/-- `props/sizing.cpp:185-213`. -/
def minHeightR : Reg :=
  { name := .minHeight, initial := [some .auto], load := [.minHeight], writes := [(.minHeight, 0)] }

/-- `props/sizing.cpp:220-248`. -/
def maxWidthR : Reg :=
  { name := .maxWidth, initial := [some .none], load := [.maxWidth], writes := [(.maxWidth, 0)] }

/-- `props/sizing.cpp:254-282`. -/
def maxHeightR : Reg :=
  { name := .maxHeight, initial := [some .none], load := [.maxHeight], writes := [(.maxHeight, 0)] }

/-- `props/text.cpp:21-79`. -/
def textAlignR : Reg :=
  { name := .textAlign, inherited := true, initial := [some .left], load := [.textAlign], writes :=
    [(.textAlign, 0)], copies := [(.textAlign, .textAlign)] }

/-- `props/text.cpp:86-136`. -/
def textTransformR : Reg :=
  { name := .textTransform, inherited := true, initial := [some .none], load := [.textTransform], writes :=
    [(.textTransform, 0)], copies := [(.textTransform, .textTransform)] }

/-- `props/text.cpp:143-196`. -/
def whiteSpaceR : Reg :=
  { name := .whiteSpace, inherited := true, initial := [some .normal], load := [.whiteSpace], writes :=
    [(.whiteSpace, 0)], copies := [(.whiteSpace, .whiteSpace)] }

/-- `props/positioned.cpp:189-217`. -/
def zIndexR : Reg :=
  { name := .zIndex, initial := [some .auto], load := [.zIndex], writes := [(.zIndex, 0)] }

/-- `props/svg.cpp:19-55`. -/
def svgXR : Reg :=
  { name := .svgX, initial := [some .zero], load := [.svgX], writes := [(.svgX, 0)] }

/-- `props/svg.cpp:61-97`. -/
def svgYR : Reg :=
  { name := .svgY, initial := [some .zero], load := [.svgY], writes := [(.svgY, 0)] }

/-- `props/svg.cpp:103-139`. -/
def svgCXR : Reg :=
  { name := .svgCX, initial := [some .zero], load := [.svgCX], writes := [(.svgCX, 0)] }

/-- `props/svg.cpp:145-181`. -/
def svgCYR : Reg :=
  { name := .svgCY, initial := [some .zero], load := [.svgCY], writes := [(.svgCY, 0)] }

/-- `props/svg.cpp:187-223`. -/
def svgRR : Reg :=
  { name := .svgR, initial := [some .zero], load := [.svgR], writes := [(.svgR, 0)] }

/-- `props/svg.cpp:229-270`. -/
def fillR : Reg :=
  { name := .fill, inherited := true, initial := [some .black], load := [.fill], writes := [(.fill, 0)],
    copies := [(.fill, .fill)] }

/-- `props/svg.cpp:276-336`. -/
def svgDR : Reg :=
  { name := .svgD, initial := [some .none], load := [.svgD], writes := [(.svgD, 0)] }

/-- `props/svg.cpp:393-434`. -/
def strokeR : Reg :=
  { name := .stroke, inherited := true, initial := [some .none], load := [.stroke], writes := [(.stroke, 0)],
    copies := [(.stroke, .stroke)] }

/-- `props/svg.cpp:440-486`. -/
def strokeOpacityR : Reg :=
  { name := .strokeOpacity, inherited := true, initial := [some .one], load := [.strokeOpacity], writes :=
    [(.strokeOpacity, 0)], copies := [(.strokeOpacity, .strokeOpacity)] }

/-- `props/svg.cpp:342-387`. -/
def viewBoxR : Reg :=
  { name := .viewBox, initial := [some .none], load := [.viewBox], writes := [(.viewBox, 0)] }

/-- `props/svg.cpp:492-538`. -/
def fillOpacityR : Reg :=
  { name := .fillOpacity, inherited := true, initial := [some .one], load := [.fillOpacity], writes :=
    [(.fillOpacity, 0)], copies := [(.fillOpacity, .fillOpacity)] }

/-- `props/svg.cpp:544-589`. -/
def strokeWidthR : Reg :=
  { name := .strokeWidth, inherited := true, initial := [some .one], load := [.strokeWidth], writes :=
    [(.strokeWidth, 0)], copies := [(.strokeWidth, .strokeWidth)] }

/-- `props/counter.cpp:15-46`. -/
def counterResetR : Reg :=
  { name := .counterReset, initial := [some .empty], load := [.counterReset], writes := [(.counterReset, 0)] }

/-- `props/counter.cpp:52-83`. -/
def counterIncrementR : Reg :=
  { name := .counterIncrement, initial := [some .empty], load := [.counterIncrement], writes :=
    [(.counterIncrement, 0)] }

/-- `props/counter.cpp:89-120`. -/
def counterSetR : Reg :=
  { name := .counterSet, initial := [some .empty], load := [.counterSet], writes := [(.counterSet, 0)] }

/-- `props/list.cpp:12-49`. -/
def listStyleImageR : Reg :=
  { name := .listStyleImage, inherited := true, initial := [some .none], load := [.listStyleImage], writes :=
    [(.listStyleImage, 0)], copies := [(.listStyleImage, .listStyleImage)] }

/-- `props/list.cpp:55-92`. -/
def listStyleTypeR : Reg :=
  { name := .listStyleType, inherited := true, initial := [some .disc], load := [.listStyleType], writes :=
    [(.listStyleType, 0)], copies := [(.listStyleType, .listStyleType)] }

/-- `props/list.cpp:98-135`. -/
def listStylePositionR : Reg :=
  { name := .listStylePosition, inherited := true, initial := [some .outside], load := [.listStylePosition],
    writes := [(.listStylePosition, 0)], copies := [(.listStylePosition, .listStylePosition)] }

/-- `props/list.cpp:141-225`. -/
def listStyleR : Reg :=
  { name := .listStyle, shorthand := true, initial := [some .none, some .disc, some .outside], load :=
    [.listStyleImage, .listStyleType, .listStylePosition], expand := [(.listStyleImage, 0), (.listStyleType,
    1), (.listStylePosition, 2)] }

/-- `props/list.cpp:228-265`. -/
def markerSideR : Reg :=
  { name := .markerSide, inherited := true, initial := [some .matchSelf], load := [.markerSide], writes :=
    [(.markerSide, 0)], copies := [(.markerSide, .markerSide)] }

/-- `registry.cpp:33-244`. -/
def registry : List Reg :=
  [alignContentR, justifyContentR, justifySelfR, alignSelfR, justifyItemsR, alignItemsR, rowGapR,
   columnGapR, dominantBaselineR, baselineSourceR, alignmentBaselineR, baselineShiftR, verticalAlignR,
   backgroundAttachmentR, backgroundColorR, backgroundImageR, backgroundPositionR, backgroundRepeatR,
   backgroundR, colorR, displayR, tableLayoutR, captionSideR, transformOriginR, transformBoxR, transformR,
   visibilityR, borderTopColorR, borderRightColorR, borderBottomColorR, borderLeftColorR, borderColorR,
   borderTopWidthR, borderRightWidthR, borderBottomWidthR, borderLeftWidthR, borderStyleR, borderTopStyleR,
   borderRightStyleR, borderBottomStyleR, borderLeftStyleR, borderTopRightRadiusR, borderTopLeftRadiusR,
   borderBottomRightRadiusR, borderBottomLeftRadiusR, borderRadiusR, borderTopR, borderRightR,
   borderBottomR, borderLeftR, borderR, borderWidthR, borderCollapseR, borderSpacingR, clipPathR, contentR,
   breakAfterR, breakBeforeR, breakInsideR, flexBasisR, flexDirectionR, flexGrowR, flexShrinkR, flexWrapR,
   flexFlowR, flexR, floatR, clearR, fontFamilyR, fontWeightR, fontWidthR, fontStyleR, fontSizeR, fontR,
   lineHeightR, marginTopR, marginRightR, marginBottomR, marginLeftR, marginR, marginInlineStartR,
   marginInlineEndR, marginInlineR, marginBlockStartR, marginBlockEndR, marginBlockR, outlineR,
   outlineColorR, outlineOffsetR, outlineStyleR, outlineWidthR, overflowXR, overflowYR, overflowBlockR,
   overflowInlineR, overflowR, opacityR, paddingTopR, paddingRightR, paddingBottomR, paddingLeftR,
   paddingInlineStartR, paddingInlineEndR, paddingR, positionR, topR, rightR, bottomR, leftR, boxSizingR,
   widthR, heightR, minWidthR, minHeightR, maxWidthR, maxHeightR, textAlignR, textTransformR, whiteSpaceR,
   zIndexR, svgXR, svgYR, svgCXR, svgCYR, svgRR, fillR, svgDR, strokeR, strokeOpacityR, viewBoxR,
   fillOpacityR, strokeWidthR, counterResetR, counterIncrementR, counterSetR, listStyleImageR,
   listStyleTypeR, listStylePositionR, listStyleR, markerSideR]

/-! ## Computing values -/

variable {V : Type}

abbrev Style (V : Type) := Field → V

/-- The value of a property: its components, some of which may be absent
(`VerticalAlignProperty::Value`, `FontProperty::Value`). -/
abbrev Value (V : Type) := List (Option V)

/-- What `apply` calls to turn a declared value into a computed one, where it does:
`ColorProperty` (`background.cpp:288-291`), `FontWeightProperty` (`fonts.cpp:110-112`),
`FontSizeProperty` (`fonts.cpp:253-255`) and `OutlineColorProperty` (`outline.cpp:120-135`);
and the value each `Lit` stands for. -/
structure Calc (V : Type) where
  lit : Lit → V
  color : V → V → V
  weight : V → V → V
  size : V → Style V → V
  outline : V → V → V → V

/-- What `apply` of the property stores for a component. -/
def Calc.step (c : Calc V) (n : Name) (parent child : Style V) (x : V) : V :=
  match n with
  | .color => c.color x (parent .color)
  | .fontWeight => c.weight x (parent .fontWeight)
  | .fontSize => c.size x parent
  | .outlineColor => c.outline x (child .outlineStyle) (child .color)
  | _ => x

def assign (s : Style V) (f : Field) (x : V) : Style V := fun g => if g = f then x else s g

/-- The component a value has at an index. -/
def component (v : Value V) (i : Nat) : Option V := v[i]?.join

/-- One assignment of an `apply`. -/
def write (c : Calc V) (n : Name) (parent : Style V) (v : Value V) (s : Style V) (w : Field × Nat) : Style V :=
  match component v w.2 with
  | some x => assign s w.1 (c.step n parent s x)
  | none => s

/-- `Property::apply`. -/
def Reg.apply (c : Calc V) (r : Reg) (parent child : Style V) (v : Value V) : Style V :=
  r.writes.foldl (write c r.name parent v) child

/-- `Registration::initial`. -/
def Reg.initialValue (c : Calc V) (r : Reg) : Value V := r.initial.map (·.map c.lit)

/-- `Registration::load`. -/
def Reg.loadValue (r : Reg) (s : Style V) : Value V := r.load.map (fun f => some (s f))

/-- `Property::expandShorthand`: longhands are made of the components that are present. -/
def Reg.expandShorthand (r : Reg) (v : Value V) : List (Name × Value V) :=
  r.expand.filterMap (fun p => (component v p.2).map (fun x => (p.1, [some x])))

/-- `Default`, without `revert`.  `props/base.cpp:483-490`. -/
inductive Keyword | initial | inherit | unset
deriving DecidableEq, Repr

/-- `DefaultedProperty`: which value stands in for the keyword.  `props/base.cpp:498-545`. -/
def Reg.defaulted (c : Calc V) (r : Reg) (k : Keyword) (parent : Style V) : Value V :=
  match k with
  | .initial => r.initialValue c
  | .inherit => r.loadValue parent
  | .unset => if r.inherited then r.loadValue parent else r.initialValue c

/-- `resolveRegistration`, without legacy aliases.  `props/base.cpp:640-668`. -/
def find (n : Name) : Option Reg := registry.find? (fun r => decide (r.name = n))

/-- One entry of `CascadedValues::apply`.  `style/cascaded.cpp:75-84`. -/
def applyEntry (c : Calc V) (parent : Style V) (ph : Phase) (s : Style V) (e : Name × Value V) : Style V :=
  match find e.1 with
  | some r => if r.phase = ph then r.apply c parent s e.2 else s
  | none => s

/-- `CascadedValues::apply`: the entries in the order the map gives them. -/
def applyPhase (c : Calc V) (parent : Style V) (es : List (Name × Value V)) (s : Style V) (ph : Phase) : Style V :=
  es.foldl (applyEntry c parent ph) s

/-- The four phases of `computeValues`.  `style/computer.cpp:384-393`. -/
def applyAll (c : Calc V) (parent : Style V) (es : List (Name × Value V)) (s : Style V) : Style V :=
  [Phase.preFont, .font, .normal, .late].foldl (applyPhase c parent es) s

/-- The entries a declaration becomes once shorthands are expanded. -/
def Reg.entries (r : Reg) (v : Value V) : List (Name × Value V) :=
  if r.shorthand then r.expandShorthand v else [(r.name, v)]

/-- An element with a single declaration, of the given value. -/
def declare (c : Calc V) (r : Reg) (parent child : Style V) (v : Value V) : Style V :=
  applyAll c parent (r.entries v) child

/-- One step of `initialComputedValues`; the style under construction is also the parent. -/
def setInitial (c : Calc V) (s : Style V) (r : Reg) : Style V :=
  if r.shorthand then s else r.apply c s s (r.initialValue c)

/-- `initialComputedValues`, with the registrations in the order the map gives them.
`props/base.cpp:672-683`. -/
def initialValues (c : Calc V) (fresh : Style V) (order : List Reg) : Style V := order.foldl (setInitial c) fresh

/-- One registration of `inheritsComputedValues`. -/
def inheritOne (parent s : Style V) (r : Reg) : Style V :=
  if r.inherited then r.copies.foldl (fun s p => assign s p.1 (parent p.2)) s else s

/-- `inheritsComputedValues`.  `props/base.cpp:688-715`. -/
def inheritsValues (c : Calc V) (fresh : Style V) (order : List Reg) (parent : Style V) : Style V :=
  order.foldl (inheritOne parent) (initialValues c fresh order)

/-- `computeValues` for the cascaded entries in the order the map gives them. -/
def computeValues (c : Calc V) (fresh : Style V) (order : List Reg) (parent : Style V)
    (es : List (Name × Value V)) : Style V :=
  applyAll c parent es (inheritsValues c fresh order parent)

end Verif.Registry
