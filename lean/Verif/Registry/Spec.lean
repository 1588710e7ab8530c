import Verif.Registry.Model
/-!
# What CSS says of the properties

Written from the CSS property tables, apart from the registrations: which values of an
element a property sets, what each starts as, and which pass from parent to child.
-/
namespace Verif.Registry

variable {V : Type}

/-- The values a property sets, one for each component of its value in order.  Of
`Math::Radii`, A and B are the vertical and horizontal radius of the top left corner, C and D
the horizontal and vertical one of the top right, E and F the vertical and horizontal one of
the bottom right, G and H the horizontal and vertical one of the bottom left.  A corner
property is given the horizontal radius first. -/
def sets : Name → List Field
  | .alignContent => [.alignContent] | .justifyContent => [.justifyContent] | .justifySelf => [.justifySelf]
  | .alignSelf => [.alignSelf] | .justifyItems => [.justifyItems] | .alignItems => [.alignItems]
  | .rowGap => [.rowGap] | .columnGap => [.columnGap] | .gap => [.rowGap, .columnGap] | .order => [.order]
  | .dominantBaseline => [.dominantBaseline] | .baselineSource => [.baselineSource]
  | .alignmentBaseline => [.alignmentBaseline] | .baselineShift => [.baselineShift]
  | .verticalAlign => [.baselineSource, .alignmentBaseline, .baselineShift]
  | .backgroundAttachment => [.backgroundAttachment] | .backgroundColor => [.backgroundColor]
  | .backgroundImage => [.backgroundImage] | .backgroundPosition => [.backgroundPosition]
  | .backgroundRepeat => [.backgroundRepeat]
  | .background => [.backgroundColor, .backgroundImage, .backgroundPosition, .backgroundRepeat, .backgroundAttachment]
  | .color => [.color] | .display => [.display] | .tableLayout => [.tableLayout] | .captionSide => [.captionSide]
  | .transformOrigin => [.transformOrigin] | .transformBox => [.transformBox] | .transform => [.transform]
  | .visibility => [.visibility] | .opacity => [.opacity] | .clipPath => [.clipPath]
  | .borderTopColor => [.borderTopColor] | .borderRightColor => [.borderRightColor]
  | .borderBottomColor => [.borderBottomColor] | .borderLeftColor => [.borderLeftColor]
  | .borderTopWidth => [.borderTopWidth] | .borderRightWidth => [.borderRightWidth]
  | .borderBottomWidth => [.borderBottomWidth] | .borderLeftWidth => [.borderLeftWidth]
  | .borderTopStyle => [.borderTopStyle] | .borderRightStyle => [.borderRightStyle]
  | .borderBottomStyle => [.borderBottomStyle] | .borderLeftStyle => [.borderLeftStyle]
  | .borderColor => [.borderTopColor, .borderRightColor, .borderBottomColor, .borderLeftColor]
  | .borderStyle => [.borderTopStyle, .borderRightStyle, .borderBottomStyle, .borderLeftStyle]
  | .borderWidth => [.borderTopWidth, .borderRightWidth, .borderBottomWidth, .borderLeftWidth]
  | .borderTop => [.borderTopWidth, .borderTopStyle, .borderTopColor]
  | .borderRight => [.borderRightWidth, .borderRightStyle, .borderRightColor]
  | .borderBottom => [.borderBottomWidth, .borderBottomStyle, .borderBottomColor]
  | .borderLeft => [.borderLeftWidth, .borderLeftStyle, .borderLeftColor]
  | .border => [.borderTopWidth, .borderTopStyle, .borderTopColor, .borderRightWidth, .borderRightStyle,
      .borderRightColor, .borderBottomWidth, .borderBottomStyle, .borderBottomColor, .borderLeftWidth,
      .borderLeftStyle, .borderLeftColor]
  | .borderTopLeftRadius => [.radiusB, .radiusA] | .borderTopRightRadius => [.radiusC, .radiusD]
  | .borderBottomRightRadius => [.radiusF, .radiusE] | .borderBottomLeftRadius => [.radiusG, .radiusH]
  | .borderRadius => [.radiusA, .radiusB, .radiusC, .radiusD, .radiusE, .radiusF, .radiusG, .radiusH]
  | .borderCollapse => [.borderCollapse] | .borderSpacing => [.borderSpacing]
  | .content => [.content] | .breakAfter => [.breakAfter] | .breakBefore => [.breakBefore]
  | .breakInside => [.breakInside]
  | .flexBasis => [.flexBasis] | .flexDirection => [.flexDirection] | .flexGrow => [.flexGrow]
  | .flexShrink => [.flexShrink] | .flexWrap => [.flexWrap] | .flexFlow => [.flexDirection, .flexWrap]
  | .flex => [.flexBasis, .flexGrow, .flexShrink]
  | .float => [.float] | .clear => [.clear]
  | .fontFamily => [.fontFamily] | .fontWeight => [.fontWeight] | .fontWidth => [.fontWidth]
  | .fontStyle => [.fontStyle] | .fontSize => [.fontSize]
  | .font => [.fontFamily, .fontWeight, .fontWidth, .fontStyle, .fontSize]
  | .lineHeight => [.lineHeight]
  | .marginTop => [.marginTop] | .marginRight => [.marginRight] | .marginBottom => [.marginBottom]
  | .marginLeft => [.marginLeft] | .margin => [.marginTop, .marginRight, .marginBottom, .marginLeft]
  | .marginInlineStart => [.marginLeft] | .marginInlineEnd => [.marginRight]
  | .marginInline => [.marginLeft, .marginRight]
  | .marginBlockStart => [.marginTop] | .marginBlockEnd => [.marginBottom] | .marginBlock => [.marginTop, .marginBottom]
  | .outline => [.outlineWidth, .outlineStyle, .outlineColor] | .outlineColor => [.outlineColor]
  | .outlineOffset => [.outlineOffset] | .outlineStyle => [.outlineStyle] | .outlineWidth => [.outlineWidth]
  | .overflowX => [.overflowX] | .overflowY => [.overflowY] | .overflowBlock => [.overflowBlock]
  | .overflowInline => [.overflowInline] | .overflow => [.overflowX, .overflowY]
  | .paddingTop => [.paddingTop] | .paddingRight => [.paddingRight] | .paddingBottom => [.paddingBottom]
  | .paddingLeft => [.paddingLeft] | .paddingInlineStart => [.paddingLeft] | .paddingInlineEnd => [.paddingRight]
  | .padding => [.paddingTop, .paddingRight, .paddingBottom, .paddingLeft]
  | .position => [.position] | .top => [.insetTop] | .right => [.insetRight] | .bottom => [.insetBottom]
  | .left => [.insetLeft] | .boxSizing => [.boxSizing]
  | .width => [.width] | .height => [.height] | .minWidth => [.minWidth] | .minHeight => [.minHeight]
  | .maxWidth => [.maxWidth] | .maxHeight => [.maxHeight]
  | .textAlign => [.textAlign] | .textTransform => [.textTransform] | .whiteSpace => [.whiteSpace]
  | .zIndex => [.zIndex] | .svgX => [.svgX] | .svgY => [.svgY] | .svgCX => [.svgCX] | .svgCY => [.svgCY]
  | .svgR => [.svgR] | .fill => [.fill] | .svgD => [.svgD] | .stroke => [.stroke] | .strokeOpacity => [.strokeOpacity]
  | .viewBox => [.viewBox] | .fillOpacity => [.fillOpacity] | .strokeWidth => [.strokeWidth]
  | .counterReset => [.counterReset] | .counterIncrement => [.counterIncrement] | .counterSet => [.counterSet]
  | .listStyleImage => [.listStyleImage] | .listStyleType => [.listStyleType]
  | .listStylePosition => [.listStylePosition]
  | .listStyle => [.listStyleImage, .listStyleType, .listStylePosition] | .markerSide => [.markerSide]

/-- The initial value in the CSS property tables. -/
def initially : Field → Lit
  | .alignContent | .justifyContent | .alignItems | .rowGap | .columnGap | .content | .fontWidth | .fontStyle
  | .whiteSpace | .lineHeight => .normal
  | .justifyItems => .legacy
  | .justifySelf | .alignSelf | .dominantBaseline | .baselineSource | .tableLayout | .breakAfter | .breakBefore
  | .breakInside | .flexBasis | .outlineColor | .insetTop | .insetRight | .insetBottom | .insetLeft | .width | .height
  | .minWidth | .minHeight | .zIndex => .auto
  | .alignmentBaseline => .baseline
  | .backgroundAttachment => .scroll | .backgroundColor => .transparent | .backgroundRepeat => .repeat
  | .color | .fill => .black
  | .display => .inline | .captionSide => .top | .transformOrigin => .half | .transformBox => .viewBox
  | .visibility | .overflowX | .overflowY | .overflowBlock | .overflowInline => .visible
  | .borderTopColor | .borderRightColor | .borderBottomColor | .borderLeftColor => .currentColor
  | .borderTopWidth | .borderRightWidth | .borderBottomWidth | .borderLeftWidth | .outlineWidth | .fontSize => .medium
  | .borderTopStyle | .borderRightStyle | .borderBottomStyle | .borderLeftStyle | .outlineStyle | .backgroundImage
  | .transform | .clipPath | .float | .clear | .maxWidth | .maxHeight | .textTransform | .svgD | .stroke | .viewBox
  | .listStyleImage => .none
  | .radiusA | .radiusB | .radiusC | .radiusD | .radiusE | .radiusF | .radiusG | .radiusH | .baselineShift
  | .backgroundPosition | .borderSpacing | .flexGrow | .marginTop | .marginRight | .marginBottom | .marginLeft
  | .outlineOffset | .paddingTop | .paddingRight | .paddingBottom | .paddingLeft | .svgX | .svgY | .svgCX | .svgCY
  | .svgR | .order => .zero
  | .borderCollapse => .separate | .flexDirection => .row | .flexWrap => .nowrap
  | .flexShrink | .opacity | .strokeOpacity | .fillOpacity | .strokeWidth => .one
  | .fontFamily => .sansSerif | .fontWeight => .regular | .position => .static | .boxSizing => .contentBox
  | .textAlign => .start
  | .counterReset | .counterIncrement | .counterSet => .empty
  | .listStyleType => .disc | .listStylePosition => .outside | .markerSide => .matchSelf

/-- "Inherited: yes" in the CSS property tables. -/
def passesDown : Field → Bool
  | .color | .captionSide | .borderCollapse | .borderSpacing | .fontFamily | .fontWeight | .fontWidth | .fontStyle
  | .fontSize | .lineHeight | .textAlign | .textTransform | .whiteSpace | .visibility | .dominantBaseline | .fill
  | .stroke | .strokeOpacity | .fillOpacity | .strokeWidth | .listStyleImage | .listStyleType | .listStylePosition
  | .markerSide => true
  | _ => false

/-- What a declared value computes to, given the style of the parent and the final style of
the element itself: a colour may refer to the inherited one, a weight and a size to the
parent's, an outline colour to the element's own outline style and colour. -/
def asComputed (c : Calc V) (n : Name) (parent own : Style V) (x : V) : V :=
  if n = .color then c.color x (parent .color)
  else if n = .fontWeight then c.weight x (parent .fontWeight)
  else if n = .fontSize then c.size x parent
  else if n = .outlineColor then c.outline x (own .outlineStyle) (own .color)
  else x

/-- Computing is settled: computing an already computed value gives it back, whatever the
surroundings, and the initial colour, weight and size do not depend on the surroundings. -/
structure Calc.Lawful (c : Calc V) : Prop where
  color_idem : ∀ v x y, c.color (c.color v x) y = c.color v x
  weight_idem : ∀ v x y, c.weight (c.weight v x) y = c.weight v x
  size_idem : ∀ v p q, c.size (c.size v p) q = c.size v p
  outline_idem : ∀ v s k s' k', c.outline (c.outline v s k) s' k' = c.outline v s k
  color_lit : ∀ x, c.color (c.lit .black) x = c.lit .black
  weight_lit : ∀ x, c.weight (c.lit .regular) x = c.lit .regular
  size_lit : ∀ p, c.size (c.lit .medium) p = c.lit .medium

/-- The styles of the elements of a document: that of the document itself, which has initial
values, and that of an element under one with a computed style, for any entries. -/
inductive Computed (c : Calc V) (fresh : Style V) (order : List Reg) : Style V → Prop
  | root : Computed c fresh order (initialValues c fresh order)
  | child (p : Style V) (es : List (Name × Value V)) : Computed c fresh order p →
      Computed c fresh order (computeValues c fresh order p es)

/-- Whether a property is registered and not a shorthand. -/
def Longhand (n : Name) : Prop := ∃ r ∈ registry, r.name = n ∧ r.shorthand = false

end Verif.Registry
