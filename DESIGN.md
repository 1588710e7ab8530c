# Formal model of paper-muncher in Lean 4

Source modelled: `/repo` (C++), read as text; nothing was compiled or run.
Paths below are relative to `/repo/src`; `E/` stands for `src/vaev-engine/`.

## Layout of the development

`lean/Verif/<Area>/Model.lean` holds the model (one definition per C++ function,
each with a `file:lines` citation), `Spec.lean` (or a `Spec` section of the
properties file) an independent statement of what is meant, `Lemmas.lean` helper
facts, and `Props.lean` the property theorems with a non-vacuity `example`
beside each.  Theorem names start with the property id (`C08_…`).

Conventions used throughout:

* loops become structural recursion; loops whose termination is part of the
  property take a fuel argument and the property speaks about *every* fuel
  (`diverges : ∀ n, run n = none`) or about *some* fuel (`∃ n, run n = some _`);
* `panic`, failed `unwrap`, null dereference and index underflow are distinct
  outcomes, not default values;
* a property that is false of the code is kept in `properties.jsonl`, its
  negation is proved with a concrete witness (`…_fails`, `…_false`), and the part
  that is true is proved under an explicit guard with suffix `_partial`.

## Trusted base

* Lean 4.33.0 kernel; axioms at most `propext`, `Classical.choice`, `Quot.sound`.
* My reading of the C++.  The definitions are hand written, not extracted.
* The Karm library is not in `/repo`.  Its containers and helpers are modelled
  by their documented meaning: `Vec` as `List`, `Map` as an association list with
  insertion order, `Opt`/`Res` as `Option`/`Except`, `Symbol`/`String` equality as
  equality, `contains`/`iterSplit`/`startWith`/`endWith` as on lists, `Au`
  (fixed-point length) as `Int`.
* Not modelled: floating point (`f64`; lengths are integers or rationals), text shaping,
  the drawing of outlines and pixels, PDF encoding, HTTP transport, the garbage collector.

## Plan per property

| id | model | method |
|----|-------|--------|
| C01 | heap of five-pointer nodes, the five edit operations statement by statement | refinement to a map node → list of children, induction over the history |
| C02 | same | negation by a two-node witness; guarded version is C01 |
| C03 | fuelled walk over the heap | equality with the preorder of the abstract tree |
| C04 | `Vec<String>` token list, attribute splitting | invariant over histories; refinement to an ordered set; `replace` refuted |
| C05–C07 | driver state + suspended commands, small-step scheduler | invariant over schedules, frame theorem per command, race witness |
| C08–C10 | selector datatype, tree positions, matcher functions | equivalence with an inductive/`∃` semantics, by induction on the selector |
| C11 | index maps + hit counting | refinement to brute force under stated guards; witnesses outside |
| C12, C13 | entries with the comparison key, insertion function | fold invariant = maximum; permutation invariance; C13 refuted |
| C14 | `CounterSet` as list, operations in code order | refinement to a scoping specification |
| C15, C16 | the five generators | arithmetic: value of the representation equals the input |
| C17 | fallback dispatch with fuel | divergence witness; termination under guard |
| C18–C20 | scanner over `List Char`, parser functions | round-trip by induction; witnesses for accepted ill-formed text |
| C21 | stack of contexts | equality with innermost-declaration lookup |
| C22, C23 | recursive-descent parser over tokens with fuel | progress lemmas; divergence witness for top-level CDO/CDC; skipping theorem |
| C24 | media query datatype | equivalence with boolean evaluation |
| C25, C26 | page selector, parse loop with fuel | exact characterisation; refutations |
| C27 | token trees, depth-guarded expansion | termination for all inputs; cycle theorem; substitution semantics |
| C28, C29 | grid forming over rows and spans | invariants over the row loop; refutation for trailing spans |
| C30 | harmonisation function | case analysis, all widths; refutation of the style tie break |
| C31–C34 | box tree with vertical metrics, discovery and render passes, page loop | conservation by induction on tree and page; progress measure (boxes not yet placed); divergence witnesses |
| C35 | binary search over the recorded positions | correctness against a linear scan specification |
| C36, C38, C47, C76–C82 | sizing functions over `Int`, horizontal block layout over a list of children | case analysis; induction over siblings; refutations |
| C37 | as C31 (block layout) | heights and positions equal a recursive specification |
| C39 | both loops of `runBatchAsync` in a world whose answers depend on all that happened before | induction over the inputs; the trace is matched against relations that say what is loaded and saved |
| C40 | collapsing loop over `List Char` | relation `Squeeze` that does not know the loop; induction; idempotence |
| C41 | wrapper state machine inside of the model of the whole box builder (see C83) | mutual induction: output marks = input marks; invariant: rows hold cells only |
| C42, C43 | object heap, descriptor operations | refutations by witness, guarded positive theorems |
| C44, C45 | decoding functions | all inputs by induction/case analysis |
| C46 | recursive fetch over tree with an oracle | induction over the tree |
| C48, C49, C50, C52 | selector parser and matcher, specificity of lists, pseudo-elements | equivalence with the CSS definitions, totality |
| C51 | expansion of shorthands | per shorthand, all values |
| C53–C56 | counter styles: fixed, frame of the marker, `extends`, fallback | arithmetic, walk with a shrinking set of unseen names |
| C57, C58 | XML reader and writer | progress measure; round trip over written trees |
| C59 | page rules in order | fold = last matching declaration |
| C60–C62 | media, comments, well-formed sheets | progress; grammar-directed correctness |
| C63–C66 | declared values, custom properties, `toggle()` | case analysis; refutations |
| C67–C70 | CSS lexer over code points | tiling theorem for all texts; spellings per token kind |
| C71 | as C28, all tables | bounds invariant |
| C72, C73 | ranges of columns and rows | induction over groups; refutations |
| C74 | loop over an edge, with fuel | progress; divergence witness for `rowspan=0` |
| C75 | reading of the span attributes | case analysis |
| C83 | whole box builder: states of a context (parent, root inline box), all display values, pseudo-elements, tables, as mutual recursion over the document | box tree and document read as sequences of marks; mutual induction, each step adds what the node shows at the end |
| C84 | the same; the panic of `rootInlineBox` is `none` | mutual induction: contexts of text have a root inline box |
| C85 | the same | invariant of the state over the mutual induction |
| C86 | `<br>` as a step of the builder | direct; the claim about empty lines is refuted |
| C87 | same recursion as C46, pictures by element | induction over the tree; unique identities of elements assumed |
| C88 | loop over the sources of a face, loop over the faces | equivalence with "first usable source"; refuted for `local()` |
| C89 | images as a graph, fetching with fuel | ends if and only if the address is well-founded in the graph; refuted for a loop |
| C90 | window with document, media and cache; five operations | invariant over histories: the cache fits |
| C91 | media of a window under resizing | invariant; orientation refuted |
| C92 | heap of script objects, internal methods function by function | set on a chain with a read-only property; definition refuted |
| C93 | same; fuel | invariant over histories: prototypes are older; then induction over the chain |
| C94 | same; functions as a parameter | direct; missing getters and setters refuted |
| C95 | `sameValue` with abort as an outcome | exact set of aborting pairs; numbers refuted |
| C96–C98 | value parsers over component values, lengths and `calc()` over `Rat` | literals as a separate datatype with its own text and value; all units, spacing, contexts |
| C99 | the chain of keyword tests of `display` | exact characterisation of what is accepted; refutations |
| C100, C101 | four-side shorthands for any value parser; the border loop with fuel | case analysis; induction over the parts, permutation |
| C102–C104 | colour functions with undefined conversions as an outcome; mix weights and hues | nearest-integer specification, linear arithmetic; refutations |
| C105–C107 | table of the 140 registrations: fields that `load` reads and `apply` writes, shorthands; separate CSS tables | writes of a declaration as slots, table facts by kernel evaluation, lifted to all styles; refutations |
| C108–C110 | initial values and inheritance over any order of registrations, phases of `computeValues` | fold invariants, permutation invariance, settled styles by induction over the tree; refutations |
| C111–C121 | the eighty states of the HTML tokenizer, the table of 2231 references, the newline filter; the tree builder is a parameter | invariant by state class for every document; a grammar of documents with sources and meanings, and a simulation per part; refutations by witnesses |
| C122–C128 | the HTML tree builder: stack, formatting list, twenty-one insertion modes, foreign content, adoption agency, foster parenting; coupled with the tokenizer | a grammar of pages with their tokens and trees; simulation per part with an invariant that ties stack, formatting list, mode and heap to the open elements; refutations by witnesses, two of them for every bound |
| C129–C132 | the same program, on every list of tokens and every document | an invariant kept by every handler in every mode: nodes with parents and children, stack, formatting list, what may be in a node; instances by what the tokens are made of. Read back as paths from the document and as the tree that is seen |
| C133 | `FlexFormatingContext::run` as a function on lists of items, lengths being rational numbers and rounding a parameter; the freezing loop with fuel | every turn freezes an item if no minimum is negative; a container for which the loop does not end |
| C134, C135 | the same | invariants of the loop: frozen items fit, and there is a share below (above) which all frozen at their minimum (maximum) stay there. From it one share for all (`Fair`), without rounding; with rounding, the portions when no limit matters |
| C136–C141 | the same | lines by induction over the items; places by the sums of sizes, `Spaced` and `Stacked` being independent of the model |
| C142, C143 | the same, from the items to their places | the items of a line are in order, the lines too, and each item inside its line; growing never takes more than there is |
| C144–C147 | `TableFormatingContext::computeWidthAndHeight` and `run` on the grid of C28, lengths being rational numbers; what lives from one layout to the next is an argument and a result | every step of the automatic algorithm only widens columns; mixing and stretching keep room. Invariant of the kept widths over all histories of layouts |
| C148, C149, C151 | the same, with the heights and the loop over rows | the rows of a cell have its parts; positions of rows as sums; cells that share no slot share no column or no row |
| C150 | the same | the widths depend on what is kept only through the intrinsic widths and the key of the cache; rows all laid out do not depend on where they were |
| C152 | the same, one page | three bands of rows one below the other |
| C153 | the same; panics, divisions by zero and numbers that wrap around have no result | case analysis; witnesses |
| C154 | `Selector::parse` over component values with fuel for calls; `SelParse/Spec.lean` is the grammar of Selectors with the selector each text stands for, and a strict part of it | texts of the strict part are read as something with the same meaning in every tree, by induction over the text, with regrouping of combinators proved from the meaning; joined with C08; witnesses for the rest |
| C155 | the same | a bound on calls from the size of the text, by induction on fuel; more fuel changes nothing |
| C156 | the same; reading behind the end is a distinct outcome | invariant over all functions for safe texts; witnesses |
| C157 | `AnB::parse` | every spelling of the grammar by case analysis; witnesses |
| C158 | `_parseQualifiedNameSelector`, `Namespace` | direct; witness |
| C159 | the same | induction over leading white space; witnesses |
| C160 | the passes of `_paintStackingContext` over a tree of fragments, giving a list of draws; `Paint/Spec.lean` lists what the boxes show in tree order | every pass is a choice from one walk; each look met is chosen by exactly one pass, so all passes together are a permutation of the walk, by induction over the tree; witnesses for static `z-index` and floats |
| C161 | the same, with the stable sort of a stack | the sort splits at level 0; what each pass adds at level 0 and apart from it is found by induction over the tree; witnesses |
| C162 | the same; `Inside` gives the effects on the way to a fragment | from C160 by induction over paths; general refutation for SVG elements |
| C163 | the same | from C162; general refutation for roots without border |
| C164 | the same | from C162; witnesses in SVG |
| C165, C166, C172 | the parsers of `flex`, `flex-flow`, `overflow` on the tokens of a declaration; `Short/Spec.lean` has the grammars of CSS as relations of texts and values | accepted if and only if the text is of the grammar, with its value, by case analysis over what each alternative reads; witnesses |
| C167 | `border-radius`, with both sides of the slash | the same, for texts of any length |
| C168, C169 | the loops of `list-style` and `outline` | induction over the parts in any order; general refutations for positions, a colour before `auto`, widths that are words |
| C170 | the loop of `font`, its size, line height and family, and the longhands it stands for | induction over the parts; every parser of it steps over texts without a comma, so a second family is never accepted |
| C171 | `SrcFontDescriptor::parse` | induction over the sources; general refutations for `local()` and `tech()` |
| C173, C174 | `BackgroundPosition` and `Circle` | the items of a text, then all forms of the grammar of CSS; general refutations |
| C175 | parsers, `_resolveTransform` and `_resolveTransformOrigin` | by induction over the functions: the product of the matrices is the composition of what the functions do; refuted for relative lengths |
| C176 | `ValueParser<Transform>` | induction over the list; refusals for names, counts, units; refuted for `matrix()` with too many numbers |
| C177 | `ValueParser<TransformOrigin>` | two values; refuted for one value and for the vertical one first |
| C178 | `_expandSvgRotate`, `_fixTransformNumberToDimensions` | the rewritten list is one of C175; refuted for mixed rotations and for commas |
| C179 | `_computeEquivalentTransformOfSVGViewport`, `_commitRoot`, `_commitElement` | invariant of all roots in the tree that is made, by mutual induction; refuted for zero and negative view boxes |
| C180 | painting of drawings as matrices per shape | painting under `m·T` is painting under `m`, then `T`, by mutual induction; shapes in document order under the product of their groups' matrices (`Svg/Views.lean`); refuted without a view box |
| C181 | `intrinsicAspectRatio`, `_defaultSizing` | cases, with C179 |
| C182 | the attribute parsers, `fromSize`, `resolve` | the parsers of Values on the text with `px` behind it; percentages against the view that the nearest `svg` opens (`Svg/Views.lean`); refuted for units and trailing white space |
| C183 | the bounding boxes of fragments | induction on the tree: least upper bound of rectangles; refuted for empty groups and transformed children |
| C184 | failures of `commit` as `Except` | induction on the tree; refuted for `min-content` and `calc(5)` |
| C185 | `Service.handle`, `Service.finish` over the driver of C05–C07, with the route table of `service.cpp` | induction on histories: requests = answers + suspended commands; shape of each reply; codes and names of errors refuted |
| C186 | the same | each request is one driver command, so C05 and C06 lift; dead sessions by cases on the routes; refuted for scripts |
| C187 | `readTimeouts` | set then get, for all three given; refuted for absent members and for values that are no timeouts |
| C188 | `setRect`, `Media::changeViewport` | set then get for the size; refuted for the position, for a height of zero (division by zero) and for fractions |
| C189 | `readPrint`, `derivePrintSettings` | all members by a relation of what is asked; refuted for background, ranges, shrinking |
| C190 | `handle`, `finish` | request, load, request in any reachable state |
| C191 | `Prop'.parse`, `parsePosition`, `parseAttachment` under `readDecl` | own tables of CSS's words; both directions; the words missing and the extra ones listed |
| C192 | `readDecl`, `toggleLoop` with steps | parsers that get ahead end; those that do not are refuted |
| C193 | `parseCounters` | induction over the list; all that is accepted is characterised; defaults refuted |
| C194 | `parseContent` | single items as written; lists, `none`, `counters()` refuted |
| C195 | `parseAlign` | equivalence with a grammar; baselines refuted |
| C196 | `parseSpacing`, `parseGap`, `parseOpacity`, `parseZIndex` | both directions; ranges refuted |
| C197 | `parseVAlign`, `VAlign.expand` | induction over the parts in any order; resetting refuted |
| C198 | `resolveName`, `wideKw` | own table of names; case and older names refuted |
| C199 | `derivePrintSettings`, `pageSize`, `printed` | closed form of each page by its number; refuted for sizes in landscape |
| C200 | `Resolution`, `parseResolution`, `scaledViewport` | own table of dots per pixel; refuted for zero, negative scales, pictures, trailing text |
| C201 | `resolvePageMargin` | sides of the area against declared amounts; refuted for font units and on scaled paper |
| C202 | `paintMargins`, `paintPage` | point sets of the nine regions; counting of margin boxes; refuted for footnotes and headers |
| C203 | `HeaderFooterDecorator` with its memo | memo invariant over the pages, no panic; refuted for sizes relative to the view |
| C204 | `picture` | direct; refuted for overflow to the left, growing, ignored options |
| C205 | `entry` | equivalence with a relation on options |
| C206 | `transports`, `behind`, on the runs of C39 | invariant over all events of a run |
| C207 | `reduce`, `step`, `run` of the browser | refinement: every run by buttons simulates a trail of pages behind and ahead |
| C208 | `run` with panics | from C207 for buttons; refuted for Alt and left arrow |
| C209 | `run`, `loadLocation`, `World.view` | invariant of patient runs; refuted for a visit during a load; recovery by reloading for all runs |
| C210 | `run` | invariant over all runs; refuted for leaving a slow page |
| C211 | `Inspect.apply`, `lines`, `inspector` | structural induction on documents, induction on clicks; refuted for the choice |
| C212 | `hslFunc` | computation for every written form; refuted for numbers without `%` and for `none` |
| C213 | `readColour`, `mixFunc`, `resolve` | induction on what a nested mixture means; refuted for spaces |
| C214 | the parsers of shapes and of `clip-path` | texts of shapes with white space against the parsers, induction over the points of a polygon; refuted for values separated by spaces in `inset()` and behind `round` |
| C215 | `_applyClip`, `_resolveBackgroundPosition`, the boxes of a fragment | edges, centres and radii as coordinates; refuted for relative units, rounded corners, centres outside the box, crossing insets |
| C216 | `Rule::parse` and the rules it is made of, `StyleSheet::parse`, the walk over the rules | what a sheet contributes as an inductive relation on its rules, induction on it; refuted for at-rules that are not known, capitals, `@supports`, `@import` |
| C217 | `NamespaceRule::parse` | induction on the declarations; refuted for declarations behind rules and in blocks |
| C218 | `PageRule::parse`, `PageAreaRule::parse`, the walk over page rules | as C216; refuted for margin boxes in capitals |
| C219 | the walks over counter and font rules | as C216; refuted for blocks of `@media` |
| C220 | all of these | strong induction on the size of the sheet; refuted for `@counter-style` without name, empty `@namespace`, selectors that end too early and commas between page selectors |
| C221 | the descriptors of `@font-face`, `parseDeclarations`, `FontFace` | texts of descriptors against their parsers, a fold whose fields are the last settings; refuted for names of several words, `font-stretch`, two angles, ranges, `unicode-range`, negative percentages and an empty name |
| C222 | `title` on the heap of links of C01 | the specification is HTML's, on child lists and document order; refuted for comments, white space and drawings |
| C223 | `getTextContent` | text nodes in document order; refuted for comments |
| C224 | `documentElement`, `body` | first of the children; refuted for `frameset` |
| C225 | `ownerDocument`, `baseURI` | chains of ancestors; refuted for the document itself and for `base` |
| C226 | `_propagateBodyBackgroundToHtml` | writes to two elements, all others unchanged |
| C227 | `styleDocument`, `styleElement`, `generatePseudoElement` | induction over the height of the tree, siblings being disjoint; `computeValues` is a parameter; refuted for a second styling |
| C228 | `layoutContentBox`, `layoutRoot` and how each formatting context hands on boxes out of the flow; `Oof/Spec.lean` lists, by a walk down the tree, every such box with the nearest box that holds it | induction over the fuel for what is placed, over the number of boxes for termination; a box that does not hold a pending one holds nothing that can come out of it; refuted in tables, flex containers without items, floating items and positioned inline boxes |
| C229 | `_paintChildren` over the fragments, with placeholders filled in | counting: filling a placeholder that is there once adds what is painted of its fragment; refuted for flex containers, tables and floating items |
| C230 | `scrollableOverflow` over the same fragments | every box has a fragment reached by children alone; `merge` is a least upper bound; refuted away from the origin |
| C231 | `computeBoxMetrics`, the rectangle made in `layoutContentBox` and that of `layoutRoot` | arithmetic; refuted on pages with margins |
| C232 | `computeValues`, `_lookupFontface`, `_updateFontface` over a tree of elements and pseudo-elements; `Fonts/Spec.lean` says which face is meant (`RightFace`) | invariant down the tree: every face is that of the element’s own font |
| C233 | `ComputationContext` as it is filled for the root and for other elements, `resolve(FontSize)` | the same invariant; refuted for the keywords |
| C234 | `Resolver::from` and the resolver of texts beside the values computed before | case analysis of the units; refuted for units of the root, line heights, inherited lengths and margins of texts |
| C235 | `_proseStyleFromStyle`, `_spanStyleFromStyle` | case analysis; refuted for line heights, right to left and justified text |
| C236 | the passes of `computeValues` as one list of declarations for the cascade of C12 (`Hints/Model.lean`); `AuthorSays`, `LastOf` in `Hints/Spec.lean` | declarations that are lower than the winner can be put in anywhere; `align` is applied after the cascade, so it is refuted |
| C237 | `_considerHtmlPresentationalHint` over the parser of sizes | computation over tokens; refuted for numbers, `size` and `bgcolor` |
| C238 | `_applySvgElementSizingRules`, `parsePresentationAttribute` | from C236 and case analysis |
| C239 | `computeFlexBaseSize` (`Basis/Model.lean`); `specBase` in `Basis/Spec.lean` after CSS Flexbox 9.2 | case analysis; refuted for calc() with percentages, keywords, small border boxes and containers whose size is not their property |
| C240 | `getMinAutoPrefMainSize`, `getMinMaxPrefferedSize`; `specMin`, `specMax` after CSS Flexbox 4.5 | case analysis; refuted for content boxes, items that scroll and fit-content |
| C241 | `getMainSizeMinMaxContentContribution`, the sums over the items | inequality for one item, summed; refuted for margins, minimum sizes, padding and wrap-reverse |
| C242 | `_determineMainSize` for columns; the three places where margins and paddings are computed | from the definitions, over all items; refuted for stretched columns and percentages |
| C243 | baselines of `inline.cpp`, `block.cpp`, `replaced.cpp` (`Baseline/Model.lean`); `linesOf`, `specBaseline` in `Baseline/Spec.lean`: all lines of a box with their places | induction on the box; refuted for several lines, padding, boxes that scroll, boxes without lines, boxes out of the flow, flex containers and tables |
| C244 | `strut` for the place held free in a line; `specWidth` after CSS 2.2, 10.3.9 | case analysis; refuted for margins and padding |
| C245 | the loops of `table.cpp` 507–607 over one line of the grid, both directions as one definition, and the grids of borders they write (`Seams/Model.lean`); `Tiles`, `Above`, `Beside`, `Beats` in `Seams/Spec.lean` | invariant of the loop over stretches: where they begin and end, which cells they visit, and that the last write for a cell is its own; tables built by `Table.build` without overlapping cells meet `Tiles`; refuted for groups, for rows with cells of several rows, for hidden borders |
| C246 | the same, with panic and endless loops as outcomes | refuted for two cells of several rows side by side at the foot of a table and for `rowspan=0`; proved for the rest |
| C247 | the loop of `table.cpp` 1573–1680 over rows with the choice of breaks, the repeated header and footer, the numbers of breaks and the loop over pages of `print.cpp` 151–211 (`Rows/Model.lean`), with wrapping numbers, panic and endless paging as outcomes; `Sound`, `Small`, `Honest`, `Fits` in `Rows/Spec.lean` | invariant of the loop over rows, then induction over the pages; refuted for a row that does not fit below the header (endless pages) and for tall rows without cells (panic) |
| C248 | the same; `Asked` in `Rows/Spec.lean` | from the same induction; refuted for rows with cells that go on in the next row |
| C249 | the same; `Full` in `Rows/Spec.lean` | from the same induction; refuted for groups with `break-inside: avoid` and rows with `break-after: avoid` |
| C250 | the writes of `table.cpp` 748–775 to the four grids of widths and where cells read them, 713–720 (`Rims/Model.lean`), numbers of 64 bits and writes outside of the vector as outcomes; `OnSide` in `Rims/Spec.lean`, `Tiles` of `Seams` | which writes there are, in terms of rectangles, then that all writes to one place agree; tables built by `Table.build` meet `Tiles`; refuted for `rowspan=0` |
| C251 | the loops of `table.cpp` 608–672 along the sides of the table (`Rims/Model.lean`); `AtEdge`, `begins` in `Rims/Spec.lean` | the loop stops at the first slot of every cell along the side, by induction; refuted: gaps where there is no cell, panic for tables without cells |
| C252 | `unparse`, style/selector.cpp 1097–1152, with `repr` of the kinds of selectors (`Format/Model.lean`), what Karm prints for enumerations left open; `ReadsAs` in `Format/Spec.lean` by the lexer (C67) and the parser (C154) | the text of classes and ids is spelled as tokens that have the grammar of selectors, then `C70_text_read_partial` and `C154_means_partial`; refuted for type selectors, `*`, names without namespace and nested selectors |
| C253 | `_determineComputedType`, `_loadDocumentAsync` and the four loaders, `loader.cpp` 26–132 (`Mime/Model.lean`), with the types of Karm, the decoder and the parsers as parameters; `HasType`, `Shows`, `Below` in `Mime/Spec.lean` | case analysis over all hierarchies of types; refuted for declared encodings |
| C254 | `_loadTextDocument`, `viewSourceAsync`, and which built-in sheets `fetchDocumentAsync` adds | from the definitions; refuted for the tree of texts and for variants of Markdown |
| C255 | `ordinaryToPrimitive` over the heap of `Script` (`Coerce/Model.lean`); `Method`, `Gives`, `order` in `Coerce/Spec.lean` after ECMAScript 7.1.1.1 | induction over the relation; refuted where no string is wanted |
| C256 | `createException` over the same heap | from C42; refuted for the name |
| C257 | `getCrossSizeMinMaxContentContribution`, the space and the sizes of lines, their stretching and sum (`Across/Model.lean`); `wanted` in `Across/Spec.lean` after CSS Flexbox 9.9.2 | inequality for one item, maxima and sums; refuted for margins, given sizes, `min-content` and `wrap-reverse` |
| C258 | `_buildVoidElement` and `_buildInputProse` for `<input>` with the attributes of an element (`Forms/Model.lean`); texts, discs, squares and the colours of points in `Forms/Spec.lean` after HTML 4.10.5 | case analysis on the attributes; rounded rectangles by inequalities; the boxes of `Build`; refuted for types in capitals, the value `on`, placeholders beside empty values, passwords, labels and the boxes of hidden controls |

## Assumptions of single areas

* DOM, WebDriver: `uuid` never repeats; a command between two awaits is atomic.
* Selectors: feature flags have their default values.
* Counters: integers are unbounded (`isize` in the code); grapheme counting is abstract.
* XML: Karm's character classes, `Io::atoi` and `Map` as documented.
* Media queries: the reading of numbers and lengths is a parameter.
* CSS parser: works on tokens (the lexer is a model of its own, joined in C22/C62 text theorems).
* CSS lexer: Karm `Re` combinators are greedy, ordered, and restore the cursor when they fail; `nOrN(1, 5)` takes one to
  five; an unclosed comment does not match `untilAndConsume`; white space is space, tab, newline, return, form feed.
* Declarations: the parser of a property is a parameter.
* Tables: boxes that are not part of the table are left out, as `advanceUntil` skips them; sizes are unbounded.
* Pagination: vertical direction only; margins, paddings and heights per page are given (`Met`); a text, image, table,
  flex box or inline block is one unbroken box of given height (its content is laid out in place); tables' own breaking
  (`table.cpp` from 673) is left out; margins and sizes are unbounded integers.
* Sizes: lengths are integers in the smallest unit; quotients are exact and products with them rounded down (`f64` in
  the code); `Limits<Au>::MAX` is a parameter; a length or percentage is a function of the reference length.
* Running elements: what Karm's `search` promises (`SearchOk`) is a hypothesis, shown satisfiable; the elements met by
  the layout of each page are given.
* Boxes: Karm's `eat(Re::space())` takes the whole run; a strut counts as a rune of a prose; spans (fonts, colours) of a
  prose are left out; an `<svg>` element is one atom; the style of an element is its display, `white-space`,
  `text-transform` and `caption-side`; the text of a pseudo-element is given.
* Load: what the network answers is a function of the element and the address; documents are already parsed; the
  identities of elements differ. Sheets are compared as texts, their parser is that of C20–C23.
* Run: rendering and printing are functions of documents and media (they do not fail and touch nothing else); the world
  outside answers each request as it likes, depending on all earlier events.
* Script: references are valid; objects have the ordinary methods; functions are a parameter that changes heaps only in
  ways the operations do (`Code.Good`); exception objects are not kept; numbers are NaN, two zeros and others.
* Values: numbers are exact rationals, `f64` is not modelled; `Io::atof` and `Io::atou` behave as their callers rely on
  (`ReadsHex`); `Math::round` goes to a nearest integer (`Nearest`); `Math::Insets` has its constructors of one to four
  values; the tables of named and system colours are parameters. `hsl()` and the interpolation of colours are Karm's.
* Registry: values are opaque; `resolve` of a colour, weight or size gives back an already computed one and the initial
  colour, weight and size do not depend on the surroundings (`Calc.Lawful`); the members of `Math::Radii` go clockwise
  from the vertical radius of the top left corner; a parent with the default SVG group has the initial SVG values.

* HTML (C111–C121): a rune is a `Char`, so that decoding of the bytes is outside.  The tree
  builder is an arbitrary function from the tokens given so far to a text state or nothing, asked
  after start tags only, which is where the program switches the state.  Parse errors and
  positions are left out.  `C114`, `C115` and `C120` are about documents of the grammar in
  `Html/Spec.lean`; an ampersand there is followed by a character that is no letter, digit or `#`
  unless it starts a reference or (in attributes) a query parameter.
* Tree builder (C122–C128): `parse depth doc` is the tokenizer and the tree builder together;
  `depth` bounds how deep the handlers call each other, and reaching it is the fault `endless`,
  which in the program is a recursion without end.  The tables of names (`E/dom/defs`,
  `E/html/defs`) are copied, `svgNames` and `svgKeys` in `Tree/Spec.lean` a second time.
  Parse errors are left out.  The theorems about pages speak of the pages `Page.ok`: of the
  elements of HTML, all but `template`, `frameset`, `plaintext`, `image` and `math`; formatting
  elements not inside one of their own name; `p` without blocks in it; table parts with their
  `tbody`; drawings without `foreignObject`, `desc` and `title`.
* Flex: lengths and numbers are rational, `au` is any rounding (theorems without `au` are exact); base sizes, limits,
  margins and the cross size an item gets when laid out are given. Only the pass that places things; not intrinsic sizes,
  fragmentation, nor the size the container gets in the end.
* Cells (layout of tables): lengths are rational, without rounding. A cell is what it asks for (`CellBox`): intrinsic widths,
  padding and `width` by what percentages refer to, `height`, and its height when laid out at a width; the borders of slots are
  given. Widths and heights are `auto`, lengths or percentages. Only the pass that places things, a cell always in one piece:
  not the search for breakpoints, cells broken over pages, relative positions, fragments. `Cells` asks that no two cells share a
  slot; every table made of rows has it where no cell spans rows or none spans columns (`built`, from C28).

* Reading selectors (C154–C159): the text is the component values that C11–C13 speak of; white space is one token between two others.
  Numbers are without bound. Names are compared as sequences of characters. `Io::atoi` is Karm's. The pseudo-classes that matcher.cpp
  does not know are one value. Functions other than `:not()` and the four `:nth-…()` are not part of the grammar in `Spec.lean`.
* Painting (C160–C164): Karm's `Scene::Stack` sorts its nodes by `zIndex`, keeping the order of those with the same one; `Clip`, `Transform`,
  `Opacity` and `Clear` nodes have the `zIndex` of what they hold. Where things are drawn, colours, fonts and the shapes of clips are not modelled; borders
  that a table hands to its cells count as theirs. `z-index` is at least `Limits<isize>::MIN` (hypothesis of C161).
* Shorthands (C165–C174): numbers are those of C94–C101, without exponents; tokens of a declaration come without white space, as
  `consumeDeclarationValue` gives them, those of a function with it. Karm's `Math::Radii` takes radii from the top start corner round the box.
  `Res::take` of a plain value leaves the value (three radii take the second twice, `values/borders.cpp:175`). `Gfx::FontWeight::REGULAR` and `BOLD` are 400
  and 700. The colour parser is a parameter that takes neither styles nor `auto`.

* Transforms (C175–C178): exact numbers; `Math::sin`, `cos`, `tan`, `PI` are parameters of which nothing is assumed (except `tan 0 = 0` for
  `skew()` with one argument). `Trans2f::apply`, `multiply` (first the left one), `translate`, `scale`, `skew` and `rotate` of Karm are
  modelled as their names say. Where `translated` and `rotated` put what they add is not to be seen in the repository: both are modelled
  (`Order`). How `Io::format` writes a number is a parameter; C178 is claimed where it loses nothing. The reference box is given.
* Drawings (C179–C184): exact numbers (no `f64`, no rounding to 1/64 px). `Rect::mergeWith`, `grow`, the bound of an ellipse and `inverse` of a
  translation are Karm's and taken as their names say; paths are given by the rectangle around them. C179–C181 assume that `scaled` of Karm
  scales before the matrix acts (`Order.before`). `normalizedDiagonal` is a parameter. The contents of `foreignObject`, clipping, page breaks and
  paints are left out. The text of an attribute is a list of tokens with white space; `px` joins a number, unit or word at its end.
* WebDriver service (C185–C190): paths are lists of segments and routes are matched segment by segment (Karm's `Http::Router`); a body is a JSON value
  or not JSON (`readJsonAsync`); objects are association lists, `getOr` of a value that is not an object is the default; `Uuid::parse`, `Url::parse`,
  `asFloat`, `asBool`, error texts not written in the repository and the contents of answers about documents are parameters (`Env`); theorems about
  printing assume the conversions give numbers and truth values as they are (`Faithful`), C190 that the texts of uuids read back (`RoundTrip`). Writing
  to the connection does not fail. A division of `Au` by zero counts as the end of the process. What is printed is a job (paper and margins in
  millimetres), not its PDF.
* Keyword (C191–C198): the value of a declaration comes without white space, the contents of functions with it (`css/parser.cpp:242-266`, `361-388`).
  `Tok` has no comments; see C61 for those. `apply` of the properties is in `Verif.Registry`. Enumerators of different C++ types with one name are one `Kw`.
  A declaration that is `unread` becomes a deferred property, which does nothing unless it has `var()` in it (C63).
* Sheet (C199–C206): paper sizes, `pageSize`, `shrink`, `fromTwoPoint`, `Map::lookupOrPut`, the parsing of options and the schemes that transports
  take are Karm's and assumed as written in `Sheet/Model.lean`. The number of pages and the styles of pages are arbitrary; how layout finds them is C27–C31.
  The height of a header and the overflow of a document are arbitrary functions of document and medium. That documents load their sheets and pictures
  through the same client is read in the code, not proved.
* Browser (C207–C211): the toolkit hands over one action at a time and the `Loaded` of a task when the task ends; addresses, their reading and writing,
  and documents are abstract; sessions are shorter than 2^64 events, as `usize` counts. The rows of the inspector are modelled, not their pictures.
* Hue (C212, C213): the conversion of hue, saturation and lightness to channels, rounding, the mixing of two colours in a space and π are Karm's and
  parameters; numbers are exact.
* Clip (C214, C215): coordinates are exact, where the code rounds to 1/64 px; which texts are paths, the outline of a path, of a rectangle with round corners and of
  an ellipse, `Rect::round` and the square root are Karm's. Fragments of drawings (SVG) are left out.
* Rules (C216–C220): the input is the list of rules and declarations that the CSS parser (C04 and others) makes; which declarations are understood is a parameter
  (`prop`, the registry), as are the number reader of media queries, the sheet an `@import` names and the conditions of `@supports`. Rules nested in style rules are
  not spoken of. Rules that match no element or have no declaration are passed over when rules are compared.
* Face (C221): numbers are exact; whether an angle is equal to 14 degrees is a parameter (the code compares in radians); the width is in percent where Karm's
  `FontStretch` has steps. Sources are those of C171, and what is loaded of them is C88.
* Doc (C222–C227): trees are those of C01. `computeValues` is an arbitrary function of the root's values, the parent's (or the element's) values and the node; every
  element has values of its own, so that writing those of one does not change those of another. Counters are not part of C227 (they are C14).
* Oof (C228–C231): layout in one piece with fragments; pages, trial layouts and running elements are left out. The areas of boxes are given, not computed; the rows
  and groups of a table are passed over, and the lines of a flex container have no order. A placeholder is known by its box, so boxes have different names where it matters.
* Fonts (C232–C235): the fonts that can be had, their metrics, rounding and the fixed-point numbers are parameters; the cascade and shorthands are those of C12 and C51, so an element comes with its declarations in force. One property stands for all lengths that are not inherited, `border-spacing` for those that are. `float` is exact.
* Attributes that style (C236–C238): attributes come as the tokens of their text; the readers of colours and of presentation attributes other than width and height are parameters; values are numbered as in C12.
* Sizes of flex items (C239–C242): the sizes of the content of an item and the size of its first layout are given; lengths are rational numbers that are not rounded; a calc() is a sum of a length and a percentage. The result feeds `Flex.Item` (`base`, `lo`, `hi`) of C133–C143.
* Baselines (C243, C244): the places of lines and children are given, as layout finds them; only the alphabetic baseline is modelled, as it is the only one used; lengths are rational numbers.
* Collapsed borders (C245, C246): borders are given as resolved; `Buf::operator[]` of Karm is taken to panic out of bounds (were it not checked, C246 would be undefined behaviour); tables whose cells overlap are left out.
* Tables on pages (C247–C249): the layout of one row is a parameter (`lay`) that says how high the row is and which of its cells are done; the theorems are for tables all of whose rows are not over half the page (rows that are never broken) and whose cells are of one row (`Small`), that are done when they fit (`Honest`) and fit on an empty page (`Fits`); the table is the only content that breaks.
* Borders of cells and tables (C250, C251): borders are given as resolved; the vector of Karm is taken to panic out of bounds; cells do not overlap and the grid has less than 2^64 slots.
* Printed selectors (C252): texts with brackets are not read back; nothing is assumed of the text of pseudo-classes and attribute selectors.
* Loading (C253, C254): `Ref::Uti` of Karm is any set of types with any relation `conformsTo`; the decoder of UTF-8 may reject bytes; requests and redirections are not modelled.
* Conversion of objects (C255, C256): as for Script objects; methods that are accessors are not covered.
* Flex containers across (C257): lengths are rational numbers; the sizes of contents and the lines are given; sizes are border boxes, so `box-sizing` does not matter.
* Form controls (C258): a box is painted as its rounded rectangle with a border between the outer and the inner edge (`Spec.boxAt`); the painting is that of Karm.

## Where the code differs from what is meant

Each of these is a theorem (`…_fails`, `…_false`).

* Cascade: `!important` does not reverse the origins; `font` does not reset the weight; `gap` is not
  registered.
* Rule index: list specificity is summed; `[*|a="v" i]` is missed; attributes with the same local name collide.
* Counters: no inheritance from the parent and from inside siblings; `list-item` is lost; `cyclic` with negatives;
  `fixed n` off by one and a crash; redefining `decimal` recurses for ever; the sign stands before the prefix.
* XML: white space around `=` is rejected; no normalisation of values and line ends; `<a` at the end is accepted;
  content behind the root is ignored; void elements, raw text and comments do not round-trip.
* Page selectors: left and right are swapped, `:blank` is inverted, named pages never match, comma lists hang,
  `@page :` reads past the end.
* Media queries: `all` is false, `not x` true, `only x` false, the third `and` is dropped; several texts crash.
* CSS parser: CDO and CDC at the top loop for ever; an identifier without colon swallows a block; a lone `!` swallows
  the next token; comments stay in values.
* CSS lexer: escapes of six digits are cut; escapes in names are not decoded; an escaped character in a name swallows
  what follows; backslash, return, newline breaks a string.
* Declarations: chains of 32 variables are rejected; `var()` in brackets is not expanded; cyclic variables ignore their
  fallback; an empty custom property counts as absent; `revert` crashes; custom properties are resolved where used.
* Tables: `rowspan=0` runs on into the next group or stops early; a border's style never decides; `<colgroup span=n>`
  loses its first column; a row spanned into has an empty range; the border loop hangs on `rowspan=0`; `colspan=1001`
  is 1, `rowspan=x` is 0.
* Pagination: content after the first child of the root is missing from the last page; `break-after: avoid` repeats the
  box before it, or prints for ever; `break-before: page` cuts off the rest in unpaginated layout and inside unbroken
  boxes; an empty box taller than the page, `break-after: page` on the last child, a running last child or a top margin
  taller than the content area make printing go on for ever.
* Margins: they do not collapse through empty boxes nor with those of the parent; a marker with a margin moves its item.
* Sizes: blocks ignore `min-width` and `max-width`; an image with a width loses its proportions when bounded, one with a
  height loses its height; `right` without width puts a box at the left; `left` and `right` override `width` and ignore
  margins; percentages of relative offsets refer to the grandparent, those of vertical margins to the height, those of
  widths to a block widened by earlier siblings.
* Running elements: on a page without one, the first of the document is shown; `element(x)` always shows it;
  `first-except` is `first`.
* White space: the space between two inline elements of a block is lost (`<b>a</b> <b>c</b>` shows "ac"); spaces of
  adjacent elements are both kept; the indentation of the first line of a `<pre>` is lost; `text-transform: capitalize`
  and the one of an element with `display: contents` have no effect.
* Boxes: an inline `::before` or `::after` of a table aborts the program; an inline `<input>` overwrites the content of
  its parent; a stray table part is shown before the text that precedes it; a stray row keeps blocks for cells; an
  `img` or `input` with `display: table` shows nothing; a second `<br>` leaves no empty line; a child with
  `display: contents` of a table has its rows turned into one anonymous cell.
* Loading: `rel` must be exactly `stylesheet`; `media` and `type` of `link` and `style` are ignored; `@import` and
  `@font-face` inside of `@media` load nothing; a `style` in SVG or inside of an `img` is ignored; a `local()` font that is
  present leaves the face without a font; an SVG image that contains itself is fetched for ever.
* Runs: with separate outputs, inputs of equal stems overwrite each other; a window is always `portrait`; rendering a
  window into which nothing was loaded aborts.
* Script objects: a property that exists is never changed though the write reports success; a write to an object that
  inherits makes the property in the last prototype; a setter is never called; a missing getter throws; comparing
  booleans, symbols, objects or different strings aborts.
* Values: `#zzz` is a colour; `calc()` ignores everything after the second operand, cannot be nested and must be in
  lower case; `0.0` is not a length; -1vmin is the larger side; `display: inline flow-root` is rejected, `ruby` alone is
  a block; blockifying an internal table box reads a byte never written; `inlinify` makes blocks.
* Borders: an invalid hash colour is skipped, repeated parts are accepted, `inset` is not a style.
* Colours: channels out of range are undefined behaviour, fractions are dropped with commas, `color()` rounds channels
  to 0 or 1 first, takes every space for sRGB and an unknown one for white; `color-mix()` accepts any percentages.
* Registry: `inherit` swaps the radii of two corners, turns the sides of `border-width/-style/-color`, gives all borders
  the parent's top one and both inline margins the parent's right one; `initial` of `font` and `vertical-align` resets less
  than they set and a border colour starts black; `visibility` and `dominant-baseline` are not inherited, `unset` of `font`
  and `list-style` is `initial`; logical and physical margins, and `border-radius` and its corners, overwrite each other in
  map order, even important ones; `margin-inline: a b` is `b b`; `gap` and `order` are not registered; an outline colour
  that is not declared does not follow the element's colour.
* C112: a reference without semicolon followed by `=` in an attribute leaves
  `_matchedCharReferenceNoSemiColon` set; the next `&` that is no reference is cut to that length,
  which reads past the end of `_temp` (`html/lexer.cpp:3522-3577`).
* C116: `&#x41g;` — the hexadecimal state tests for letters instead of hexadecimal digits
  (`html/lexer.cpp:3736-3790`).
* C120: `<!DOCTYPE html  PUBLIC …>` (two spaces) loses the identifiers and asks for quirks;
  `<!DOCTYPE html >` leaves `>` in `_peek`, so that the next comment is read wrongly.
* C121: `_inForeignContent` is never set, so that CDATA sections are comments.
* C123: `<svg><desc></p>` and `<math><mi></p>` do not end: the handler of foreign content pops up
  to an integration point and gives the token to itself again.  `<table><tr><td><svg></td></tr>`
  and `<span><table><tr><td></span><td>` end in a panic; `<b><i><u><s><em><div></b>` inserts past
  the end of the formatting list.
* C124: a document that ends inside its title has no `body`.
* C125: a comment between the document type and `<html>` is there twice; of nested objects the
  inner one is dropped; the content of a template becomes part of the page; the comment after
  `</html>` is in the body.
* C125: in `<b><div><b><div><div><div><table><tr><b></b><td>CELL</td></b>text` the adoption agency
  inserts the table before itself (the place is that of the current element and not that of the
  common ancestor, `parser.cpp:621-687`): the table, its cell and all that follows are in no
  list of children.  In `<table><b><div>x</b>` it moves the `div` into the table.
* C126: in `<font color=red>a<font color=blue>b</font>c</font>` the first `</font>` ends the outer
  element, so that `c` is blue; bold text closed in a cell after a paragraph stays open in the
  cell and after the table.
* C127: after a comment the attributes of `<html>` are put in the namespace `""`; a second
  `<html>` gives its attributes to the current element.
* C128: an attribute `size`, `color` or `face` ends a drawing.
* C133: an item with a negative minimum (`width: -10px; flex: none`; negative lengths are not refused) beside one that
  grows makes `_resolveFlexibleLengths` run for ever: the violation of frozen items is counted (`layout/flex.cpp:1014-1021`).
* C136: a first item that takes no room does not count as first (`size = 0` is tested, not the number of items).
* C137, C138: `space-evenly`, `end`, `right` are as `flex-start`; `column-reverse` and `wrap-reverse` do nothing;
  `space-between` with one item in `row-reverse` goes to the left. `gap` is parsed and read nowhere; there is no `order`.
* C140: items aligned by their baselines are not; with an `auto` margin at the end and no room the margin at the beginning
  is forgotten.
* C144: paddings in percent are resolved against the width of the table as it was before (`layout/table.cpp:979`, zero at first).
* C145: a caption wider than the columns widens the table, not its columns; with `table-layout: fixed`, borders of columns that say
  their width are taken off what is given out and belong to no column (`:895`).
* C146: the width of the table leaves out `border-spacing` (`:1805`; the built-in style sheet has 2px), so the last cell stands out.
* C147: the test whether a table finds room takes the smaller one of its preferred width and of what its caption needs (`:1173`),
  so without a caption it never uses anything but its preferred width.
* C148: a cell over several columns is measured at the width of its first one (`:1260`).
* C150: `table-layout: fixed` appends the widths of every layout to those before (`:917`); rows with `height: auto` are counted
  again (`:1211`); measuring the table does not make the layout compute its widths again (`:1332`).
* C151: so a second layout gives less height than asked for; rows that stand in the table itself are not in `rows`, and a given
  height divides by their number, zero (`:1378`).
* C152: `layoutHeaderFooterRows` moves on by the height of the rows at the top of the table (`:1730`); the size of the footer is
  computed with the number of rows of the header (`:1405`).
* C153: a `colgroup` of one column without `col` has an empty range, and a width of it divides by zero (`:1059`); fixed layout reads
  the first row of a table without rows (`:856`) and divides by the sum of the widths, which may be zero (`:910`); `rowspan=0`.
* C154: `.a .b > .c` is read as `.a (.b > .c)`, so that it matches a `.c` in an `.a.b`, and `.a + .b ~ .c` as `.a + (.b ~ .c)`
  (`style/selector.cpp:22-33`, `:965-972`; the tests of the repository expect the first). `.a [x]` is read as `.a[x]` (`:811-820`). `.a >b `
  is an error, and `.a >b .c` loses the `b` (`:824-828`). `[lang|=en]` takes `lang` for a prefix (`:676`). `:nth-child(n of .a)` is an
  error (`:310`). Escapes are kept (`.md\\:flex`). Names of pseudo-classes and `odd`, `even`, `n` are compared with capitals. `|a` matches nothing.
* C156: `.`, `a:`, `a|`, `[a=]` and `:nth-child()` are read past their end (`:914`, `:924`, `:688`, `:757`, `:414`), and `:nth-child(n + (1))`
  reads the first character of an empty text (`:304`).
* C157: `n1` and `2n1` are taken for `n+1` and `2n+1` (`:357`, `:398`).
* C158: without `@namespace`, type selectors match elements of HTML only (`style/namespace.cpp:11`).
* C159: `t, .a .b .c, ` is accepted (`:1004-1010`), `> .a` is a selector that matches nothing, and an unknown pseudo-class is `:any-link`, which
  matches nothing; under `:not()` these match everything.
* C160: a box that is not positioned but has `z-index: 0` stacks (`layout/base/box.cpp:129`) but is taken by none of the passes
  (`layout/paint.cpp:772-799`): it and all that is in it vanish. A float that is not positioned is taken by the fourth pass and by the third or fifth as
  well, and so is drawn twice: its text is in the PDF twice, and a translucent one is too dark.
* C161: text is drawn with the block it is in, so backgrounds of later blocks lie over it (`:778`); inline blocks are not drawn as one (`:788`);
  boxes with effects that are not positioned are drawn among the blocks; levels inside a positioned box come behind (below 0) or before (above 0) others of the
  same level (`:793`); the clear of the canvas lies over boxes below level 0 (`:121-123`).
* C162: `opacity` and `clip-path` of elements inside SVG are not looked at (`:243-261`).
* C163: the colour of the root is left out (`:105`), and the node that clears the canvas is only made if there is a border or an outline (`:115`), so
  `html` and `body` backgrounds are not painted. Background images are never painted.
* C164: `visibility` is not looked at inside SVG (`:224-272`), and a hidden `svg` hides all in it (`:304`).
* C165: factors may be negative (`flex: -1`). C167: `border-radius: / 1px` and `1px /` are accepted, and `calc()` is not read (`props/border.cpp`).
* C168: `list-style` takes `inside` and `outside` for names of counter styles, so that it never sets the position; `square none` has no marker.
* C169: `outline: red auto` loses its colour, and `thin`, `medium` and `thick` are refused (`props/outline.cpp:194-226`).
* C170: `font` accepts one family only (`12px Arial, sans-serif` is refused), drops the line height, keeps the weight from before when none is written,
  takes a percentage for a width and 0 for a weight, so that `80% serif` is refused; `italic normal` is upright; two styles or a weight of 2000 are accepted
  (`props/fonts.cpp:300-358`).
* C171: `local()` in a list of sources is an error if a comma or the end follows, and so is `tech()`; without a comma it is accepted
  (`style/fonts.cpp:118-165`).
* C172: `overflow: clip` is refused. C173: `top left` and `top center` are refused; `top 10px center` is at the left, 10px below the middle;
  `left top 10px 20px` and `top 10px bottom 5px` are accepted (`values/background.cpp:105-234`).
* C174: a centre that cannot be read, as `circle(at top left)`, is taken for the middle; `circle( 10px)` is refused (`values/basic-shape.cpp:79-95`).
* C175: `translate(1em)` and origins in relative lengths count as 0, since painting resolves them with an empty `Resolver`
  (`layout/paint.cpp:653`, `692`). C176: `matrix()` takes any rest behind its six numbers. C177: one value is always refused
  (`values/transform.cpp:74` asks for more text where it should ask for the end), so is `top left`.
* C178: `rotate(45) rotate(30 1 2)` is refused as a whole, because `_expandSvgRotate` returns at the first rotation without a centre
  (`props/transform.cpp:114-162`); behind a comma between functions all is lost without notice.
* C179: a view box with width or height 0 divides by zero, one with a negative size mirrors the drawing; both should disable rendering
  (`layout/svg.cpp:228-231`, `props/svg.cpp:360-375`).
* C180: without a `viewBox`, the reference box of a transform inside is the frame on the page (`layout/paint.cpp:295`), while the coordinates start at
  the corner of the drawing: `scale(2)` in a drawing at (100, 50) scales about (100, 50) instead of (0, 0).
* C181: without any size, a drawing is as large as the space there is, not 300×150; `height: 1em` counts as 0 in the proportions
  (`layout/svg.cpp:78-80`).
* C182: `x="10mm"`, `cx="5px"` and `x="10 "` are ignored (`px` is appended to the text, `props/svg.cpp:41`); relative lengths are 0; a `rect` without
  `width` is 100% wide; `r="50%"` refers to the width; a `viewBox` with five numbers is accepted.
* C183: an empty group adds the origin to the box of the group around it; transforms of children do not count (`layout/base/fragment.cpp:245-261`).
* C184: `width: min-content` or `width: calc(5)` on a `rect`, nested `svg` or `foreignObject` panics (`layout/svg.cpp:21`, `34`).
* C185: every error has status 400 and its own text; the protocol wants 404 `invalid session id`, 404 `no such window`, 500 `unsupported operation` and so on
  (`protocol.cpp:30-47`).
* C186: Execute Script answers for sessions that do not exist (`driver.cpp:230`).
* C187: timeouts that are not given are reset to their defaults; `null`, fractions, negative numbers, texts and bodies that are not objects are accepted
  (`service.cpp:108-120`).
* C188: the position is answered but not kept; a height of 0 divides by zero in `Media::changeViewport` (`style/media.cpp:144`); fractions are ignored.
* C189: backgrounds are always painted (`driver.cpp:295`), `pageRanges` and `shrinkToFit` are not looked at, sizes, margins and scales are not checked.
* C191: `text-transform: lowercase` is spelt `lowsercase` (`props/text.cpp:117`) and does nothing; `capitalize`, `full-width`, `match-parent`, `justify-all`,
  `overflow: clip` and `dominant-baseline: hanging` are unknown; layers of `background-attachment` are not separated by commas.
* C192: `background-image: toggle(x)` and the like, and `counter-reset: toggle(1)`, hang the program (`props/base.cpp:745-749`); `background-image`,
  `background-position` and `background-repeat` cannot be set at all (`props/background.cpp:119-192`).
* C193: the integer is not optional: `counter-reset: list-item` (`html.css:239`) is accepted and does nothing, `a 1 b` loses `b`, `a b 2` is lost altogether;
  `reversed()` is never recognised (`values/counter.cpp:205-240`).
* C194: `none`, lists of items and `counters()` are refused; `counter(a, upper-roman)` with the space loses the style (`values/counter.cpp:138`); an unknown
  place of a running element is ignored.
* C195: `safe` alone is accepted; `baseline`, `first baseline` and `last baseline` are refused (`first-baseline` is not); all six properties take the same words.
* C196: negative `border-spacing` and opacities outside 0 to 1 are taken as they are.
* C197: longhands left out are not reset (`props/baseline.cpp:284-313`).
* C198: property names are case-sensitive; `page-break-before` and its kin, `order` and `gap` are unknown; anything behind `inherit` is ignored;
  `revert-layer` is unknown.
* C199: with `--orientation landscape`, `--width` becomes the height of the page and `--height` its width (`mod.cpp:96-117`); `@page { size }` is not a
  property the program knows.
* C200: `--scale 0x` divides by zero and negative scales turn pages over; what follows a scale is ignored; a picture is not scaled at all
  (`mod.cpp:123-131`, `dom/window.cpp:84`).
* C201: page margins in `em`, `rem` or `vw` are zero (`driver/print.cpp:128`); margins on the command line are scaled with the document.
* C202: the footnote area is never painted; margin boxes start from the content, so headers and footers lie over them (`driver/print.cpp:86-89`).
* C203: a header in units of its view is measured in one view and painted in another; a header higher than its size is painted over the content; a size
  for a header that is not there still takes room.
* C204: `--extend fit` loses what overflows to the left or above; `--flow continuous` alone does not grow the picture, against `doc/usage.md`;
  `--background` is ignored for pages.
* C205: `--paper list` with conflicting options is not refused.
* C208: Alt and the left arrow are bound without asking whether there is a page behind (`vaev-browser/app.cpp:229`); the index wraps around and the
  browser crashes (`model.cpp:102-105`), at once or when the page being loaded arrives.
* C209: a visit, a step back or forward made while a page is being loaded changes the history and the address but loads nothing (`model.cpp:91`); the
  page on the screen is then another one than the address says.
* C210: while a page is being loaded nothing else can be loaded, and there is no way to cancel (`model.cpp:94`).
* C211: the node chosen in the inspector and the open nodes outlive their document (`model.cpp:96-101`).
* C212: saturation and lightness without `%` are taken as fractions, so that `hsl(120 100 50)` is not `hsl(120 100% 50%)` (`values/color.cpp:435-438`);
  `none` as the opacity is opaque here and transparent in `rgb()` (446, 369); what follows the opacity is ignored.
* C213: every space but `lch` is mixed in `srgb`, and `lch` in `hsl` (`values/color.cpp:107-112`); a way round the hues is refused (617).
* C214: `inset(1px 2px)` and `round 1px 2px` are refused, as is a space before the comma of `evenodd ,` (`values/basic-shape.cpp:172`, `182`, `276`; `values/insets.cpp:65-89`);
  anything may follow the points of a polygon, and `path(evenodd)` is a path.
* C215: em, vw and the like are worth nothing in a shape (`layout/paint.cpp:467`); only the border box has round corners (443-458); `closest-side` of a centre left of or
  above the box is negative (494-499); insets of more than the box are not reduced (528).
* C216: an at-rule that is not known is read as a style rule with what follows the keyword as its selector, so that `@layer p { … }` styles `p` (`style/rules.cpp:305`); keywords
  are compared with case (284–303); `@supports` is a rule for everything without declarations (299) and `@import` imports nothing (291).
* C217: `@namespace` behind other rules and in `@media`, even if its query does not hold, changes the selectors that follow (`style/rules.cpp:153-189`).
* C218: names of margin boxes are compared with case (`style/page.cpp:186`).
* C219: counter styles and font faces in `@media` are never found (`style/computer.cpp:480-494`, `loader/loader-impl.cpp:60-72`).
* C220: `@counter-style { … }` panics (`style/rules.cpp:135`), `@namespace ;` reads behind the end (164), a style rule whose selector ends too early (`a: {}`) panics (C156), and `@page a, b` never ends (C26).
* C221: `font-family: Open Sans` is refused (`style/fonts.cpp:92-102`); `mapLegacyAlias` is never called, so that `font-stretch` is ignored (513); `oblique 10deg 20deg` is
  refused, and with 14 degrees first the face is upright (198–218, 52–54); of `font-weight: 100 900` only 100 is registered (44–50); `unicode-range`, features and variations
  have no parser (292–331); negative percentages are taken; `font-family:;` reads behind the end.
* C222, C223: comments are part of the text of an element (`dom/character-data.cpp:32` is not overridden in `dom/comment.cpp`); the title is not trimmed, and that of an SVG
  document is not found (`dom/document.cpp:62-70`).
* C224: `frameset` is no body (`dom/document.cpp:99-103`).
* C225: `baseURI` of a document panics, and `base` is not looked at (`dom/node-impl.cpp:12-17`).
* C226: without a root element a null pointer is followed (`style/computer.cpp:455-456`); by C130 no reader makes such a document.
* C227: `clearPseudoElement` is never called (`dom/element.cpp:190`), so that what `::before` or `::after` gave for one medium stays for the next one.
* C228: what a table cell or a foreign object hands on is not read (`layout/table.cpp:1500-1566`, `layout/svg.cpp:190-193`), and neither is what a flex container
  without items has gathered (`layout/flex.cpp:683-700`): an absolutely positioned box there, with its containing block outside, is not laid out. Inline boxes are
  no containing blocks. A float in a flex container is no item and is left out with all its content (`layout/flex.cpp:675`).
* C229: the placeholders of a flex container are made after its fragment was built (`layout/flex.cpp:1599-1600`): its absolutely positioned children are laid out, but
  not painted.
* C230: a placeholder has an empty border box at the origin (`layout/base/fragment.cpp:146-148`), which the overflow takes in.
* C231: the initial containing block starts at the corner of the sheet, not of the page area (`layout/base/layout-impl.cpp:364`, `driver/print.cpp:250-268`).
* C232: where no family can be had, the face of the system is asked for without the weight (`style/computer.cpp:187`), so bold text is not bold.
* C233: `xx-small`, `small`, `large`, `x-large` and `xx-large` are 1/2, 7/8, 9/8, 5/4 and 3/2 of 16 pixels (`values/font.cpp:296-316`), not 3/5, 8/9, 6/5, 3/2 and 2.
* C234: in layout the root font always has 16 pixels (`layout/base/values.cpp:18`), so `rem` does not follow the font size of the root element, although it does in font sizes.
* C234: lengths are inherited as written, not as computed (`props/border.cpp:1110`): `border-spacing: 1em` is another length for a child with another font.
* C234: the margins of texts are resolved with an empty resolver (`layout/builder/mod.cpp:69`), so relative units and percentages are zero.
* C234, C235: `line-height` is read and inherited but used nowhere; `lh` is the natural line height of the font (`layout/base/values.cpp:26`).
* C235: `direction` does not matter for `text-align: start` and `end`, and `justify` is as `left` (`layout/builder/mod.cpp:44-63`).
* C236: the attribute `align` is applied after the cascade (`style/computer.cpp:296-306`), so it beats `text-align` of any author style; it applies to every element and only in lower case.
* C237: numbers are read as CSS sizes (`style/computer.cpp:229-241`), which need a unit: `<img width="100">` says nothing.
* C237: `size` is so many `ch` of width on every element of HTML (`style/computer.cpp:243-247`), among them `font`, `hr` and `select`; `bgcolor` colours any element.
* C239: a calc() with a percentage in a container of unknown size is resolved with zero (`layout/flex.cpp:286-291`); `width: min-content` and `fit-content` are taken as `max-content` (`:275`); with `box-sizing: border-box` a box may be smaller than its padding (`:293`).
* C239: percentages of `flex-basis` and `width` refer to the `width` property of the container (`layout/flex.cpp:743-750`), not to the size it has after `max-width`, its own padding with `box-sizing: border-box` or flexing.
* C240: `min-width` and `max-width` of items are compared with border boxes but padding and borders are not added (`layout/flex.cpp:370-380`), whatever `box-sizing`; items with `overflow: hidden` still have the minimum of their content; `max-width: fit-content` is zero.
* C241: margins are dropped from the intrinsic size of a row (`layout/flex.cpp:434-438`: the contribution with margins is limited by the base size without), so an inline flex container or one in a table is too narrow; a `min-width` on an item that does not shrink is dropped (`:788-792`); padding is dropped for items that grow and shrink.
* C242: a column with `height: auto` ignores the height it is given by stretching or by `top` and `bottom` (`layout/flex.cpp:834-845`).
* C242: percentages in margins of items are zero while items flex (`layout/flex.cpp:762-768`) and refer to the item itself when placed (`:1086-1093`); those in paddings refer to the containing block of the container (`:1549`).
* C243: the place of a line is not added to its alphabetic baseline (`layout/inline.cpp:30`), so an inline block of several lines stands on its first line; padding and borders at the top do not move the baseline (`layout/base/layout-impl.cpp:356-361`); a box whose first child is absolutely positioned has no first baseline (`layout/block.cpp:276-417`); inline flex containers, grids and tables, and blocks without lines, hang from the line; boxes that scroll stand on their text.
* C244: the margins of inline blocks take no room in the line, and those without a width may be wider than the line by their padding and borders (`layout/inline.cpp:70-98`).
* C245: the border of a row group or column group competes at every line inside of the group (`layout/table.cpp:459-470, 540-541, 592-593`); rows below a cell of several rows lose their borders (as C73); a hidden border keeps its width (`layout/table.cpp:18-27`).
* C246: for two cells side by side that begin and end in the same rows the stretch ends at their first row (`layout/table.cpp:571-576`); the code goes on in their second row and writes behind them, at the foot of the table outside of the grid (`layout/table.cpp:599`): a collapsed table with two `rowspan=2` cells beside each other in its last rows panics. With `rowspan=0` the last row of a cell wraps around to the largest number (`layout/table.cpp:572`).
* C247: if a row does not fit on a page between the repeated header and footer, the break before it has number 0, from which the number of header rows is subtracted (`layout/table.cpp:1734-1748`); the number wraps around, the next page begins with the header rows as content and the page after it like the first: `print` never ends. A row without cells that is higher than half the page panics (`layout/breaks.cpp:121-143`, no children to take a break from).
* C248: a break after a row one of whose cells goes on in the next row is not made (`layout/table.cpp:1573-1680`).
* C249: between rows only `break-inside: avoid` of the table counts (`layout/table.cpp:1676`): that of row groups, and `avoid` before and after rows, is ignored.
* C250: a cell with `rowspan=0` writes its lower border to the row above (`layout/table.cpp:766`), in the first row outside of the table, and gets no borders on the left and right (`layout/table.cpp:769`).
* C251: where a row has less cells than the table has columns, the border around the table is not drawn (`layout/table.cpp:615-618`, `649-652`). A collapsed table that has rows but no cells panics (`layout/table.cpp:648`, slot 0 of a grid without columns).
* C252: a type selector is printed with the namespace itself before the bar (`style/selector.cpp:140-155`): `p` becomes `http://www.w3.org/1999/xhtml|p`, which is not a selector. `*|*` is printed as `*` and `|a` as `a`, which mean something else. Selectors within selectors are printed by `repr`, in parentheses and with the names of operators (`style/selector.cpp:1097-1152`), so `.a.b .c` does not read back either.
* C253: the encoding in the header of a response is not looked at, all bodies are read as UTF-8 (`loader/loader.cpp:89`).
* C254: a plain text becomes a `body` without `html` around it and without `pre` in it (`loader/loader.cpp:63-71`), so `document.body` is empty and lines run together. `markdown.css` is added if the type is `PUBLIC_MARKDOWN` itself (`loader/loader.cpp:267`), while types that conform to it are loaded as Markdown, too (`loader/loader.cpp:110`).
* C255: `ordinaryToPrimitive` asks `toString` before `valueOf` for every hint (`src/vaev-script/ops-impl.cpp:43-56`), so `valueOf` does not count where a number is wanted.
* C256: all exceptions have the name `Exception` (`src/vaev-script/ops-impl.cpp:14-25`).
* C257: across a flex container the margins along it are added to the content of an item, not those across (`layout/flex.cpp:451`). A size smaller than the content does not count (`layout/flex.cpp:460`), nor do `min-content` and `max-content`; `wrap-reverse` is not taken as wrapping (`layout/flex.cpp:710`).
* C258: a checkbox or radio button with `value=on`, which is the default value, is drawn as checked (`layout/builder/mod.cpp:459`). Types are compared with case (`layout/builder/mod.cpp:427`), so `type=HIDDEN` shows its value. A placeholder is not shown beside `value=""`; passwords are printed in clear; buttons have no default label. A hidden control has a box, which `res/html.css` gives a border.
