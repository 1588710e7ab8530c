{"id": "C01", "title": "Tree edits keep the document a consistent ordered tree", "statement": "After any sequence of append, prepend, insert-before, insert-after and remove calls in which a node is never inserted beside itself or below itself and a reference child is a child of the target, walking children forwards, walking them backwards and asking each child for its parent all describe the same ordered child lists, and these lists are exactly the ones obtained by doing the same edits on plain lists of children.", "quantifier": "every finite history of edits over any number of nodes", "why_tests_cant": "histories are unbounded and the five links of each node can go out of step only after particular sequences", "anchors": ["src/vaev-engine/dom/tree.cpp: Tree::appendChild, prependChild, insertBefore, insertAfter, remove, removeChild"]}
{"id": "C02", "title": "Tree edits cannot make a node its own ancestor or its own sibling", "statement": "No sequence of the public tree edits, with any arguments, can make the children walk of a node fail to terminate or make a node its own ancestor.", "quantifier": "every history of edits with arbitrary arguments", "why_tests_cant": "the failing histories need a particular relation between argument and target", "anchors": ["src/vaev-engine/dom/tree.cpp: Tree::insertBefore, insertAfter, appendChild"]}
{"id": "C03", "title": "Depth-first iteration visits every node of a subtree once, in document order", "statement": "On a document built by well-formed edits, iterating depth first from a node yields that node first, then the iteration of each child in order; every node of the subtree occurs exactly once and the iteration ends.", "quantifier": "every reachable tree, any depth and width", "why_tests_cant": "trees are unbounded", "anchors": ["src/vaev-engine/dom/tree.cpp: Tree::iterDepthFirst, iterChildren, index"]}
{"id": "C04", "title": "The class list behaves as an ordered set", "statement": "Starting from any attribute value and after any history of add, remove and toggle calls, the class list contains no duplicates, contains exactly the tokens the history says it should, and setting the attribute again replaces all of it.", "quantifier": "every attribute value and every history of list operations", "why_tests_cant": "histories are unbounded", "anchors": ["src/vaev-engine/dom/token-list.cpp: TokenList::add, remove, toggle, replace, contains", "src/vaev-engine/dom/element.cpp: Element::setAttribute"]}
{"id": "C05", "title": "A live WebDriver session always has an open current window", "statement": "In every interleaving of WebDriver commands, including commands suspended while a page is loading, every session that can be addressed has at least one open window and its current window is one of them, so no command on a live session fails with 'no current browsing context'.", "quantifier": "every schedule of commands from any number of clients", "why_tests_cant": "interleavings of suspended commands are unbounded and timing dependent", "anchors": ["src/vaev-webdriver/driver.cpp: WebDriver::newSessionAsync, newWindowAsync, closeWindow, switchToWindow, deleteSession, Session::currentBrowsingContext"]}
{"id": "C06", "title": "WebDriver sessions are isolated and failing commands change nothing", "statement": "A command addressed to one session changes no other session's windows, current window, timeouts or existence, and a command that returns an error leaves every session unchanged.", "quantifier": "every state reachable by any history, every command, every pair of sessions", "why_tests_cant": "the state space is unbounded", "anchors": ["src/vaev-webdriver/driver.cpp: WebDriver (all commands)"]}
{"id": "C07", "title": "A window handle returned by New Window can be used", "statement": "When the New Window command answers with a handle, that handle is listed by Get Window Handles of the session at that moment and Switch To Window accepts it.", "quantifier": "every schedule, including commands that run while the new window is loading", "why_tests_cant": "needs a particular overlap of two commands", "anchors": ["src/vaev-webdriver/driver.cpp: WebDriver::newWindowAsync, deleteSession, closeWindow"]}
{"id": "C08", "title": "Selector matching follows the Selectors semantics", "statement": "For every selector built from type, universal, id, class and attribute selectors, compound, list, :not() and the descendant, child, next-sibling and subsequent-sibling combinators, and every element of every document, the engine's match decision equals the declarative meaning of the selector (there is an ancestor such that ..., there is an earlier sibling such that ...).", "quantifier": "every document tree, every element, every selector of any nesting", "why_tests_cant": "documents and selectors are unbounded", "anchors": ["src/vaev-engine/style/matcher.cpp: Selector match functions", "src/vaev-engine/style/selector.cpp: Selector, QualifiedNameSelector::match"]}
{"id": "C09", "title": ":nth-child(An+B) selects exactly the positions of the arithmetic progression", "statement": "A position i is accepted by An+B if and only if there is a natural number n with A*n + B = i, for all integers A and B.", "quantifier": "all integers A, B and positions", "why_tests_cant": "integers are unbounded; signs and divisibility interact", "anchors": ["src/vaev-engine/style/selector.cpp: AnB::match", "src/vaev-engine/style/matcher.cpp: nth-child, nth-of-type"]}
{"id": "C10", "title": "Specificity counts selector parts and a selector list takes its best matching member", "statement": "The specificity reported for a compound or complex selector is the number of id, class-like and type parts in it compared lexicographically, and when a selector list matches, the reported specificity is the largest one among its members that match.", "quantifier": "every selector, every element", "why_tests_cant": "selectors are unbounded", "anchors": ["src/vaev-engine/style/selector.cpp: Specificity, spec", "src/vaev-engine/style/matcher.cpp: matchSelector"]}
{"id": "C11", "title": "Indexed rule lookup returns exactly the rules whose selector matches", "statement": "For every stylesheet and element, looking rules up through the index returns the same rules, in the same order and with the same specificity, as testing every rule's selector in turn.", "quantifier": "every stylesheet and element", "why_tests_cant": "an index can miss a rule only for particular combinations of rules and elements", "anchors": ["src/vaev-engine/style/rules-index.cpp: RuleIndex build and match"]}
{"id": "C12", "title": "The cascade picks the highest-priority declaration", "statement": "For every multiset of declarations for a property the winner is the one that is greatest by (importance, origin, specificity, order of appearance), whatever the order in which declarations are submitted, and declarations of other properties have no influence.", "quantifier": "every list of declarations", "why_tests_cant": "permutations are unbounded", "anchors": ["src/vaev-engine/style/cascaded.cpp: Cascaded, Entry order", "src/vaev-engine/style/origin.cpp"]}
{"id": "C13", "title": "An important user-agent or user declaration beats an important author declaration", "statement": "As CSS requires, importance reverses the precedence of origins: an important declaration of an earlier origin wins over an important declaration of a later origin.", "quantifier": "every pair of important declarations", "why_tests_cant": "pairs of origins, specificities and orders interact", "anchors": ["src/vaev-engine/style/cascaded.cpp: Entry order", "src/vaev-engine/style/origin.cpp"]}
{"id": "C14", "title": "Counters follow document order scoping", "statement": "For every sequence of counter-reset, counter-increment and counter-set along a document, the value read for a counter is the one given by CSS counter scoping: a reset creates a new innermost instance, an increment or set acts on the innermost instance or creates one, siblings inherit instances of preceding siblings and children those of the parent.", "quantifier": "every document tree with arbitrary counter operations", "why_tests_cant": "trees are unbounded", "anchors": ["src/vaev-engine/style/counter.cpp: CounterSet::inherits, instantiateCounter, increment, set, innerMost"]}
{"id": "C15", "title": "Counter representations denote the counter value", "statement": "For every value in its range, the numeric system writes the value in base n, the alphabetic system writes it in bijective base n, the cyclic system repeats its symbols with period n and the symbolic system repeats one symbol; distinct values of the numeric and alphabetic systems have distinct representations.", "quantifier": "all integer values, all symbol lists", "why_tests_cant": "integers and symbol lists are unbounded", "anchors": ["src/vaev-engine/style/counter.cpp: cyclic, symbolic, alphabetic, numeric, additive"]}
{"id": "C16", "title": "The additive system's representation sums to the value", "statement": "When the additive counter system produces a representation for a positive value, the weights of the symbols written sum to the value.", "quantifier": "all values and all descending weight lists", "why_tests_cant": "unbounded", "anchors": ["src/vaev-engine/style/counter.cpp: additive"]}
{"id": "C17", "title": "Formatting a counter always finishes", "statement": "Formatting any value with any registered set of counter styles ends with a string, following fallbacks at most once per style.", "quantifier": "every set of counter styles, including cyclic and out-of-range fallbacks", "why_tests_cant": "cycles and ranges can be arbitrary", "anchors": ["src/vaev-engine/style/counter.cpp: counter fallback dispatch"]}
{"id": "C18", "title": "Serialised text survives re-parsing", "statement": "Text and attribute values written out by the document serialiser are read back unchanged by the XML parser, for every string.", "quantifier": "all strings", "why_tests_cant": "strings are unbounded", "anchors": ["src/vaev-engine/dom/serialisation.cpp: escapeString", "src/vaev-engine/xml/parser.cpp: _parseText, _parseAttValue, _parseReference"]}
{"id": "C19", "title": "Every well-formed XML document is read as the tree it denotes", "statement": "For every tree of elements, attributes, text and comments, the parser reads the tree's XML text and produces that tree.", "quantifier": "all trees of any depth and width", "why_tests_cant": "unbounded", "anchors": ["src/vaev-engine/xml/parser.cpp: XmlParser"]}
{"id": "C20", "title": "Ill-formed XML is rejected", "statement": "An XML text whose start tag is never closed, or whose end tag does not match, is rejected with an error.", "quantifier": "all texts", "why_tests_cant": "unbounded", "anchors": ["src/vaev-engine/xml/parser.cpp: XmlParser::_parseElement, _parseEmptyElementTag, _parseEndTag"]}
{"id": "C21", "title": "XML namespace prefixes resolve to the innermost declaration in scope", "statement": "For every nesting of namespace declarations, a prefix resolves to the namespace of the closest enclosing declaration of that prefix, the prefixes xml and xmlns cannot be rebound, unprefixed attributes are in no namespace and unprefixed elements are in the closest default namespace.", "quantifier": "every nesting of declarations", "why_tests_cant": "unbounded", "anchors": ["src/vaev-engine/xml/parser.cpp: NamespaceContext"]}
{"id": "C22", "title": "Parsing a stylesheet always finishes", "statement": "For every sequence of tokens, parsing a stylesheet ends and consumes the whole input.", "quantifier": "all token sequences", "why_tests_cant": "unbounded; loops can hang only on particular tokens", "anchors": ["src/vaev-engine/css/parser.cpp: consumeRuleList, consumeAtRule, consumeRule, consumeDeclarationList"]}
{"id": "C23", "title": "Invalid declarations do not disturb their neighbours", "statement": "In a declaration block, a declaration that is ill-formed is skipped up to the next top-level semicolon and all other declarations are read as if it were absent, whatever bracketed blocks it contains.", "quantifier": "all declaration lists", "why_tests_cant": "unbounded nesting of brackets", "anchors": ["src/vaev-engine/css/parser.cpp: consumeDeclarationList, consumeComponentValue, consumeSimpleBlock"]}
{"id": "C24", "title": "Media queries evaluate as boolean formulas", "statement": "A media query list is satisfied exactly when one of its queries is, a query with 'not' exactly when the query without it is not, conjunctions exactly when all features hold, and range features compare the medium's value with the written bounds.", "quantifier": "all media and all queries", "why_tests_cant": "unbounded nesting", "anchors": ["src/vaev-engine/style/media.cpp: RangeFeature::match, MediaQuery::match"]}
{"id": "C25", "title": ":left, :right, :first and :blank page rules apply to the right pages", "statement": "A page rule for :first applies to the first page only, :right applies to odd and :left to even pages (left-to-right documents), :blank only to blank pages.", "quantifier": "all page numbers", "why_tests_cant": "unbounded", "anchors": ["src/vaev-engine/style/page.cpp: PageSelector::match"]}
{"id": "C26", "title": "Parsing a page selector list always finishes", "statement": "Reading the selector list of an @page rule ends for every token sequence.", "quantifier": "all token sequences", "why_tests_cant": "hangs only on particular tokens", "anchors": ["src/vaev-engine/style/page.cpp: PageSelector::parseList"]}
{"id": "C27", "title": "Expanding custom properties always finishes and cycles are invalid", "statement": "Substituting var() references ends for every set of custom properties, an element of a reference cycle is invalid, and without cycles the expansion equals textual substitution.", "quantifier": "all sets of custom properties", "why_tests_cant": "reference graphs are unbounded", "anchors": ["src/vaev-engine/props/base.cpp: DeferredProperty, _expandVariable, _expandContent"]}
{"id": "C28", "title": "A table's cells are laid out on a grid without gaps or lost cells", "statement": "For every table the grid formed has each cell of each row placed at the first free slot of its row, covering a rectangle of its spans, no cell is lost, and cells only share slots when the author's row spans overlap.", "quantifier": "every table, any number of rows, cells and spans", "why_tests_cant": "unbounded combinations of spans", "anchors": ["src/vaev-engine/layout/table.cpp: TableGrid, processRows, growDownwardGrowingCells, endRowGroup, buildHTMLTable"]}
{"id": "C29", "title": "A rowspan=0 cell ends with its row group", "statement": "A cell that spans to the end of its row group occupies exactly the rows of that group from its own row on, and no row of a following group.", "quantifier": "every table", "why_tests_cant": "depends on rows left after the cell and following groups", "anchors": ["src/vaev-engine/layout/table.cpp: endRowGroup, processRows"]}
{"id": "C30", "title": "Collapsed border conflicts are resolved deterministically", "statement": "The winner of two conflicting collapsed borders is hidden if either is hidden, otherwise the wider, otherwise the one with the stronger style, otherwise the first.", "quantifier": "all pairs of borders", "why_tests_cant": "widths are unbounded", "anchors": ["src/vaev-engine/layout/table.cpp: harmonizeConflictingBorders"]}
{"id": "C31", "title": "Pagination prints every piece of content exactly once", "statement": "Whenever pagination of a document ends, printing the pages shows every unbreakable piece of content of the document on exactly one page, and pieces appear on pages in document order.", "quantifier": "every tree of block boxes with any sizes, margins and forced breaks", "why_tests_cant": "the break points chosen depend on all sizes", "anchors": ["src/vaev-engine/driver/print.cpp: collectBreakPointsAndRunningPositions, print", "src/vaev-engine/layout/block.cpp", "src/vaev-engine/layout/base/breaks.cpp"]}
{"id": "C32", "title": "Pagination finishes", "statement": "Printing any document ends after finitely many pages.", "quantifier": "every document", "why_tests_cant": "depends on sizes relative to the page", "anchors": ["src/vaev-engine/driver/print.cpp: collectBreakPointsAndRunningPositions", "src/vaev-engine/layout/block.cpp", "src/vaev-engine/layout/base/breaks.cpp"]}
{"id": "C33", "title": "The break chosen is the last one of the best class", "statement": "Among the break opportunities found before a page overflows, the one used is the last one having the highest appeal (forced, then ordinary, then avoided, then overflow); if there are only overflows it is the first.", "quantifier": "every sequence of candidate breaks", "why_tests_cant": "unbounded", "anchors": ["src/vaev-engine/layout/base/breaks.cpp: Breakpoint::overrideIfBetter"]}
{"id": "C34", "title": "Unpaginated rendering shows all content", "statement": "When a document is rendered without pagination every box of the document is laid out.", "quantifier": "every document", "why_tests_cant": "depends on break properties", "anchors": ["src/vaev-engine/layout/block.cpp: processBreakpointsBeforeChild, BlockFormatingContext::run"]}
{"id": "C35", "title": "Running headers show the element in force on each page", "statement": "For every page the running element chosen for element(name, first|start|last) is the one CSS GCPM prescribes: first on the page else the last one before it; last on the page else the last before it.", "quantifier": "all page numbers and all placements of running elements", "why_tests_cant": "unbounded", "anchors": ["src/vaev-engine/layout/base/running-position.cpp: RunningPositionMap::match, _searchPage"]}
{"id": "C36", "title": "Used sizes respect minimum and maximum", "statement": "For every tentative size and every min/max pair, the size used lies between min and max, min winning when they conflict, and sizes already within bounds are unchanged.", "quantifier": "all sizes", "why_tests_cant": "unbounded", "anchors": ["src/vaev-engine/layout/base/sizing.cpp: applyReplacedMinMaxSizeConstraints"]}
{"id": "C37", "title": "Adjoining margins collapse symmetrically", "statement": "The space between two adjoining margins is the larger positive one plus the more negative one; it does not depend on their order and stacking boxes adds each border box height once.", "quantifier": "all lists of boxes and margins", "why_tests_cant": "unbounded", "anchors": ["src/vaev-engine/layout/block.cpp: BlockFormatingContext::run"]}
{"id": "C38", "title": "Auto margins fill the containing block", "statement": "For a block whose width is known, used horizontal margins plus the width equal the width of the containing block whenever a margin is auto and the box fits, and both autos get equal shares.", "quantifier": "all widths and margins", "why_tests_cant": "unbounded", "anchors": ["src/vaev-engine/layout/block.cpp: _resolveAutoHorizontalMargins"]}
{"id": "C39", "title": "Batch runs report failures and write what they claim", "statement": "A multi-input run with one combined output writes the output only when every input was loaded; with separate outputs, each input loaded before the first failure has its own output.", "quantifier": "every list of inputs and every failure point", "why_tests_cant": "failure points and name collisions are unbounded", "anchors": ["src/mod.cpp: runBatchAsync", "src/main.cpp"]}
{"id": "C40", "title": "Runs of white space collapse to a single space", "statement": "In text with collapsible white space, the rendered text contains no two adjacent spaces from the source run, keeps every non-space character in order, and collapsing an already collapsed text changes nothing.", "quantifier": "all strings", "why_tests_cant": "unbounded", "anchors": ["src/vaev-engine/layout/builder/mod.cpp: _appendTextToInlineBox"]}
{"id": "C41", "title": "Fixing up tables loses no content", "statement": "Wrapping stray content of a table into anonymous rows and cells keeps every non-blank text and every box exactly once, in document order, and every row ends up with cells only.", "quantifier": "every sequence of children of a table, row group or row", "why_tests_cant": "unbounded", "anchors": ["src/vaev-engine/layout/builder/mod.cpp: AnonymousTableBoxWrapper, _buildTableChildrenWhileWrappingIntoAnonymousBox"]}
{"id": "C42", "title": "A script property reads back the value last written", "statement": "After writing an own writable property of a script object, reading it gives the written value.", "quantifier": "every history of property operations", "why_tests_cant": "unbounded", "anchors": ["src/vaev-script/internal-slots-impl.cpp: ordinarySet, ordinaryGet, _validateAndApplyPropertyDescriptor"]}
{"id": "C43", "title": "Writing through an inheriting object does not change its prototype", "statement": "Assigning a property on an object that inherits from another never adds a property to the other object.", "quantifier": "every prototype chain", "why_tests_cant": "unbounded", "anchors": ["src/vaev-script/internal-slots-impl.cpp: ordinarySetWithOwnDescriptor"]}
{"id": "C44", "title": "CSS escapes decode to valid characters", "statement": "Every character escape, in a string or in a name, decodes to a Unicode scalar value: a backslash and one to six hexadecimal digits to the character with that number, or to U+FFFD when the number is zero, a surrogate or out of range; a backslash and any other character to that character.", "quantifier": "every escape, in every string and name", "why_tests_cant": "there are millions of digit strings and characters, and what follows them matters", "anchors": ["src/vaev-engine/css/lexer.cpp: Lexer::_consumeEscapeCodepoint, RE_ESCAPE, RE_IDENTIFIER"]}
{"id": "C45", "title": "Hex colours denote the written channels", "statement": "#RRGGBB[AA] and #RGB[A] denote the channel values written, the short form being the long form with doubled digits; texts of other lengths are rejected.", "quantifier": "all strings", "why_tests_cant": "2^32 colours and all malformed strings", "anchors": ["src/vaev-engine/values/color.cpp: parse hex colour"]}
{"id": "C46", "title": "Stylesheets apply in document order whatever loads fail", "statement": "The author stylesheets of a document are those style and link elements whose content could be obtained, in document order, after all built-in ones; a failing fetch affects only its own element.", "quantifier": "all documents and all outcomes of fetches", "why_tests_cant": "fetch outcomes are an unbounded choice", "anchors": ["src/vaev-engine/loader/loader.cpp: _fetchResourcesAsync, fetchDocumentAsync"]}
{"id": "C47", "title": "Relative offsets and percentages shift as specified", "statement": "For relative positioning, start wins over end, a lone end shifts by its negation and both auto shifts by zero.", "quantifier": "all lengths", "why_tests_cant": "unbounded", "anchors": ["src/vaev-engine/layout/positioned.cpp: _negotiateInsetsForRelativePositioning"]}
{"id": "C48", "title": "Specificity follows the standard's rules for lists and pseudo-elements", "statement": "The specificity of every selector is the one Selectors Level 4 assigns: pseudo-elements count as type selectors and a list inside :not() counts as its most specific member.", "quantifier": "every selector", "why_tests_cant": "selectors nest without bound", "anchors": ["src/vaev-engine/style/selector.cpp: spec"]}
{"id": "C49", "title": ":root matches the root element and nothing else", "statement": "In every document :root matches the element that has no parent element, whatever its name, and no other element.", "quantifier": "every document and element", "why_tests_cant": "documents are unbounded; other root names and nested html elements are needed", "anchors": ["src/vaev-engine/style/matcher.cpp: _match(PseudoClassSelector)"]}
{"id": "C50", "title": "No selector that parses can crash matching", "statement": "Testing a parsed selector against any element ends with an answer, never in a panic.", "quantifier": "every selector the parser accepts, every element", "why_tests_cant": "the failing selectors are accepted by the parser and only crash when an element is tested", "anchors": ["src/vaev-engine/style/matcher.cpp: _match(PseudoClassSelector)", "src/vaev-engine/style/selector.cpp: _parseSelectorElement"]}
{"id": "C51", "title": "A shorthand declaration acts as its longhands written in its place", "statement": "For every list of declarations, the value in force for a longhand is the one that wins when each shorthand declaration is replaced, where it stands, by declarations of all the longhands CSS assigns to it with the same importance, origin and specificity.", "quantifier": "every list of declarations", "why_tests_cant": "interleavings of shorthands and longhands are unbounded", "anchors": ["src/vaev-engine/style/cascaded.cpp: CascadedValues::expandShorthands", "src/vaev-engine/props/fonts.cpp: FontProperty::expandShorthand", "src/vaev-engine/props/align.cpp: GapProperty::expandShorthand"]}
{"id": "C52", "title": "Only selectors naming a pseudo-element style it", "statement": "A rule applies to an element's generated pseudo-element (::before, ::after, ::marker) exactly when its selector names that pseudo-element, and a rule naming one never applies to the element itself.", "quantifier": "every selector, element and pseudo-element", "why_tests_cant": "selectors and documents are unbounded", "anchors": ["src/vaev-engine/style/matcher.cpp: _matchSelector", "src/vaev-engine/style/computer.cpp: generatePseudoElement"]}
{"id": "C53", "title": "Fixed counter styles start at their first value", "statement": "A fixed counter style with first value f shows its i-th symbol (from zero) for the value f+i; f is 1 when not given.", "quantifier": "all symbol lists, first values and positions", "why_tests_cant": "unbounded", "anchors": ["src/vaev-engine/style/counter.cpp: _constructFixedCounter"]}
{"id": "C54", "title": "Markers are put together in the order CSS gives", "statement": "The text printed for a counter value is prefix, negative sign, padding, representation, closing negative sign, suffix; padding brings the representation up to the pad length and is never more than needed.", "quantifier": "all styles and values", "why_tests_cant": "unbounded", "anchors": ["src/vaev-engine/style/counter.cpp: _dispatchCounterFallback"]}
{"id": "C55", "title": "extends takes what is missing from the extended style", "statement": "For any set of counter styles, resolving extends ends; every style is resolved; each descriptor of a style is that of the first style along its extends chain that gives it, or else the initial value.", "quantifier": "every set of counter-style rules, including circles", "why_tests_cant": "rule sets are unbounded and may be circular", "anchors": ["src/vaev-engine/style/counter.cpp: resolveExtends, CounterDescriptors::extends"]}
{"id": "C56", "title": "Values outside a style's range use its fallback", "statement": "A value outside the range of a counter style, or one its system cannot represent, is shown exactly as the fallback style shows it.", "quantifier": "all styles and values", "why_tests_cant": "unbounded", "anchors": ["src/vaev-engine/style/counter.cpp: _dispatchCounterFallback, _dispatchToFallbackCounter, _counterDefinedFor"]}
{"id": "C57", "title": "Reading an XML text always ends", "statement": "For every text, well-formed or not, the XML parser returns a document or an error after finitely many steps.", "quantifier": "all texts", "why_tests_cant": "unbounded; the parser backtracks and loops", "anchors": ["src/vaev-engine/xml/parser.cpp: parse, XmlParser"]}
{"id": "C58", "title": "A written tree is read back as the same tree", "statement": "For every document tree, the text that the serialiser writes for it is read by the XML parser as the same tree: same elements, names, namespaces, attributes, texts and comments, in the same order.", "quantifier": "all trees", "why_tests_cant": "trees are unbounded", "anchors": ["src/vaev-engine/dom/serialisation.cpp: serializeHtmlFragment", "src/vaev-engine/xml/parser.cpp: parse"]}
{"id": "C59", "title": "Among page rules the more specific wins, then the later", "statement": "For every list of @page rules and every page, the value of each property on that page is the one given by the matching rule whose selector is most specific, the latest of those when several are equally specific.", "quantifier": "every list of page rules and every page", "why_tests_cant": "rule lists and page numbers are unbounded", "anchors": ["src/vaev-engine/style/computer.cpp: computeValues(page), _evalRule", "src/vaev-engine/style/rules.cpp: PageRule"]}
{"id": "C60", "title": "Reading a media query list ends and stays inside it", "statement": "For every text between @media and its block, well-formed or not, reading it as a media query list ends with a query, without looking past the end of the text.", "quantifier": "every sequence of tokens and blocks, nested to any depth", "why_tests_cant": "unbounded nesting; the failing texts are short but ill-formed", "anchors": ["src/vaev-engine/style/media.cpp: parseMediaQuery, _parseMediaQueryLeaf, _parseMediaQueryInfix"]}
{"id": "C61", "title": "Comments in a style sheet mean nothing", "statement": "Taking every comment out of a style sheet changes neither its rules, nor their selectors, nor the values of their declarations.", "quantifier": "every style sheet, comments wherever CSS allows them", "why_tests_cant": "comments can stand between any two tokens at any nesting depth", "anchors": ["src/vaev-engine/css/parser.cpp: consumeRuleList, consumeDeclarationValue, consumeFunc, consumeBlock, consumeComponentValue"]}
{"id": "C62", "title": "A well-formed style sheet is read as the rules written in it", "statement": "For every style sheet that follows the grammar, the rules read are those written, in order, each with its selector, its declarations with their values and importance, and its nested rules; nothing is added, lost or moved.", "quantifier": "every well-formed style sheet, nested to any depth", "why_tests_cant": "style sheets nest and grow without bound", "anchors": ["src/vaev-engine/css/parser.cpp: consumeRuleList, consumeRule, consumeAtRule, consumeDeclarationList, consumeDeclaration"]}
{"id": "C63", "title": "An invalid declaration has no effect", "statement": "A declaration whose value the property cannot read, or reads only in part, is ignored: the value of the property is the one it would have without that declaration.", "quantifier": "every property, every list of declarations", "why_tests_cant": "all values and their combinations", "anchors": ["src/vaev-engine/props/base.cpp: parseValue, DeferredProperty"]}
{"id": "C64", "title": "No declaration can crash style computation", "statement": "For every property and every list of declarations, computing the property's value ends with a value.", "quantifier": "every property and list of declarations", "why_tests_cant": "the failing keyword is accepted by the parser and only crashes when applied", "anchors": ["src/vaev-engine/props/base.cpp: _parseDefaulted, DefaultedProperty"]}
{"id": "C65", "title": "Custom properties are resolved where they are declared", "statement": "An inherited custom property has on a child element the value it has on the parent, whatever other custom properties the child declares.", "quantifier": "every set of custom properties, at every level", "why_tests_cant": "sets of custom properties refer to one another without bound", "anchors": ["src/vaev-engine/props/base.cpp: CustomProperty, DeferredProperty::_expandVariable"]}
{"id": "C66", "title": "toggle() moves on to the next option", "statement": "toggle() takes the option behind the first one that computes to the parent's value, going round at the end, and the first option when none does.", "quantifier": "every list of options, parent value and context", "why_tests_cant": "unbounded lists", "anchors": ["src/vaev-engine/props/base.cpp: ToggleProperty::apply, Property::computedValue"]}
{"id": "C67", "title": "CSS tokens cut the text without gap or overlap", "statement": "Every text is read to its end as a sequence of tokens; each token takes at least one character, the pieces they take, in order, make up the whole text, and every token that is not a string carries exactly the piece it was read from.", "quantifier": "every text, well-formed or not", "why_tests_cant": "texts are unbounded and the pieces come from many alternatives tried in order", "anchors": ["src/vaev-engine/css/lexer.cpp: Lexer::_next, Lexer::_nextIdent, Lexer::_consumeStringToken"]}
{"id": "C68", "title": "A name with escapes ends where CSS says it ends", "statement": "A name that holds escapes ends before the first character that is neither a character of a name nor escaped, however many escapes it has and whatever follows.", "quantifier": "every name with escapes, followed by any text", "why_tests_cant": "an escape can stand anywhere in a name and any text may follow", "anchors": ["src/vaev-engine/css/lexer.cpp: RE_ESCAPE, RE_IDENTIFIER, RE_HASH, RE_AT_KEYWORD"]}
{"id": "C69", "title": "A quoted text is read back", "statement": "A text written as a CSS string, with quotes, backslashes and control characters escaped, is read as a string token with that very text; every way CSS allows to write a string gives the text it stands for.", "quantifier": "every text and every way to write it as a string", "why_tests_cant": "texts are unbounded; each character has many spellings, some of which depend on the next character", "anchors": ["src/vaev-engine/css/lexer.cpp: Lexer::_consumeStringToken, Lexer::_consumeEscapeCodepoint"]}
{"id": "C70", "title": "CSS tokens are read as written", "statement": "Each kind of token - name, function, at-keyword, hash, number, percentage, dimension, string, URL, comment, punctuation, white space - written as CSS Syntax says and followed by something that cannot be a part of it is read as that token, so a text made of such tokens is read as exactly those.", "quantifier": "every sequence of tokens and every way to write them", "why_tests_cant": "numbers and names are unbounded and which alternative wins depends on what comes next", "anchors": ["src/vaev-engine/css/lexer.cpp: Lexer::_next, Lexer::_nextIdent, RE_NUMBER, RE_IDENTIFIER, RE_URL, RE_HASH"]}
{"id": "C71", "title": "Forming a table never crashes", "statement": "Whatever rows, groups, columns and spans a table has, forming its grid never reads or writes outside of the grid.", "quantifier": "every table", "why_tests_cant": "an index error needs one particular arrangement of spans", "anchors": ["src/vaev-engine/layout/table.cpp: TableGrid.at, buildHTMLTable"]}
{"id": "C72", "title": "Columns and column groups cover the columns they span", "statement": "Every column and every column group a table begins with covers exactly the grid columns its span says, one behind the other.", "quantifier": "every list of column groups, with any spans", "why_tests_cant": "unbounded spans", "anchors": ["src/vaev-engine/layout/table.cpp: buildHTMLTable"]}
{"id": "C73", "title": "A table row covers its own row of the grid", "statement": "Every row of a table is recorded as covering exactly its own row of the grid, whatever the cells of it and of earlier rows span.", "quantifier": "every table", "why_tests_cant": "depends on the spans of all earlier rows", "anchors": ["src/vaev-engine/layout/table.cpp: processRowGroup"]}
{"id": "C74", "title": "Collapsing the borders of a table ends", "statement": "For every table with collapsed borders, giving the cells along an edge of the table their borders comes to an end.", "quantifier": "every table", "why_tests_cant": "non-termination cannot be observed by a test that ends", "anchors": ["src/vaev-engine/layout/table.cpp: resolveConflictForTableBordersAtVerticalAxis, rowSpanAt"]}
{"id": "C75", "title": "Span attributes mean what HTML says", "statement": "colspan and rowspan are read as HTML says: 1 if they are no numbers or out of range at the bottom, cut to 1000 and 65534 at the top.", "quantifier": "every value of the attribute", "why_tests_cant": "every integer and every text that is none", "anchors": ["src/vaev-engine/style/computer.cpp: _considerElementAttributes"]}
{"id": "C76", "title": "Images keep their proportions", "statement": "An image of which not both width and height are written is shown with its natural proportions whenever some size within its minimum and maximum sizes has them.", "quantifier": "all natural sizes, bounds and written sizes", "why_tests_cant": "proportions under four bounds interact; samples miss the case table", "anchors": ["src/vaev-engine/layout/base/sizing.cpp: applyReplacedMinMaxSizeConstraints, resolveObjectDefaultSizing"]}
{"id": "C77", "title": "A size within bounds is used as written", "statement": "A width or height written for an image or block, if it lies within the minimum and maximum, is the width or height used.", "quantifier": "all sizes, bounds and natural sizes", "why_tests_cant": "depends on the combination of written sizes, bounds and natural size", "anchors": ["src/vaev-engine/layout/base/sizing.cpp: applyReplacedMinMaxSizeConstraints", "src/vaev-engine/layout/block.cpp: _populateChildSpecifiedSizes"]}
{"id": "C78", "title": "Images without written sizes get their natural size", "statement": "Without written sizes an image has its natural size; with one side written the other follows the natural proportions; an object with proportions only is as large as fits into 300 by 150 pixels, and one with nothing is 300 by 150 pixels.", "quantifier": "all natural dimensions", "why_tests_cant": "every combination of known and unknown dimensions", "anchors": ["src/vaev-engine/layout/base/sizing.cpp: resolveObjectDefaultSizing"]}
{"id": "C79", "title": "Absolutely positioned boxes stand at their insets", "statement": "The margin edge of an absolutely positioned box is at the distance its inset says from that edge of its containing block; between two insets the box fills the space unless a width is written; without insets it stands at its static position.", "quantifier": "all insets, margins, sizes and containing blocks", "why_tests_cant": "an equation over all lengths", "anchors": ["src/vaev-engine/layout/positioned.cpp: layoutAbsolutePositioned, _computeInsetModifiedContainingBlock"]}
{"id": "C80", "title": "Percentages do not depend on siblings", "statement": "A percentage width of a child refers to the width of the block it is in, whatever its siblings are.", "quantifier": "all lists of children", "why_tests_cant": "depends on what comes before in the block", "anchors": ["src/vaev-engine/layout/block.cpp: BlockFormatingContext::run"]}
{"id": "C81", "title": "Percentages of margins and paddings refer to the width", "statement": "Percentages of all four margins and paddings refer to the width of the containing block.", "quantifier": "all percentages and containing blocks", "why_tests_cant": "ranges over all lengths", "anchors": ["src/vaev-engine/layout/base/layout-impl.cpp: computeMargins, computePaddings"]}
{"id": "C82", "title": "Borders are whole pixels and never vanish", "statement": "The used width of a border is a whole number of pixels, at least one if the border has any width, and never more than written for borders of a pixel or more.", "quantifier": "all border widths", "why_tests_cant": "all lengths", "anchors": ["src/vaev-engine/layout/base/layout-impl.cpp: _snapLengthAsBorderWidth, computeBorders"]}
{"id": "C83", "title": "Everything a document shows is in its box tree, once and in document order", "statement": "Every character that is not white space, every picture and every box of an element that the document calls for is found in the box tree exactly once, in document order: text before a block before it, ::before first and ::after last, markers of list items, captions on their side, the content of tables inside of the table.", "quantifier": "every document with every combination of display values, pseudo-elements and nesting", "why_tests_cant": "the document tree and the combinations of display values are unbounded", "anchors": ["src/vaev-engine/layout/builder/mod.cpp: _buildNode, _buildChildren, BuilderContext, buildElement", "src/vaev-engine/layout/base/box.cpp: Box::add"]}
{"id": "C84", "title": "Building the boxes of a document never aborts", "statement": "For every styled document the boxes are built and the program goes on.", "quantifier": "every document and every combination of display values", "why_tests_cant": "unbounded", "anchors": ["src/vaev-engine/layout/builder/mod.cpp: BuilderContext::rootInlineBox, _createTableWrapperAndBuildTable, _buildPseudoElement"]}
{"id": "C85", "title": "A box holds boxes or inline content, not both", "statement": "Every box of the tree holds either child boxes or content of its own (text or a picture); where a document mixes both, text is wrapped into boxes of its own.", "quantifier": "every document and every box of its tree", "why_tests_cant": "unbounded", "anchors": ["src/vaev-engine/layout/builder/mod.cpp: flushRootInlineBoxIntoAnonymousBox, finalizeParentBoxAndFlushInline"]}
{"id": "C86", "title": "Each br breaks the line", "statement": "Text before and after a br stand on different lines, and each further br leaves one more empty line.", "quantifier": "every text around any number of br elements", "why_tests_cant": "unbounded", "anchors": ["src/vaev-engine/layout/builder/mod.cpp: createAndBuildInlineFlowfromElement"]}
{"id": "C87", "title": "Every img has its picture or the placeholder", "statement": "After a document is loaded, every img element of its HTML content has the picture its address leads to or, if there is none, the placeholder; what becomes of one img does not affect another.", "quantifier": "every document and every behaviour of the network", "why_tests_cant": "every combination of failing and succeeding fetches in a tree of any size", "anchors": ["src/vaev-engine/loader/loader.cpp: _fetchResourcesAsync"]}
{"id": "C88", "title": "Each @font-face uses the first source that can be had", "statement": "For every @font-face rule the font added under its family is that of the first source in its list that is present, in a format that can be read and obtainable; a rule that fails does not affect others.", "quantifier": "every list of rules and sources, and every behaviour of the network", "why_tests_cant": "every pattern of failures", "anchors": ["src/vaev-engine/loader/loader-impl.cpp: _loadFontfacesAsync", "src/vaev-engine/style/fonts.cpp: FontFace"]}
{"id": "C89", "title": "Fetching the images of a document ends", "statement": "Fetching the images of a document comes to an end whatever the images are, SVG images with images of their own included.", "quantifier": "every graph of images", "why_tests_cant": "non-termination cannot be observed by a test that ends", "anchors": ["src/vaev-engine/loader/loader-impl.cpp: _fetchImageContentAsync"]}
{"id": "C90", "title": "A window shows its current document in its current media", "statement": "After any sequence of loading (with or without success), changing the media, resizing and showing, what a window shows is the document loaded last, rendered for the media set last.", "quantifier": "every history of operations on a window", "why_tests_cant": "histories are unbounded", "anchors": ["src/vaev-engine/dom/window.cpp: Window::ensureRender, changeMedia, changeViewport, loadLocationAsync"]}
{"id": "C91", "title": "The media of a window describe it", "statement": "The size, the size of the device and the orientation that media queries see are those of the window, after any history of resizing.", "quantifier": "every history of operations on a window", "why_tests_cant": "histories are unbounded", "anchors": ["src/vaev-engine/style/media.cpp: Media::forRender, changeViewport"]}
{"id": "C92", "title": "Read-only properties stay as they are", "statement": "Writing a property that is read-only, in the object or where it is inherited from, and defining differently a property that cannot be configured, have no effect and report failure.", "quantifier": "every heap of objects a program can build", "why_tests_cant": "heaps and prototype chains are unbounded", "anchors": ["src/vaev-script/internal-slots-impl.cpp: ordinarySetWithOwnDescriptor, _validateAndApplyPropertyDescriptor"]}
{"id": "C93", "title": "Reading and writing properties ends and finds the nearest property", "statement": "In every heap a program can build, reading and writing a property come to an end; reading gives the value of the first property of that name on the way from the object through its prototypes, or undefined.", "quantifier": "every heap of objects a program can build", "why_tests_cant": "heaps and prototype chains are unbounded", "anchors": ["src/vaev-script/internal-slots-impl.cpp: ordinaryGet, ordinarySet", "src/vaev-script/object-impl.cpp: Object::create"]}
{"id": "C94", "title": "Accessors are called", "statement": "Reading a property with accessors calls the getter on the object that was asked and gives undefined without one; writing it calls the setter with the value.", "quantifier": "every heap and every behaviour of the functions", "why_tests_cant": "the functions may do anything", "anchors": ["src/vaev-script/internal-slots-impl.cpp: ordinaryGet, ordinarySetWithOwnDescriptor"]}
{"id": "C95", "title": "SameValue compares any two values", "statement": "Comparing two values says that they are the same exactly if they are, where NaN is the same as NaN and the two zeros differ; it never aborts the program.", "quantifier": "every pair of values", "why_tests_cant": "every pair", "anchors": ["src/vaev-script/ops-impl.cpp: sameValue, sameValueNonNumber", "src/vaev-script/value.cpp: Number::sameValue"]}
{"id": "C96", "title": "calc() computes what is written", "statement": "calc() of a value is that value; calc() of two values with +, -, * or / between them is the sum, difference, product or quotient, percentages being taken of what they refer to; expressions may be longer and nested; anything else is rejected.", "quantifier": "all literals, units, operators, spacing and contexts", "why_tests_cant": "infinitely many expressions and contexts", "anchors": ["src/vaev-engine/values/calc.cpp: ValueParser<CalcValue<T>>::parse, resolve"]}
{"id": "C97", "title": "Absolute lengths are fractions of an inch", "statement": "A number followed by an absolute unit, in any case, is that many of the unit: 96px, 72pt, 6pc, 2.54cm, 25.4mm and 101.6Q make an inch. Unknown units are rejected; a zero needs no unit, any other number does.", "quantifier": "all numbers, units and spellings", "why_tests_cant": "infinitely many numbers", "anchors": ["src/vaev-engine/values/length.cpp: AbsoluteLength::pixels, ValueParser<Length>::parse", "src/vaev-engine/values/defs/absolute-lengths.inc"]}
{"id": "C98", "title": "Relative lengths are multiples of what they refer to", "statement": "A number followed by a relative unit is that many times the unit: of the font or root font metric, or of a hundredth of the small, large or dynamic viewport width, height, inline or block size, smaller or larger side.", "quantifier": "all numbers, viewports, fonts and rounding functions", "why_tests_cant": "infinitely many contexts", "anchors": ["src/vaev-engine/values/length.cpp: resolve(RelativeLength), ValueParser<RelativeLength>::parse"]}
{"id": "C99", "title": "display keywords mean what CSS says", "statement": "Each display value of one or more keywords, in any order and case, gives the inner layout, outer role and list marker it names, with flow and block as defaults; other values are rejected. Making a box block-level or inline-level changes its outer role and nothing else.", "quantifier": "all sequences of component values", "why_tests_cant": "any sequence of tokens may be written", "anchors": ["src/vaev-engine/values/display.cpp: ValueParser<Display>::parse, Display::blockify, Display::inlinify"]}
{"id": "C100", "title": "One to four values go to the four sides", "statement": "A shorthand of sides takes one to four values; missing ones are copied from the opposite side, or from the first; anything else is rejected.", "quantifier": "all values, whatever their type", "why_tests_cant": "any values", "anchors": ["src/vaev-engine/values/insets.cpp: ValueParser<Math::Insets<T>>::parse", "src/vaev-engine/values/width.cpp: Width"]}
{"id": "C101", "title": "The border shorthand takes its parts in any order", "statement": "A border is a width, a style and a colour, each at most once and in any order; missing ones are medium, none and the current colour; anything else is rejected.", "quantifier": "all widths, styles, colours and orders", "why_tests_cant": "all values and orders, with any colour syntax", "anchors": ["src/vaev-engine/values/borders.cpp: ValueParser<SpecifiedBorder>::parse", "src/vaev-engine/values/line-width.cpp: ValueParser<LineWidth>::parse"]}
{"id": "C102", "title": "rgb() denotes the written channels", "statement": "rgb() and rgba(), with spaces or commas, have the channels nearest to the numbers, or percentages of 255, clamped to 0 to 255, and the opacity given; the two syntaxes agree; anything else is rejected.", "quantifier": "all numbers, percentages, spacing and rounding of halves", "why_tests_cant": "infinitely many numbers", "anchors": ["src/vaev-engine/values/color.cpp: _parseSRGBModernFuncColor, _parseSRGBLegacyFuncColor, _parseAlphaValue"]}
{"id": "C103", "title": "color() denotes the written channels", "statement": "color(space r g b) has channels nearest to 255 times the numbers, in that space, with the opacity given; unknown spaces are rejected.", "quantifier": "all numbers, percentages and spaces", "why_tests_cant": "infinitely many numbers", "anchors": ["src/vaev-engine/values/color.cpp: _parseColorFuncColor, _parsePredefinedRGBParams"]}
{"id": "C104", "title": "color-mix() mixes in the proportion of the percentages", "statement": "The two colours are mixed in the proportion of their percentages, a missing one making up 100, with an opacity of their sum if that is less than 100; swapping the sides changes nothing; hues go the shorter, longer, increasing or decreasing way round as asked for.", "quantifier": "all percentages and hues", "why_tests_cant": "infinitely many numbers", "anchors": ["src/vaev-engine/values/color.cpp: resolve(ColorMix), ColorSpace::_preparePolar"]}
{"id": "C105", "title": "inherit takes the parent's values of exactly that property", "statement": "Declaring a property, longhand or shorthand, as inherit gives an element its parent's computed value of everything the property sets, side by side and corner by corner, and changes no other computed value.", "quantifier": "every registered property, parent style and element style", "why_tests_cant": "styles are unbounded and each property has its own code", "anchors": ["src/vaev-engine/props/base.cpp: DefaultedProperty, Property::Registration::inherit", "src/vaev-engine/props/border.cpp: load, apply, expandShorthand", "src/vaev-engine/props/margin.cpp: load, apply"]}
{"id": "C106", "title": "initial resets exactly what the property sets", "statement": "Declaring a property as initial gives everything it sets the initial value of the CSS property tables and changes nothing else.", "quantifier": "every registered property, parent style and element style", "why_tests_cant": "as above", "anchors": ["src/vaev-engine/props/base.cpp: DefaultedProperty", "src/vaev-engine/props/fonts.cpp: FontProperty", "src/vaev-engine/props/baseline.cpp: VerticalAlignProperty", "src/vaev-engine/props/border.cpp"]}
{"id": "C107", "title": "unset is inherit for inherited properties and initial for others", "statement": "Declaring a property as unset has the effect of inherit for every value it sets that CSS says is inherited, and of initial for every other value it sets.", "quantifier": "every registered property, parent style and element style", "why_tests_cant": "as above", "anchors": ["src/vaev-engine/props/base.cpp: DefaultedProperty", "src/vaev-engine/props/visibility.cpp: VisibilityProperty", "src/vaev-engine/props/fonts.cpp: FontProperty"]}
{"id": "C108", "title": "What nothing declares is inherited or initial", "statement": "With no declaration of it, a computed value is the parent's if CSS says it is inherited and the initial one otherwise, in whatever order the properties are registered.", "quantifier": "every value, every parent style and every order of the registrations", "why_tests_cant": "orders and styles are unbounded", "anchors": ["src/vaev-engine/props/base.cpp: initialComputedValues, inheritsComputedValues", "src/vaev-engine/props/registry.cpp"]}
{"id": "C109", "title": "The winning declaration of a value is what the element gets", "statement": "A declared value that wins the cascade is the element's computed value of what it sets, and declarations of other properties do not disturb it, in whatever order the cascaded values are applied; of declarations that set the same value, under whichever name, the one that wins the cascade counts.", "quantifier": "every set of cascaded declarations and every order of applying them", "why_tests_cant": "sets and orders are unbounded", "anchors": ["src/vaev-engine/style/cascaded.cpp: CascadedValues::apply", "src/vaev-engine/style/computer.cpp: computeValues", "src/vaev-engine/props/margin.cpp", "src/vaev-engine/props/registry.cpp"]}
{"id": "C110", "title": "The outline takes the element's own colour", "statement": "The automatic outline colour is computed from the outline style and the colour the element itself ends up with, in whatever order they are declared and whether or not outline-color is declared.", "quantifier": "every style and set of declarations", "why_tests_cant": "unbounded", "anchors": ["src/vaev-engine/props/outline.cpp: OutlineColorProperty::apply", "src/vaev-engine/style/computer.cpp: computeValues"]}
{"id": "C111", "title": "Reading HTML ends, and says so once", "statement": "Whatever text is given to the HTML reader, it comes to an end: every character is looked at a bounded number of times, the reader never stops the program, and the tree builder is told exactly once, after everything else, that the document is over.", "quantifier": "all texts and all behaviours of the tree builder", "why_tests_cant": "The reader has eighty states that hand characters to each other; a loop or a failed assertion could hide in any combination of them.", "anchors": ["src/vaev-engine/html/lexer.cpp: HtmlLexer::consume", "src/vaev-engine/html/parser.cpp: HtmlParser::write"]}
{"id": "C112", "title": "Reading HTML stays within its buffers", "statement": "Whatever text is given to the HTML reader, it never reads a buffer outside its bounds.", "quantifier": "all texts and all behaviours of the tree builder", "why_tests_cant": "The read that goes wrong depends on something remembered from an attribute that may be arbitrarily far back in the document.", "anchors": ["src/vaev-engine/html/lexer.cpp: NAMED_CHARACTER_REFERENCE state", "src/vaev-engine/html/lexer.cpp: _matchedCharReferenceNoSemiColon"]}
{"id": "C113", "title": "Plain text comes through unchanged", "statement": "A document without < and & is handed on as its own text, every character once and in order, with the newlines of any system turned into line feeds.", "quantifier": "all texts without < and &, with newlines of any kind and mixture", "why_tests_cant": "A dropped, doubled or swapped character may need a certain neighbourhood.", "anchors": ["src/vaev-engine/html/parser.cpp: HtmlParser::write", "src/vaev-engine/html/lexer.cpp: DATA state"]}
{"id": "C114", "title": "A document means what is written", "statement": "A document built from text with character references, start and end tags with attributes in every spelling, comments, document types and elements that hold text only is handed on as exactly these parts, in order: tag and attribute names in lower case, values with their references replaced, the first of several attributes of the same name.", "quantifier": "all documents of the grammar, of any length, with any number of attributes, any white space and any newlines", "why_tests_cant": "The reader keeps state between the parts (buffers, the last start tag, the attribute in progress), so a part may be read wrongly only after certain others.", "anchors": ["src/vaev-engine/html/lexer.cpp: HtmlLexer::consume", "src/vaev-engine/html/token.cpp: HtmlToken", "src/vaev-engine/html/parser.cpp: HtmlParser::write"]}
{"id": "C115", "title": "Scripts, style sheets and titles end at their own end tag only", "statement": "After the start tag of an element that holds text only, everything up to the end tag of that element is text, whatever it looks like: other end tags, unfinished end tags, comments; and the end tag is recognised in any case and with white space or attributes.", "quantifier": "all contents without the end tag, all spellings of the end tag", "why_tests_cant": "The end tag is recognised while text is held back; the text held back may itself be interrupted at any character by the real end tag.", "anchors": ["src/vaev-engine/html/lexer.cpp: RCDATA, RAWTEXT and SCRIPT_DATA states", "src/vaev-engine/html/lexer.cpp: _isAppropriateEndTagToken"]}
{"id": "C116", "title": "A numeric reference is the character of that number", "statement": "&#, decimal digits and ; or &#x, hexadecimal digits and ; stand for the character of that number, numbers that are no characters for U+FFFD, 128 to 159 for the characters of Windows-1252; the number ends at the first character that is not such a digit.", "quantifier": "all numbers of any length, in text and in attributes", "why_tests_cant": "There are infinitely many numbers, and long ones overflow.", "anchors": ["src/vaev-engine/html/lexer.cpp: HEXADECIMAL_CHARACTER_REFERENCE, DECIMAL_CHARACTER_REFERENCE, NUMERIC_CHARACTER_REFERENCE_END states"]}
{"id": "C117", "title": "A named reference is its characters", "statement": "Each of the 2231 names of the table, with its semicolon, stands for its characters, in text and in attributes; the old names do so without a semicolon; what a reference stands for is not read again.", "quantifier": "all names, all texts before and after", "why_tests_cant": "Names are prefixes of each other; a name is found by matching the table at every character.", "anchors": ["src/vaev-engine/html/lexer.cpp: NAMED_CHARACTER_REFERENCE state", "src/vaev-engine/html/defs/entities.inc"]}
{"id": "C118", "title": "Tags make sense", "statement": "Every tag the tree builder is given has a lower-case name that is not empty, and attributes with lower-case names that are not empty and pairwise different.", "quantifier": "all texts and all behaviours of the tree builder", "why_tests_cant": "The attributes of a tag are compared with each other while the tag is read, in four states that can be entered in any order.", "anchors": ["src/vaev-engine/html/lexer.cpp: leaveAttributeNameState", "src/vaev-engine/html/lexer.cpp: TAG_NAME, ATTRIBUTE_NAME states"]}
{"id": "C119", "title": "Query strings survive in attributes", "statement": "In an attribute, & followed by letters and digits and = stays what it is, even if the letters are the name of a reference: <a href=\"?x=1&copy=2\">.", "quantifier": "all words, all values before and after", "why_tests_cant": "Whether a word is the name of a reference, or begins with one, depends on the table.", "anchors": ["src/vaev-engine/html/lexer.cpp: NAMED_CHARACTER_REFERENCE, AMBIGUOUS_AMPERSAND states"]}
{"id": "C120", "title": "A document type is read as written", "statement": "A document type is handed on as one token with its name in lower case and its identifiers as written, whatever white space it is written with, and leaves no trace on what follows.", "quantifier": "all names, identifiers, cases and white space", "why_tests_cant": "The amount of white space is unbounded, and the trace may show much later.", "anchors": ["src/vaev-engine/html/lexer.cpp: DOCTYPE states"]}
{"id": "C121", "title": "CDATA sections hold text", "statement": "Inside svg and math elements, <![CDATA[ and ]]> enclose text.", "quantifier": "all contents", "why_tests_cant": "Contents may be anything.", "anchors": ["src/vaev-engine/html/lexer.cpp: MARKUP_DECLARATION_OPEN, CDATA_SECTION states", "src/vaev-engine/html/lexer.cpp: _inForeignContent"]}
{"id": "C122", "title": "A page gives the tree that it spells", "statement": "A page whose elements are nested and placed as HTML allows gives exactly the tree it spells: each element a node with its name and its attributes, its parts as children in order, adjacent text as one node, comments where they stand; html, head and body are there whether or not their tags are, and drawings are in the namespace of SVG.", "quantifier": "all pages of the grammar: any nesting, any number of elements, attributes and characters, any of the optional tags left out, tables, lists, forms, scripts, drawings", "why_tests_cant": "The tree builder keeps a stack, a list of formatting elements and twenty modes between the tokens; what one tag does depends on all the tags before it.", "anchors": ["src/vaev-engine/html/parser.cpp: HtmlParser::accept", "src/vaev-engine/html/parser.cpp: _acceptIn", "src/vaev-engine/html/parser.cpp: _handleInBody", "src/vaev-engine/html/parser.cpp: _handleInTable", "src/vaev-engine/html/parser.cpp: _handleInForeignContent"]}
{"id": "C123", "title": "Reading a page ends and does not crash", "statement": "Whatever the document, building its tree ends, and without a failed assertion, a read of an empty stack or a write past the end of a vector.", "quantifier": "all documents", "why_tests_cant": "The modes hand tokens to each other; loops and empty stacks need tags that are arbitrarily far apart.", "anchors": ["src/vaev-engine/html/parser.cpp: _handleInForeignContent", "src/vaev-engine/html/parser.cpp: _runAdoptionAgencyAlgorithm", "src/vaev-engine/html/parser.cpp: _handleInCell", "src/vaev-engine/html/parser.cpp: HtmlParser::accept"]}
{"id": "C124", "title": "Every page has one html with a head and a body", "statement": "The tree of every document has one element, html, whose only elements are one head and then one body, which is the last child.", "quantifier": "all documents", "why_tests_cant": "The tags may be missing, doubled or at the wrong place, with anything between them.", "anchors": ["src/vaev-engine/html/parser.cpp: _handleBeforeHtml", "src/vaev-engine/html/parser.cpp: _handleBeforeHead", "src/vaev-engine/html/parser.cpp: _handleAfterHead", "src/vaev-engine/html/parser.cpp: _handleText"]}
{"id": "C125", "title": "Nothing is lost, moved or invented", "statement": "The tree, written out again, gives the tokens it was made from, in order: every character, comment and element once.", "quantifier": "all documents", "why_tests_cant": "A dropped or doubled part may need a certain neighbourhood.", "anchors": ["src/vaev-engine/html/parser.cpp: _insertACharacter", "src/vaev-engine/html/parser.cpp: _insertAComment", "src/vaev-engine/html/parser.cpp: _insertAForeignElement", "src/vaev-engine/html/parser.cpp: _handleBeforeHtml", "src/vaev-engine/html/parser.cpp: _handleInBody"]}
{"id": "C126", "title": "An end tag ends the innermost element of its name", "statement": "The end tag of a formatting element ends the innermost open one of that name, so that exactly what is written between the tags is formatted.", "quantifier": "all bodies, any nesting", "why_tests_cant": "The list of formatting elements is unbounded and survives the elements that are on the stack.", "anchors": ["src/vaev-engine/html/parser.cpp: _runAdoptionAgencyAlgorithm", "src/vaev-engine/html/parser.cpp: _ActiveFormattingElementList", "src/vaev-engine/html/parser.cpp: _reconstructActiveFormattingElements"]}
{"id": "C127", "title": "The attributes of a tag are those of its element", "statement": "The attributes written on a tag can be found on the element of that tag, and on no other one.", "quantifier": "all pages and attributes", "why_tests_cant": "Which element is given the attributes depends on what is open.", "anchors": ["src/vaev-engine/html/parser.cpp: _handleInBody", "src/vaev-engine/html/parser.cpp: _createElementFor", "src/vaev-engine/dom/element.cpp: Element::getAttribute"]}
{"id": "C128", "title": "Drawings keep what they contain", "statement": "Everything between <svg> and </svg> is part of the drawing: elements are in the namespace of SVG, with the upper-case letters that SVG has in their names and in those of their attributes, whatever the attributes are called.", "quantifier": "all drawings, any nesting", "why_tests_cant": "Drawings nest without bound, and any name may be used.", "anchors": ["src/vaev-engine/html/parser.cpp: _handleInForeignContent", "src/vaev-engine/dom/names.cpp: Svg::qualifiedTagNameCased, qualifiedAttrNameCased"]}
{"id": "C129", "title": "Every document that is read gives a tree", "statement": "When an HTML document has been read, every node that can be reached from the document is in exactly one place: it has one parent, is once among that parent's children, its parent link leads back to it, only elements and the document have children, and there is no cycle. Looking at the document from the top always ends.", "quantifier": "all documents (any sequence of characters), and all sequences of tokens", "why_tests_cant": "a malformed document moves nodes around (misnested formatting, text in tables, unclosed tags); tests try some combinations", "anchors": ["src/vaev-engine/html/parser.cpp: _runAdoptionAgencyAlgorithm, _apropriatePlaceForInsertingANode, _reconstructActiveFormattingElements", "src/vaev-engine/dom/tree.cpp: Tree"]}
{"id": "C130", "title": "Every document has one root element", "statement": "Whatever the HTML document, the document node has comments, at most one document type before its root, and exactly one element, html, which comes last; no text. The document is in quirks mode exactly when it has no document type.", "quantifier": "all documents (any sequence of characters), and all sequences of tokens", "why_tests_cant": "documents with tags left out, doubled, or after the end", "anchors": ["src/vaev-engine/html/parser.cpp: _handleInitialMode, _handleBeforeHtml", "src/vaev-engine/dom/document.cpp: quirkMode"]}
{"id": "C131", "title": "Inside the document there are elements, text and comments", "statement": "Whatever the HTML document, below the children of the document node there are only elements, comments and text nodes that are not empty: no document types and no documents.", "quantifier": "all documents (any sequence of characters), and all sequences of tokens", "why_tests_cant": "document types and empty texts may come from anywhere in a malformed document", "anchors": ["src/vaev-engine/html/parser.cpp: _handleInBody, _insertACharacter"]}
{"id": "C132", "title": "Nothing in the tree is made up", "statement": "Whatever the HTML document, every character of a text, every comment and document type in the tree is that of a token; every element has the name of a start tag (up to the case of letters, img for image, br for </br>) or is one of html, head, body, colgroup, tbody, tr, p; no element has an attribute twice, and every attribute is one of a start tag of that name, or of html or body.", "quantifier": "all documents (any sequence of characters), and all sequences of tokens", "why_tests_cant": "elements are created again from saved tokens when formatting is misnested", "anchors": ["src/vaev-engine/html/parser.cpp: _createElementFor, _reconstructActiveFormattingElements, _handleInBody"]}
{"id": "C133", "title": "Laying out a flex container ends", "statement": "Laying out a flex container comes to an end, after at most as many turns as there are items in a line, whatever sizes, factors and limits the items have.", "quantifier": "all containers and lists of items; any rounding of lengths", "why_tests_cant": "the loop that freezes items must freeze one in every turn, for every combination of limits", "anchors": ["src/vaev-engine/layout/flex.cpp: _resolveFlexibleLengths"]}
{"id": "C134", "title": "Flex items keep to their limits", "statement": "No item of a flex container is smaller than its minimum size, and none larger than its maximum size (unless the minimum is larger); none has a negative size.", "quantifier": "all containers, lists of items, turns of the loop and roundings", "why_tests_cant": "every item is frozen at a different point of the loop", "anchors": ["src/vaev-engine/layout/flex.cpp: _resolveFlexibleLengths, clampAndFloorContentBox"]}
{"id": "C135", "title": "Room in a flex line is shared fairly", "statement": "In every line of a flex container all items grow by the same amount for each unit of flex-grow, or shrink by the same amount for each unit of flex-shrink times base size, except those that are at a limit; and the line is exactly filled unless all items are at their limits. Factors that add up to less than one take only that part of the room.", "quantifier": "all containers and lists of items", "why_tests_cant": "whether freezing items one after the other ends with one share for all depends on every combination of limits", "anchors": ["src/vaev-engine/layout/flex.cpp: _resolveFlexibleLengths"]}
{"id": "C136", "title": "Flex items are put on lines", "statement": "Every item of a flex container is on exactly one line, in order. Without wrapping there is one line; with wrapping each line takes as many items as go on it, and at least one.", "quantifier": "all containers and lists of items", "why_tests_cant": "line breaks depend on all items before", "anchors": ["src/vaev-engine/layout/flex.cpp: _collectFlexItemsIntoFlexLines, _collectFlexItemsInfoFlexLinesWrap"]}
{"id": "C137", "title": "justify-content places the items of a line", "statement": "flex-start, flex-end, center, space-between, space-around and space-evenly put the items of each line side by side where CSS says: from the beginning, up to the end, with the same room at both ends, with the same room between each two, and with half or all of it at the ends; also when there is too little room.", "quantifier": "all containers and lists of items", "why_tests_cant": "depends on the number of items, their sizes and margins, and on whether there is room", "anchors": ["src/vaev-engine/layout/flex.cpp: justifyContent, alignMain…, _distributeRemainingFreeSpace"]}
{"id": "C138", "title": "Reversed directions are mirror images", "statement": "With row-reverse or column-reverse the items lie as justify-content says, seen from the other end; with wrap-reverse the lines do.", "quantifier": "all containers and lists of items", "why_tests_cant": "depends on direction, justification and sizes together", "anchors": ["src/vaev-engine/layout/flex.cpp: _distributeRemainingFreeSpace, _collectFlexItemsIntoFlexLines"]}
{"id": "C139", "title": "auto margins take the room that is left", "statement": "If a line has auto margins along the main direction, they are all the same and take all the room that is left, so that justify-content does nothing; when no room is left they are zero.", "quantifier": "all containers and lists of items", "why_tests_cant": "depends on all items and margins of the line", "anchors": ["src/vaev-engine/layout/flex.cpp: _distributeRemainingFreeSpace"]}
{"id": "C140", "title": "Items are aligned across their line", "statement": "Every flex item is across its line where align-self says, or align-items of the container: at the beginning, at the end, in the middle, or stretched within its limits; auto margins across take the room that is left.", "quantifier": "all containers and lists of items", "why_tests_cant": "depends on the line, which depends on all items", "anchors": ["src/vaev-engine/layout/flex.cpp: alignItem, _determineUsedCrossSize, _resolveCrossAxisAutoMargins"]}
{"id": "C141", "title": "align-content places the lines", "statement": "The lines of a flex container follow each other where align-content says; stretched lines fill the container.", "quantifier": "all containers and lists of items", "why_tests_cant": "depends on number and sizes of all lines", "anchors": ["src/vaev-engine/layout/flex.cpp: _alignAllFlexLines, _handleAlignContentStretch"]}
{"id": "C142", "title": "Flex items do not overlap", "statement": "No two items of a flex container overlap if their margins and minimum sizes are not negative; on several lines each item is inside its line.", "quantifier": "all containers and all pairs of items", "why_tests_cant": "pairs of items over all lines", "anchors": ["src/vaev-engine/layout/flex.cpp: FlexFormatingContext::run"]}
{"id": "C143", "title": "Flex items that have room stay inside", "statement": "If the items of a line find room in the container with the sizes they would like to have, all of them lie inside it along the main direction, whatever grows and however they are justified.", "quantifier": "all containers and lists of items", "why_tests_cant": "growing must never take more than there is", "anchors": ["src/vaev-engine/layout/flex.cpp: FlexFormatingContext::run"]}
{"id": "C144", "title": "Columns have room for their cells", "statement": "However often a table has been laid out before and whatever width it is given, the columns of every cell are together at least as wide as its longest unbreakable content plus its padding and borders, and as wide as its width when that is a length; no column is negative.", "quantifier": "all tables with cells spanning any number of rows and columns, all histories of layouts, all inputs", "why_tests_cant": "spans interact with each other and with columns and column groups; the widths are kept and reused", "anchors": ["src/vaev-engine/layout/table.cpp: computeAutoColWidths, computeMinMaxAutoWidths"]}
{"id": "C145", "title": "Columns fill their table", "statement": "The columns of a table with a given width are together as wide as the table, which is at least as wide as asked for and as its caption needs; with fixed layout the columns and the spacing reach the width asked for.", "quantifier": "all tables, all widths, all histories of layouts that do not measure the table", "why_tests_cant": "percentages, lengths and contents are mixed in every proportion", "anchors": ["src/vaev-engine/layout/table.cpp: computeAutoColWidths, computeFixedColWidths"]}
{"id": "C146", "title": "Cells stay inside the table", "statement": "No cell of a table sticks out of the table box on the left or on the right.", "quantifier": "all tables, all inputs, all histories of layouts", "why_tests_cant": "depends on all spans and widths together", "anchors": ["src/vaev-engine/layout/table.cpp: run, layoutRow"]}
{"id": "C147", "title": "A table without a width shrinks to fit", "statement": "A table without a width is no wider than its containing block if it fits into it with all line breaks taken.", "quantifier": "all tables and containing blocks", "why_tests_cant": "every combination of contents and spans", "anchors": ["src/vaev-engine/layout/table.cpp: computeAutoColWidths"]}
{"id": "C148", "title": "Rows are as high as their cells need", "statement": "The rows of every cell are together at least as high as the cell laid out at its width, and as its height says; and no row is higher than one of its cells needs.", "quantifier": "all tables whose cells get no higher when they get wider, all histories of layouts", "why_tests_cant": "any number of spanning cells compete for rows", "anchors": ["src/vaev-engine/layout/table.cpp: computeRowHeights, layoutCell"]}
{"id": "C149", "title": "Cells are where their rows and columns are", "statement": "Laying out a table in one piece gives every cell exactly once, at the position of its first column, as wide and high as its columns and rows with the spacing between them; cells that begin in one row begin at the same height, no two cells overlap, and none leaves the table at its top or bottom.", "quantifier": "all tables of cells that share no slot, all inputs, all histories of layouts", "why_tests_cant": "pairs of cells over all tables; positions are kept from one layout to the next", "anchors": ["src/vaev-engine/layout/table.cpp: layoutRows, layoutRow, layoutCell"]}
{"id": "C150", "title": "Laying out a table does not depend on what was laid out before", "statement": "A table comes out the same however often it has been laid out or measured before.", "quantifier": "all tables, all histories of layouts with all inputs", "why_tests_cant": "hidden state that only certain sequences of layouts reach", "anchors": ["src/vaev-engine/layout/table.cpp: computeWidthAndHeight, lastInput, autoHeightRows, colWidth"]}
{"id": "C151", "title": "A given height is used", "statement": "A table with a height that is at least what its rows need has exactly this height, and none of its rows gets lower by it.", "quantifier": "all tables and heights", "why_tests_cant": "sums over any number of rows", "anchors": ["src/vaev-engine/layout/table.cpp: computeWidthAndHeight"]}
{"id": "C152", "title": "Repeated headers and footers do not cover anything", "statement": "On a page with some rows of a table, the repeated header and footer and the rows between them do not overlap, and header and footer are there with all their cells when they are low enough for the page.", "quantifier": "all tables, pages and ranges of rows", "why_tests_cant": "any number of header, body and footer rows of any heights", "anchors": ["src/vaev-engine/layout/table.cpp: layoutHeaderFooterRows, run"]}
{"id": "C153", "title": "Laying out a table never breaks down", "statement": "Laying out a table ends with a result: no access outside of its grid, no division by zero, no wrapped-around number.", "quantifier": "all tables, inputs and histories of layouts", "why_tests_cant": "the bad cases are particular combinations of attributes", "anchors": ["src/vaev-engine/layout/table.cpp: run, computeFixedColWidths, computeAutoWidthOfColGroups"]}
{"id": "C154", "title": "A selector means what is written", "statement": "The selector read from the text of a rule matches an element of a document exactly when the selector as written in the text does, by the grammar and the meaning of Selectors, and has the same specificity.", "quantifier": "all selector lists of the grammar, of any length and nesting, and all documents and elements", "why_tests_cant": "selectors combine without bound; the wrong readings are particular combinations of combinators, spaces and counts", "anchors": ["src/vaev-engine/style/selector.cpp: Selector::parse, _parseSelectorElement, _parseInfixExpr, _parseNfixExpr, _peekOpCode"]}
{"id": "C155", "title": "Reading a selector always ends", "statement": "Whatever a text contains, reading it as a selector ends, within a number of calls that is linear in the size of the text.", "quantifier": "all sequences of component values, nested to any depth", "why_tests_cant": "no test can wait for a reader that never stops on some input", "anchors": ["src/vaev-engine/style/selector.cpp: Selector::parse, _parseNfixExpr"]}
{"id": "C156", "title": "Reading a selector stays within its text", "statement": "Reading a text as a selector never looks behind the end of it.", "quantifier": "all sequences of component values", "why_tests_cant": "reading past the end often goes unnoticed, and happens for particular endings only", "anchors": ["src/vaev-engine/style/selector.cpp: Selector::parse, AnB::parse, _parseQualifiedNameSelector, _parseAttributeSelector"]}
{"id": "C157", "title": "An+B is read as written", "statement": "In :nth-child() and its like, each spelling of An+B gives the numbers A and B that are written, and nothing else is taken for one.", "quantifier": "all texts", "why_tests_cant": "endless many spellings with signs, spaces and digits", "anchors": ["src/vaev-engine/style/selector.cpp: AnB"]}
{"id": "C158", "title": "Type selectors are in the namespace they say", "statement": "A type selector without prefix matches elements of that name in the declared default namespace, or in every namespace if none is declared; a prefixed one in the namespace of the prefix.", "quantifier": "all names, namespaces and elements", "why_tests_cant": "every name and declaration", "anchors": ["src/vaev-engine/style/selector.cpp: _parseQualifiedNameSelector", "src/vaev-engine/style/namespace.cpp: Namespace"]}
{"id": "C159", "title": "What is no selector is refused", "statement": "A text that is not a selector list, as one that begins with a combinator, ends with a comma or names an unknown pseudo-class, is an error, so that its rule is dropped.", "quantifier": "all sequences of component values", "why_tests_cant": "the wrong texts are endless", "anchors": ["src/vaev-engine/style/selector.cpp: Selector::parse, PseudoClassSelector::make"]}
{"id": "C160", "title": "What is laid out is painted, once", "statement": "Every background, border, outline, text, image and SVG shape of a page's boxes that is not hidden is drawn exactly once, and nothing else is drawn.", "quantifier": "all trees of fragments, whatever their positions, levels, floats and effects", "why_tests_cant": "there are endless trees, and six passes over each that must neither miss nor repeat a box", "anchors": ["src/vaev-engine/layout/paint.cpp: paint, _paintStackingContext, _paintChildren, _paintFrag", "src/vaev-engine/layout/base/box.cpp: Box::impliesNewStackingContext"]}
{"id": "C161", "title": "Things are painted in the order CSS gives", "statement": "A box that stacks draws its background first, then the stacking boxes below level 0 by level, the blocks, the floats, the inline boxes and text, the positioned boxes, and the stacking boxes above level 0 by level; boxes of one level in tree order.", "quantifier": "all trees of fragments", "why_tests_cant": "the order is that of any number of boxes nested to any depth", "anchors": ["src/vaev-engine/layout/paint.cpp: _paintStackingContext, _paintChildren, _establishStackingContext"]}
{"id": "C162", "title": "Effects lie over just what is in the box that has them", "statement": "Whatever is drawn is drawn under exactly the opacities, transforms and clips of the elements it is in.", "quantifier": "all trees of fragments", "why_tests_cant": "it speaks of every path in every tree", "anchors": ["src/vaev-engine/layout/paint.cpp: _establishStackingContext, _paintSVGElement, _applyTransformIfNeeded"]}
{"id": "C163", "title": "Backgrounds are painted", "statement": "The background colour of every visible box is painted, that of the root element, or of the body handed up to it, over the whole page.", "quantifier": "all trees of fragments", "why_tests_cant": "no sample covers all boxes and their neighbours", "anchors": ["src/vaev-engine/layout/paint.cpp: _paintFragBordersAndBackgrounds", "src/vaev-engine/style/computer.cpp: _propagateBodyBackgroundToHtml"]}
{"id": "C164", "title": "visibility: hidden hides a box and no more", "statement": "A hidden box draws nothing of its own, and everything visible inside of it is still drawn.", "quantifier": "all trees of fragments", "why_tests_cant": "hidden and visible boxes can be nested in endless ways", "anchors": ["src/vaev-engine/layout/paint.cpp: _paintFrag, _paintSVGElement"]}
{"id": "C165", "title": "flex says how an item grows, shrinks and begins", "statement": "The flex shorthand is accepted exactly when CSS allows it, and gives the factors and the basis that are written, with the values of CSS for those left out.", "quantifier": "all values", "why_tests_cant": "numbers and lengths may be anything and in two orders", "anchors": ["src/vaev-engine/props/flex.cpp: FlexProperty"]}
{"id": "C166", "title": "flex-flow is a direction and a wrapping", "statement": "flex-flow is accepted exactly when it is a direction, a wrapping or both in either order, and sets these, row and nowrap where left out.", "quantifier": "all values, in letters of any case", "why_tests_cant": "texts of any length must be refused", "anchors": ["src/vaev-engine/props/flex.cpp: FlexFlowProperty"]}
{"id": "C167", "title": "border-radius gives each corner its radii", "statement": "One to four values, before and behind a slash, are the horizontal and vertical radii of the corners as CSS has them; anything else is refused.", "quantifier": "all lists of values", "why_tests_cant": "any numbers of values on both sides", "anchors": ["src/vaev-engine/props/border.cpp: BorderRadiusProperty", "src/vaev-engine/values/borders.cpp"]}
{"id": "C168", "title": "list-style is an image, a type and a position in any order", "statement": "list-style sets the image, the type and the position of the marker that are written, in any order, and resets those that are not; none stands for what is missing.", "quantifier": "all orders of all images, names, texts and positions", "why_tests_cant": "any name may be a counter style", "anchors": ["src/vaev-engine/props/list.cpp: ListStyleProperty", "src/vaev-engine/values/list.cpp"]}
{"id": "C169", "title": "outline is a width, a style and a colour in any order", "statement": "outline sets the width, the style and the colour that are written, in any order, and resets those that are not.", "quantifier": "all orders of all widths, styles and colours", "why_tests_cant": "lengths and colours may be anything", "anchors": ["src/vaev-engine/props/outline.cpp: OutlineProperty"]}
{"id": "C170", "title": "font sets everything about a font", "statement": "font sets the style, weight, width, size, line height and families that are written, and resets those that are not.", "quantifier": "all values", "why_tests_cant": "parts in any order, lengths and names of any kind", "anchors": ["src/vaev-engine/props/fonts.cpp: FontProperty", "src/vaev-engine/values/font.cpp", "src/vaev-engine/values/line-height.cpp"]}
{"id": "C171", "title": "The sources of a font face are tried in the order they are written", "statement": "src of @font-face is the list of the urls and the fonts of the system that are written, with their formats, in order.", "quantifier": "all lists of sources of any length", "why_tests_cant": "the list has any length", "anchors": ["src/vaev-engine/style/fonts.cpp: SrcFontDescriptor"]}
{"id": "C172", "title": "overflow says what happens in each direction", "statement": "overflow is accepted exactly when it is one or two of the values CSS has, and sets the first for the horizontal and the last for the vertical direction.", "quantifier": "all values, in letters of any case", "why_tests_cant": "texts of any length must be refused", "anchors": ["src/vaev-engine/props/overflow.cpp: OverflowProperty"]}
{"id": "C173", "title": "A position is where it says", "statement": "A position of one to four words and offsets is accepted exactly when CSS allows it, and is the place it says: each axis counts from the side named.", "quantifier": "all offsets, words and orders, any white space", "why_tests_cant": "offsets may be anything, with the axes in either order", "anchors": ["src/vaev-engine/values/background.cpp: BackgroundPosition"]}
{"id": "C174", "title": "A circle has the radius and the centre that are written", "statement": "circle() has the radius and the centre written, the nearest side and the middle of the box where they are not, and is refused if they cannot be read.", "quantifier": "all radii and positions, any white space", "why_tests_cant": "radii and positions may be anything", "anchors": ["src/vaev-engine/values/basic-shape.cpp: Circle"]}
{"id": "C175", "title": "A transform moves every point as written", "statement": "With transform: f1 f2 … fn and transform-origin: o, each point of a box is painted where fn, then …, then f2, then f1 move it as seen from o; with none it stays.", "quantifier": "all lists of functions of any length, all arguments, boxes, origins and points", "why_tests_cant": "lists of any length of functions with any arguments, on every point", "anchors": ["src/vaev-engine/layout/paint.cpp: _resolveTransform, _applyTransform, _resolveTransformOrigin", "src/vaev-engine/values/transform.cpp: Transform"]}
{"id": "C176", "title": "A transform is refused unless it is one", "statement": "transform is accepted only if it is none or a list of the functions of CSS with the number and the kind of arguments they have; otherwise the declaration has no effect.", "quantifier": "all texts", "why_tests_cant": "wrong texts are endless", "anchors": ["src/vaev-engine/values/transform.cpp: ValueParser<Transform>, ValueParser<MatrixTransform>"]}
{"id": "C177", "title": "transform-origin is the fixed point", "statement": "transform-origin with one or two values, keywords in either order, is the point of the box that rotating and scaling leave in place.", "quantifier": "all values, boxes and transforms", "why_tests_cant": "any lengths, percentages and transforms", "anchors": ["src/vaev-engine/values/transform.cpp: TransformOrigin", "src/vaev-engine/layout/paint.cpp: _resolveTransformOrigin"]}
{"id": "C178", "title": "The transform attribute of SVG is understood", "statement": "The transform attribute of an SVG element, with lengths and angles as plain numbers, rotations about a point and commas or spaces between functions, moves every point as SVG says.", "quantifier": "all lists of functions of any length and all points", "why_tests_cant": "rotations with and without a centre may be mixed in any order", "anchors": ["src/vaev-engine/props/transform.cpp: _expandSvgRotate, _fixTransformNumberToDimensions, parsePresentationAttribute"]}
{"id": "C179", "title": "A view box is fitted into its frame", "statement": "The contents of a drawing with a viewBox are shown undistorted, in the middle of its frame, as large as fits; without a viewBox one unit is one pixel from the corner of the frame. This holds for the outermost drawing and for those nested in it.", "quantifier": "all drawings of any depth, all view boxes, frames, places and points", "why_tests_cant": "view box and frame have any proportions, and drawings nest", "anchors": ["src/vaev-engine/layout/svg.cpp: _computeEquivalentTransformOfSVGViewport, _commitRoot, SvgFormatingContext::run"]}
{"id": "C180", "title": "A drawing looks the same wherever it is on the page", "statement": "Moving a drawing to another place of the page moves every shape in it by as much, with whatever transforms the shapes and groups have.", "quantifier": "all drawings of any depth, all transforms, all places", "why_tests_cant": "the place on the page depends on all that comes before", "anchors": ["src/vaev-engine/layout/svg.cpp: _commitRoot", "src/vaev-engine/layout/paint.cpp: _paintSVGRoot, _paintSVGElement, _paintSVGAggregate, _resolveTransformReferenceSVG"]}
{"id": "C181", "title": "The size of a drawing keeps its proportions", "statement": "A drawing has the width and height that are known; if one of them is missing it follows from the proportions of the view box, or of its width and height in absolute units, so that the view box fills the frame.", "quantifier": "all drawings, known sizes and spaces", "why_tests_cant": "four cases of known sizes times the kinds of sizes, with any numbers", "anchors": ["src/vaev-engine/layout/svg.cpp: intrinsicAspectRatio, _defaultSizing"]}
{"id": "C182", "title": "The geometry attributes of SVG are understood", "statement": "Numbers in x, y, cx, cy, r, stroke-width, width and height are user units, percentages parts of the view, lengths with units so many pixels; viewBox is four numbers with spaces or commas between them.", "quantifier": "all numbers, units and white space", "why_tests_cant": "numbers, units, cases and white space combine without limit", "anchors": ["src/vaev-engine/props/svg.cpp: parsePresentationAttribute, SvgViewBoxProperty", "src/vaev-engine/props/sizing.cpp: WidthProperty::parsePresentationAttribute", "src/vaev-engine/layout/svg.cpp: fromSize, resolve, _resolveRectangle, _resolveCircle"]}
{"id": "C183", "title": "The box of a group is the smallest around its shapes", "statement": "What the percentages of a transform of a group or shape refer to with transform-box fill-box or stroke-box is the smallest rectangle around all shapes in it, without or with their strokes.", "quantifier": "all trees of groups and shapes", "why_tests_cant": "groups nest to any depth and hold any number of shapes", "anchors": ["src/vaev-engine/layout/base/fragment.cpp: objectBoundingBox, strokeBoundingBox", "src/vaev-engine/layout/paint.cpp: _resolveTransformReferenceSVG"]}
{"id": "C184", "title": "Laying out a drawing does not break down", "statement": "Every drawing that can be written is laid out: the program does not stop and no number becomes infinite.", "quantifier": "all drawings of any depth with any sizes and view boxes", "why_tests_cant": "one bad value in any element at any depth suffices", "anchors": ["src/vaev-engine/layout/svg.cpp: extractValueFromCalc, fromSize, _commitElement, _commitChildren"]}
{"id": "C185", "title": "Every WebDriver request gets exactly one answer in the form of the protocol", "statement": "However requests and page loads interleave, each request is answered exactly once, at once or when its page has loaded or failed to; the answer is a value or an error with the members error, message and stacktrace, the error named and numbered as in the protocol, and the process goes on.", "quantifier": "every history of requests with any bodies, and every order of page loads", "why_tests_cant": "the schedules of loads and requests are unbounded, and one handler that forgets to answer hangs a client", "anchors": ["src/vaev-webdriver/service.cpp: createService, ErrorHandler", "src/vaev-webdriver/protocol.cpp: _sendSuccessAsync, _sendErrorAsync"]}
{"id": "C186", "title": "A WebDriver request touches only the session it names", "statement": "A request changes nothing of the sessions its path does not name; a request answered with an error changes nothing; a GET changes nothing; a request for a session that does not exist is answered with an error.", "quantifier": "every state reached by any history, every request", "why_tests_cant": "isolation has to hold for each endpoint in each state", "anchors": ["src/vaev-webdriver/service.cpp: createService", "src/vaev-webdriver/driver.cpp: WebDriver::getSession, executeScript"]}
{"id": "C187", "title": "Timeouts that are set are the timeouts that are read", "statement": "Set Timeouts changes the timeouts given and no others, Get Timeouts answers with the ones in force, and values that are not whole numbers of milliseconds, zero or more, are refused.", "quantifier": "every session in any state, every body", "why_tests_cant": "the set of bodies is infinite and what is kept depends on what was set before", "anchors": ["src/vaev-webdriver/service.cpp: POST and GET /session/{sessionId}/timeouts", "src/vaev-webdriver/protocol.cpp: TimeoutConfiguration"]}
{"id": "C188", "title": "A window has the rectangle it was given", "statement": "Set Window Rect changes the members given and no others, answers with the rectangle, and Get Window Rect answers with the same rectangle until it is set again; values that are no sizes are refused.", "quantifier": "every session reached by any history, every body", "why_tests_cant": "the answer depends on the sizes set before and the set of bodies is infinite", "anchors": ["src/vaev-webdriver/service.cpp: POST and GET /session/{sessionId}/window/rect", "src/vaev-webdriver/driver.cpp: getWindowRect, setWindowRect", "src/vaev-engine/style/media.cpp: Media::changeViewport"]}
{"id": "C189", "title": "A page is printed as asked for", "statement": "Print Page uses the paper, orientation, margins, scale, background, shrinking and ranges of pages of the request, in centimetres, with the defaults of the protocol for those not given, and refuses values out of range.", "quantifier": "every request body, every session", "why_tests_cant": "the members are independent of each other and each may be absent", "anchors": ["src/vaev-webdriver/service.cpp: POST /session/{sessionId}/print", "src/vaev-webdriver/protocol.cpp: PrintSettings::derivePrintSettings", "src/vaev-webdriver/driver.cpp: printPage"]}
{"id": "C190", "title": "What a WebDriver answer says is so", "statement": "After Navigate has been answered the url is the one asked for, or what it was if there was an error; a window switched to, opened or left after closing is the current one and is listed; a session answered by New Session can be used, one deleted cannot.", "quantifier": "every state reached by any history", "why_tests_cant": "these are statements about the request after the next one, in any state", "anchors": ["src/vaev-webdriver/service.cpp: createService", "src/vaev-webdriver/driver.cpp: navigateToAsync, switchToWindow, newWindowAsync, closeWindow, newSessionAsync, deleteSession"]}
{"id": "C191", "title": "A keyword property takes the keywords CSS has for it", "statement": "A declaration of a property whose values are keywords (breaks, float, clear, table and text properties, overflow, flex, baselines, position and others) is accepted exactly when it is one of the keywords of CSS for it, in any case of letters, and sets that keyword.", "quantifier": "all values of 26 properties", "why_tests_cant": "values that must be refused are endless, and a word spelt wrong in the program is the word a test spells wrong", "anchors": ["src/vaev-engine/values/breaks.cpp", "src/vaev-engine/values/float.cpp", "src/vaev-engine/values/table.cpp", "src/vaev-engine/values/overflow.cpp", "src/vaev-engine/values/flex.cpp", "src/vaev-engine/values/baseline.cpp", "src/vaev-engine/props/text.cpp", "src/vaev-engine/props/visibility.cpp", "src/vaev-engine/props/sizing.cpp", "src/vaev-engine/values/insets.cpp: Position", "src/vaev-engine/props/background.cpp"]}
{"id": "C192", "title": "Reading a declaration ends", "statement": "Whatever the value of a declaration is, reading it ends; toggle() with options the property takes is read as these options, with any white space around the commas.", "quantifier": "all values of any length", "why_tests_cant": "a value that makes a loop turn for ever may be of any length", "anchors": ["src/vaev-engine/props/base.cpp: RegisteredPropertySet::parseValue, _parseToggle", "src/vaev-engine/values/base.cpp: skipOmmitableComma"]}
{"id": "C193", "title": "counter-reset, counter-set and counter-increment name counters and integers", "statement": "A value that is a list of names, each with an integer or none, is read as that list, with the default of the property where there is none; none is the empty list; anything else is refused.", "quantifier": "lists of any length, all names and integers", "why_tests_cant": "lists of any length with integers left out anywhere", "anchors": ["src/vaev-engine/values/counter.cpp: CounterProps", "src/vaev-engine/props/counter.cpp", "src/vaev-engine/values/primitives.cpp: ValueParser<Vec<T>>"]}
{"id": "C194", "title": "content is what is written", "statement": "content is a list of strings, quotes, counters and running elements, read as they are written, or normal or none; anything else is refused.", "quantifier": "all values", "why_tests_cant": "lists of any length, functions with any contents", "anchors": ["src/vaev-engine/values/content.cpp: ValueParser<Content>, ValueParser<ElementFunc>", "src/vaev-engine/values/counter.cpp: CounterFunc, CountersFunc"]}
{"id": "C195", "title": "Alignment properties take positions and distributions", "statement": "align-content, align-items, align-self, justify-content, justify-items and justify-self are accepted exactly when they are a position, distribution or baseline of CSS, with safe or unsafe before it if wanted, and set these.", "quantifier": "all values", "why_tests_cant": "values that must be refused are endless", "anchors": ["src/vaev-engine/values/align.cpp: ValueParser<Align>", "src/vaev-engine/props/align.cpp"]}
{"id": "C196", "title": "border-spacing, gaps, opacity and z-index take the amounts that are written", "statement": "border-spacing is one length for both ways or two that are not negative; a gap is normal, a length or a percentage; opacity is a number or percentage brought between 0 and 1; z-index is auto or an integer. Anything else is refused.", "quantifier": "all values", "why_tests_cant": "numbers and units are endless", "anchors": ["src/vaev-engine/values/table.cpp: ValueParser<BorderSpacing>", "src/vaev-engine/values/insets.cpp: Gap", "src/vaev-engine/props/visibility.cpp: OpacityProperty", "src/vaev-engine/values/z-index.cpp", "src/vaev-engine/props/positioned.cpp: ZIndexProperty"]}
{"id": "C197", "title": "vertical-align is its parts in any order", "statement": "vertical-align is made of a baseline source, an alignment baseline and a shift in any order, at most one of each, and sets all three, those left out to their initial values.", "quantifier": "all orders of all parts, all lengths", "why_tests_cant": "lengths may be anything and in any order", "anchors": ["src/vaev-engine/props/baseline.cpp: VerticalAlignProperty"]}
{"id": "C198", "title": "Properties are known by their names, and the words for all properties work for all", "statement": "A property is known by its name in any case of letters and by its older names; initial, inherit, unset and revert alone are read for every property.", "quantifier": "all names, all properties", "why_tests_cant": "a name may be written in many ways, and everything else must be unknown", "anchors": ["src/vaev-engine/props/base.cpp: resolveRegistration, _parseDefaulted", "src/vaev-engine/props/registry.cpp: defaultRegistry"]}
{"id": "C199", "title": "A page has the size that was asked for", "statement": "Every page has the width and height given on the command line; where they are not given, those of the paper, turned in landscape. Pages are numbered from one.", "quantifier": "all papers, sizes, orientations and numbers of pages", "why_tests_cant": "any sizes with any paper and any number of pages", "anchors": ["src/mod.cpp: Option::derivePrintSettings", "src/vaev-engine/driver/print.cpp: print, collectBreakPointsAndRunningPositions"]}
{"id": "C200", "title": "The scale enlarges the document, not the paper", "statement": "A scale in dpi, dpcm, dppx or x, in any case, is read as that number of dots per pixel; pages laid out at the paper's size divided by the scale and painted at the scale cover the paper exactly; without pages the picture is scaled.", "quantifier": "all numbers, units and papers", "why_tests_cant": "scales and papers are arbitrary numbers", "anchors": ["src/vaev-engine/values/resolution.cpp: Resolution, ValueParser<Resolution>", "src/vaev-engine/style/media.cpp: Media::scaledViewport, forPrint, forRender", "src/vaev-engine/driver/print.cpp: print"]}
{"id": "C201", "title": "Page margins are those asked for", "statement": "By default the margins of each page are those of its style, percentages of its height at top and bottom and of its width at the sides; margins given on the command line are taken instead, on every page.", "quantifier": "all pages, margins, papers and scales", "why_tests_cant": "margins differ from page to page and may be any lengths", "anchors": ["src/vaev-engine/driver/print.cpp: _resolvePageMargin, collectBreakPointsAndRunningPositions", "src/mod.cpp: Option::derivePrintSettings"]}
{"id": "C202", "title": "Margin boxes fill the margins, each in its place", "statement": "On each page every margin box is painted once, in the part of the page it is named for: the corners, above, below and beside the content, up to the edges, under header, footer and content, and without overlapping them.", "quantifier": "all pages with any margins, headers and footers, all points of a page", "why_tests_cant": "a point may be anywhere, and the margins may be of any size", "anchors": ["src/vaev-engine/driver/print.cpp: _paintMargins, _paintCornerMargin, _paintMainMargin, print", "src/vaev-engine/style/page.cpp: PageArea"]}
{"id": "C203", "title": "Headers and footers repeat on every page within the margins", "statement": "On each page the header is at the top of the area within the margins and the footer at its bottom, as high as asked for or as they are when laid out in that area, and the content has exactly what is left between them.", "quantifier": "any number of pages with margins of their own, any header and footer", "why_tests_cant": "heights are remembered from page to page, so a wrong one shows only after certain pages", "anchors": ["src/mod.cpp: HeaderFooterDecorator::layout, decorate", "src/vaev-engine/driver/print.cpp: print"]}
{"id": "C204", "title": "A picture shows the view or all of the document", "statement": "Without pages the document is laid out in the view asked for, 800 by 600 otherwise; the picture is that view, or covers all content if it is to fit or is continuous; its background is the one asked for, white for HTML and none otherwise.", "quantifier": "all documents, sizes and options", "why_tests_cant": "the content may overflow by any amount in any direction", "anchors": ["src/mod.cpp: Option::deriveMedia, runSingleAsync"]}
{"id": "C205", "title": "The command does what its options say", "statement": "Inputs are converted in their order, - is standard input or output, the format is the one asked for, that of the suffix of the output or PDF, PDF is paginated unless asked otherwise, and conflicting options are refused.", "quantifier": "all command lines", "why_tests_cant": "options combine freely", "anchors": ["src/main.cpp: entryPointAsync", "src/mod.cpp: runBatchAsync"]}
{"id": "C206", "title": "In the sandbox neither files nor the network are touched", "statement": "With --sandboxed nothing but pipes, open streams, the program's own files and data in urls is read or written, whatever the documents and the outside say; a conversion from or to a file fails and writes nothing.", "quantifier": "all inputs, outputs, headers and footers, every behaviour of the outside", "why_tests_cant": "no test can try every document and every answer", "anchors": ["src/mod.cpp: _createHttpTransport, defaultHttpClient, runSingleAsync, runBatchAsync", "src/main.cpp: entryPointAsync"]}
{"id": "C207", "title": "The browser's history is a trail of pages", "statement": "In every session the history is the trail of the pages visited: visiting a page forgets the pages ahead, back and forward move along the trail and undo each other, the address field says where one is until something is typed, and the buttons are live exactly when there is somewhere to go.", "quantifier": "all sequences of presses and arrivals, addresses and results of loads", "why_tests_cant": "sessions are of any length, and presses and arrivals interleave freely", "anchors": ["src/vaev-browser/model.cpp: reduce, State, canGoBack, canGoForward", "src/vaev-browser/app.cpp: app, contextMenu, alert"]}
{"id": "C208", "title": "Nothing that can be pressed crashes the browser", "statement": "Whatever buttons or keys are pressed, in whatever order and however pages arrive, the browser goes on running.", "quantifier": "all sequences of presses and arrivals", "why_tests_cant": "the crash depends on the history of the session", "anchors": ["src/vaev-browser/model.cpp: reduce, State::currentUrl", "src/vaev-browser/app.cpp: app (keyboardShortcut)"]}
{"id": "C209", "title": "The page on the screen is the page one is at", "statement": "Once no page is being loaded, what is on the screen is the page of the current entry of the history or the notice that it could not be loaded.", "quantifier": "all sequences of presses and arrivals, all results of loads", "why_tests_cant": "it depends on what was pressed while a page was on its way", "anchors": ["src/vaev-browser/model.cpp: reduce, navigateAsync", "src/vaev-browser/app.cpp: webview", "src/vaev-engine/dom/window.cpp: Window::loadLocationAsync"]}
{"id": "C210", "title": "One page is loaded at a time, and a slow page can be left", "statement": "There is at most one load under way, the browser says it is loading exactly while there is one, and going elsewhere starts loading the other page.", "quantifier": "all sequences of presses and arrivals", "why_tests_cant": "a schedule in which pages overlap cannot be forced by a test", "anchors": ["src/vaev-browser/model.cpp: reduce, navigateAsync"]}
{"id": "C211", "title": "The inspector shows what is open", "statement": "The inspector lists, in document order and moved in by depth, exactly the nodes that lie in open elements only and are not white space; an element is open according to what was clicked on it and nothing else; with another document the choice is gone.", "quantifier": "all documents, all sequences of clicks", "why_tests_cant": "trees of any depth with any set of open nodes", "anchors": ["src/vaev-browser/inspect.cpp: InspectState::apply, node, item, itemHeader"]}
{"id": "C212", "title": "hsl() is the colour with that hue, saturation, lightness and opacity", "statement": "hsl() and hsla() with a hue as a number or an angle in any unit, saturation and lightness, and an opacity, in the modern or the older syntax and spaced in any way, mean the colour written; anything else is refused.", "quantifier": "all numbers, units, spacings and both syntaxes", "why_tests_cant": "numbers may be any", "anchors": ["src/vaev-engine/values/color.cpp: _parseHSLModernFuncColor, _parseHSLLegacyFuncColor, _parseFuncColor", "src/vaev-engine/values/angle.cpp: Angle::toDegree, ValueParser<Angle>"]}
{"id": "C213", "title": "color-mix() mixes the two colours in the proportion and space written", "statement": "A mixture of two colours, each of which may be a mixture again, with the percentages before or behind the colours or left out, is mixed in the space named and in that proportion, with currentcolor being the colour of the text.", "quantifier": "mixtures of any depth, all percentages and spaces", "why_tests_cant": "mixtures nest to any depth", "anchors": ["src/vaev-engine/values/color.cpp: _parseColorMixSide, _parseColorMixFunc, ValueParser<Color>, ColorSpace::fromStr, resolve"]}
{"id": "C214", "title": "clip-path is read as it is written", "statement": "A value of clip-path is a shape, a box or both in either order; circle(), ellipse(), inset(), rect(), xywh(), polygon() and path() have the radii, centre, sides, points, rule and round corners that are written, with any white space between them, and what is not written has its default.", "quantifier": "every text of clip-path: shapes with any values, white space, number of points and order of box and shape", "why_tests_cant": "the texts are an unbounded language; tests try one xywh()", "anchors": ["src/vaev-engine/values/basic-shape.cpp: ValueParser<Ellipse>, ValueParser<Inset>, ValueParser<Path>, ValueParser<Polygon>, ValueParser<Rect>, ValueParser<Xywh>, ValueParser<BasicShape>", "src/vaev-engine/props/visibility.cpp: ClipPathProperty"]}
{"id": "C215", "title": "A clip is the shape placed in its reference box", "statement": "What is painted of an element is clipped to the shape at the place its values say in the reference box: insets are counted from its edges, points and rectangles from its top left corner, a centre from the side that is named; percentages are of the width or the height of that box; a radius to the nearest or farthest side is that distance.", "quantifier": "every shape, reference box, box metrics and lengths", "why_tests_cant": "the values are rationals without bound; a test sees one box", "anchors": ["src/vaev-engine/layout/paint.cpp: _applyClip, _resolveBackgroundPosition, _resolveRadii", "src/vaev-engine/layout/base/fragment.cpp: BoxMetrics"]}
{"id": "C216", "title": "The style rules in force are those written for the medium", "statement": "The style rules that a style sheet brings to a document are those written outside @media and those in blocks of @media, nested to any depth, all of whose queries hold, in the order they are written, each with the selector and the declarations written in it; at-rules that are not known and rules without a selector bring nothing; @supports and @import bring what their condition or sheet says.", "quantifier": "every style sheet: any number of rules of every kind, nested to any depth, and every medium", "why_tests_cant": "style sheets are an unbounded language of nested blocks; tests try single rules", "anchors": ["src/vaev-engine/style/rules.cpp: Rule::parse, StyleRule::parse, MediaRule::parse", "src/vaev-engine/style/stylesheet.cpp: StyleSheet::parse", "src/vaev-engine/style/computer.cpp: _addRuleToLookup"]}
{"id": "C217", "title": "Selectors are read with the namespaces declared before them", "statement": "A selector is read with the default namespace and the prefixes declared by the @namespace rules at the start of its style sheet, the newest declaration of each holding; a @namespace rule behind other rules or in a block declares nothing.", "quantifier": "every list of @namespace rules, every selector behind them", "why_tests_cant": "it depends on the whole list of rules before the selector", "anchors": ["src/vaev-engine/style/rules.cpp: NamespaceRule::parse, Rule::parse", "src/vaev-engine/style/stylesheet.cpp: StyleSheet::parse"]}
{"id": "C218", "title": "A page is given the declarations of its page rules", "statement": "The declarations given to a page and to each of its margin boxes are those of the @page rules that are for this page, outside @media or in blocks whose queries hold, in the order they are written.", "quantifier": "every style sheet, every page and every medium", "why_tests_cant": "page rules, boxes and media nest without bound", "anchors": ["src/vaev-engine/style/rules.cpp: PageRule::parse", "src/vaev-engine/style/page.cpp: PageAreaRule::parse", "src/vaev-engine/style/computer.cpp: _evalRule"]}
{"id": "C219", "title": "Counter styles and font faces are those in force", "statement": "The counter styles and the font faces a document can use are those written in @counter-style and @font-face rules outside @media or in blocks whose queries hold, in order.", "quantifier": "every style sheet and every medium", "why_tests_cant": "the rules are found by a walk over an unbounded tree", "anchors": ["src/vaev-engine/style/computer.cpp: _resolveCounterStyle", "src/vaev-engine/loader/loader-impl.cpp: _evalFontfaceRules"]}
{"id": "C220", "title": "Every style sheet is read", "statement": "Reading a style sheet ends and does not stop the program, whatever it contains: what is not understood is left out.", "quantifier": "every list of rules with any tokens in them", "why_tests_cant": "the inputs are arbitrary; a crash needs only one", "anchors": ["src/vaev-engine/style/rules.cpp: Rule::parse, CounterRule::parse, NamespaceRule::parse, PageRule::parse", "src/vaev-engine/style/stylesheet.cpp: StyleSheet::parse"]}
{"id": "C221", "title": "A font face has what its descriptors say", "statement": "A face declared by @font-face has the family name, sources, style, weights, widths, metric overrides, size adjustment, characters and display that the last understood descriptor of each kind says, and the usual values where none says anything; descriptors that are not known or whose value is not one say nothing.", "quantifier": "every list of descriptors with any names, any case and any tokens as values", "why_tests_cant": "the descriptors of a face are an unbounded list of which the last of a kind counts; tests read none", "anchors": ["src/vaev-engine/style/fonts.cpp: FontDescriptor, FontFace::attributes, FontFace::adjustments", "src/vaev-engine/style/decls.cpp: parseDeclarations", "src/vaev-engine/loader/loader-impl.cpp: _evalFontfaceRules"]}
{"id": "C222", "title": "The title of a document is that of its first title element", "statement": "The title of a document is the text directly in its first title element in document order (in a drawing, that of the drawing), with white space stripped and collapsed, and empty if there is none.", "quantifier": "every document built by any history of tree edits", "why_tests_cant": "the first of unboundedly many elements in document order, with any number of text nodes; tests look at a few trees", "anchors": ["src/vaev-engine/dom/document.cpp: Document::title", "src/vaev-webdriver/driver.cpp: getTitle"]}
{"id": "C223", "title": "The text of a node is all text in it, in document order", "statement": "The text content of an element (a style sheet, say) is that of all text nodes in it in document order and nothing else.", "quantifier": "every tree built by any history of tree edits, of any depth", "why_tests_cant": "depth and number of nodes are unbounded", "anchors": ["src/vaev-engine/dom/node.cpp: Node::textContent", "src/vaev-engine/dom/element.cpp: Element::getTextContent", "src/vaev-engine/dom/character-data.cpp: getTextContent"]}
{"id": "C224", "title": "The root and the body are the first ones", "statement": "documentElement is the first element of a document, and body the first body or frameset in an html root; both are null if there is none.", "quantifier": "every document built by any history of tree edits", "why_tests_cant": "any number of other children may stand before them", "anchors": ["src/vaev-engine/dom/document.cpp: Document::documentElement, Document::body"]}
{"id": "C225", "title": "Every node knows its document, and what relative addresses are relative to", "statement": "A node in a document has that document as its owner, and a node in none has none. The base address of a node is that of the first base element with an address, and otherwise that of its document.", "quantifier": "every tree built by any history of tree edits, every node", "why_tests_cant": "depth is unbounded, and moving subtrees changes the answers", "anchors": ["src/vaev-engine/dom/node-impl.cpp: Node::ownerDocument, Node::baseURI"]}
{"id": "C226", "title": "The background of the body covers the page", "statement": "If the root has no background, it gets that of the body, which then has none; otherwise all backgrounds stay.", "quantifier": "every document built by any history of tree edits, and any backgrounds", "why_tests_cant": "depends on which elements come first among any number, and must leave all others alone", "anchors": ["src/vaev-engine/style/computer.cpp: _propagateBodyBackgroundToHtml"]}
{"id": "C227", "title": "Every element is styled from its parent and has its pseudo-elements", "statement": "After styling a document, every element in it has the values computed from those of its parent, and exactly the pseudo-elements whose content is something, whatever was styled before.", "quantifier": "every document built by any history of tree edits, any rules, and any number of stylings", "why_tests_cant": "all elements of any tree, and stylings for different media one after the other", "anchors": ["src/vaev-engine/style/computer.cpp: styleDocument, styleElement, generatePseudoElement", "src/vaev-engine/dom/element.cpp: addPseudoElement, clearPseudoElement"]}
{"id": "C228", "title": "Absolutely positioned boxes are laid out once, in their containing block", "statement": "Every absolutely positioned box is laid out exactly once against the nearest ancestor that is positioned or transformed, every fixed one against the nearest transformed ancestor, and those without such an ancestor against the initial containing block; layout ends.", "quantifier": "all trees of boxes, with any mix of positions, transforms and formatting contexts, nested to any depth", "why_tests_cant": "boxes wait in lists that travel up the tree, and laying one out can add others to the list being walked", "anchors": ["src/vaev-engine/layout/base/layout-impl.cpp: layoutContentBox, layoutRoot", "src/vaev-engine/layout/positioned.cpp: isAbsolutePositioningContainingBlock, isFixedPositioningContainingBlock", "src/vaev-engine/layout/flex.cpp: returnIfNoFlexItems", "src/vaev-engine/layout/table.cpp: layoutCell"]}
{"id": "C229", "title": "Nothing is lost between layout and painting", "statement": "Painting comes to every box of the document exactly once, in the flow or out of it.", "quantifier": "all trees of boxes", "why_tests_cant": "a box out of the flow is in two lists, and painting has to take it from exactly one of them", "anchors": ["src/vaev-engine/layout/base/layout-impl.cpp: layoutContentBox", "src/vaev-engine/layout/base/fragment.cpp: PlaceholderFragment", "src/vaev-engine/layout/paint.cpp: _paintChildren", "src/vaev-engine/layout/flex.cpp: _commit, _appendOutOfFlowChildren"]}
{"id": "C230", "title": "The overflow of a document is what it covers", "statement": "The scrollable overflow, which is the size of a picture that fits, is the smallest rectangle around the border boxes of all boxes of the document.", "quantifier": "all trees of boxes and all places of boxes", "why_tests_cant": "boxes out of the flow are in other subtrees than they are written in, at any depth", "anchors": ["src/vaev-engine/layout/base/fragment.cpp: scrollableOverflow", "src/mod.cpp: runSingleAsync"]}
{"id": "C231", "title": "The containing block is a padding box", "statement": "The containing block of an absolutely positioned box is the padding box of the box that it is laid out in; the initial one of a page is the area of the page.", "quantifier": "all positions, sizes, borders and paddings", "why_tests_cant": "two computations, from the content box inward and outward, have to agree", "anchors": ["src/vaev-engine/layout/base/layout-impl.cpp: layoutContentBox, computeBoxMetrics, layoutRoot", "src/vaev-engine/driver/print.cpp: print"]}
{"id": "C232", "title": "Every element is set in the first of its families that can be had", "statement": "Every element and pseudo-element is set in the face of the first family, in the order written, that can be had in its weight, width and style; each of these is what it declares or else what its parent has. Where no family can be had it is the face of the system in that weight, and failing that the built-in one.", "quantifier": "all documents, all declarations on any elements, all sets of fonts", "why_tests_cant": "the face is looked up only where an element differs from its parent and is else handed down; that this is never stale is an invariant of the tree", "anchors": ["src/vaev-engine/style/computer.cpp: _lookupFontface, _updateFontface, computeValues, styleElement, styleDocument"]}
{"id": "C233", "title": "Font sizes are what is written", "statement": "A font size in units of fonts refers to the font of the parent, in units of the root to that of the root element (for the root element itself to the initial one), a percentage to the size of the parent; the keywords have the factors that CSS gives; without a declaration it is that of the parent.", "quantifier": "all documents, all nesting of font sizes in all units, any rounding that keeps the order", "why_tests_cant": "the context is filled in stages while an element is computed, and errors multiply down the tree", "anchors": ["src/vaev-engine/style/computer.cpp: computeValues, styleDocument", "src/vaev-engine/props/base.cpp: ComputationContext", "src/vaev-engine/props/fonts.cpp: FontSizeProperty", "src/vaev-engine/values/font.cpp: resolve(FontSize)"]}
{"id": "C234", "title": "Lengths refer to the fonts that CSS says", "statement": "A length used in layout refers to the font of the element that declares it, units of the root to the font of the root element; lh is the line height; a length that is inherited is the length that it is for the parent.", "quantifier": "all documents, all lengths in all units", "why_tests_cant": "two contexts, one for computing and one for layout, have to agree for every unit", "anchors": ["src/vaev-engine/layout/base/values.cpp: Resolver::from, resolve", "src/vaev-engine/layout/builder/mod.cpp: _spanStyleFromStyle", "src/vaev-engine/props/border.cpp: BorderSpacingProperty"]}
{"id": "C235", "title": "Texts are set as their elements say", "statement": "A text has the face, size and colour of its element; its lines are broken only where white-space lets them, stand where text-align and direction say, and are as far apart as line-height says; its margins are those of its element.", "quantifier": "all values of the properties", "why_tests_cant": "a combination of properties goes into one style of the text library; that none is dropped is seen only for all of them", "anchors": ["src/vaev-engine/layout/builder/mod.cpp: _proseStyleFromStyle, _spanStyleFromStyle, _allowsWrap"]}
{"id": "C236", "title": "Attributes that style an element give way to the author", "statement": "Where a style sheet of the author or the style attribute says something about a property, attributes such as width, bgcolor or align make no difference; else they count, over the style sheets of user and user agent; the style attribute counts over both, unless something is important.", "quantifier": "all elements, all declarations of all origins, all attributes", "why_tests_cant": "declarations are put in several passes, and who wins depends on what all the others say", "anchors": ["src/vaev-engine/style/computer.cpp: computeValues, _considerHtmlPresentationalHint, _considerElementAttributes, _considerSvgPresentationAttributes"]}
{"id": "C237", "title": "Attributes of HTML mean what HTML says", "statement": "width and height are so many pixels or percent, size is a number of characters where the element has characters, colours are colours where the element has a background; on other elements attributes say nothing.", "quantifier": "all elements, all numbers", "why_tests_cant": "the attribute goes through the parser of CSS values, whose rules differ from those of HTML for infinitely many texts", "anchors": ["src/vaev-engine/style/computer.cpp: _considerHtmlPresentationalHint", "src/vaev-engine/props/base.cpp: parseValue"]}
{"id": "C238", "title": "A drawing without a size has the default size", "statement": "A drawing in a page without a view box is 300 pixels wide if it has no attribute width and 150 pixels high if it has no attribute height, unless the author says otherwise; an attribute that can be read is its size; with a view box, inside another drawing or as a document of its own nothing is made up.", "quantifier": "all elements, all declarations, all attributes", "why_tests_cant": "default, attribute, style sheets and style attribute compete in one cascade", "anchors": ["src/vaev-engine/style/computer.cpp: _applySvgElementSizingRules, _considerSvgPresentationAttributes"]}
{"id": "C239", "title": "A flex item begins with its flex basis", "statement": "The base size of a flex item is its flex-basis: a length, a percentage of the container, the size of the item where it is auto, the largest size of its content where neither says anything or the container has no known size; padding and borders are added as box-sizing says, and content is never negative.", "quantifier": "all items, all values of flex-basis, width and box-sizing, all containers", "why_tests_cant": "sizes depend on four properties of two boxes, and on which of them are known", "anchors": ["src/vaev-engine/layout/flex.cpp: FlexItem::computeFlexBaseSize, _determineFlexBaseSizeAndHypotheticalMainSize"]}
{"id": "C240", "title": "A flex item has the limits that CSS gives it", "statement": "The smallest size of an item is what min-width says, where that is auto the size of its content or the size given for it, whichever is smaller, and no more than the largest size, for items that scroll nothing; the largest size is what max-width says; both are sizes as box-sizing says.", "quantifier": "all items, all values of the sizes, all containers of known size", "why_tests_cant": "the automatic minimum is made from three other properties and the content", "anchors": ["src/vaev-engine/layout/flex.cpp: FlexItem::getMinAutoPrefMainSize, getMinMaxPrefferedSize"]}
{"id": "C241", "title": "A row is as wide as its items want", "statement": "A row as wide as its content wants has room for all its items with their margins, at the sizes they begin with; a row that may wrap, as narrow as it can be, has room for each of them.", "quantifier": "all lists of items with all properties", "why_tests_cant": "it is a sum over any number of items each of which takes one of many cases", "anchors": ["src/vaev-engine/layout/flex.cpp: FlexItem::getMainSizeMinMaxContentContribution, _computeIntrinsicSizeWebCompat, _computeIntrinsicSizeMinMultiline, _determineMainSize"]}
{"id": "C242", "title": "A column is as high as its items or as it is told", "statement": "A column without a height is as high as its items with their margins, one with a height or one that is stretched has that; margins and paddings of items in percent are percentages of the container.", "quantifier": "all lists of items, all lengths and percentages", "why_tests_cant": "the same margin is computed three times with different containing blocks", "anchors": ["src/vaev-engine/layout/flex.cpp: columnFlowIntrinsicSize, _determineMainSize, _generateFlexItems, speculateValues, _determineHypotheticalCrossSize"]}
{"id": "C243", "title": "An inline block stands on its last line", "statement": "A block that is placed in a line stands on the baseline of its last line, or of the first or last as baseline-source says; it stands on its bottom margin if it has no lines or scrolls; images stand on their bottom.", "quantifier": "all boxes, nested to any depth, with any paddings and children", "why_tests_cant": "the baseline is handed up through any number of boxes, each of which moves it", "anchors": ["src/vaev-engine/layout/inline.cpp: InlineFormatingContext", "src/vaev-engine/layout/block.cpp: BlockFormatingContext::run", "src/vaev-engine/layout/base/layout-impl.cpp: layoutBorderBox", "src/vaev-engine/layout/replaced.cpp"]}
{"id": "C244", "title": "A box in a line takes the room it needs", "statement": "A box in a line takes its width with padding, borders and margins; one without a width is as wide as its content wants, but no wider than the line if its content can be made to fit.", "quantifier": "all boxes in lines, all spaces", "why_tests_cant": "the width is put together in four places that each may drop a part", "anchors": ["src/vaev-engine/layout/inline.cpp: InlineFormatingContext::run"]}
{"id": "C245", "title": "Cells that touch share one border", "statement": "In a table with collapsed borders, two cells that touch have the same border where they touch: the widest of theirs and of the rows, columns and groups that end or begin there, or a hidden one, which takes no room.", "quantifier": "all tables, with any spans, and all borders", "why_tests_cant": "a border belongs to a stretch along which the spans of both sides interlock, of any length", "anchors": ["src/vaev-engine/layout/table.cpp: resolveConflictForBordersAtHorizontalAxis", "src/vaev-engine/layout/table.cpp: resolveConflictForBordersAtVerticalAxis", "src/vaev-engine/layout/table.cpp: addAxisAndGroupBorder", "src/vaev-engine/layout/table.cpp: buildUsedCollapsedBordersForCell"]}
{"id": "C246", "title": "Collapsing borders ends inside of the table", "statement": "Finding the collapsed borders of a table comes to an end and touches no slot outside of the table.", "quantifier": "all tables, with any spans", "why_tests_cant": "depends on how the spans of neighbouring cells interlock up to the edge of the table", "anchors": ["src/vaev-engine/layout/table.cpp: resolveConflictForBordersAtHorizontalAxis", "src/vaev-engine/layout/table.cpp: resolveConflictForBordersAtVerticalAxis", "src/vaev-engine/layout/table.cpp: computeBordersStructsCollapse"]}
{"id": "C247", "title": "Every row of a table is printed once", "statement": "A table that needs several pages is printed on finitely many of them, every row on one page, in order, no page without rows, and the header and footer on every page if they are repeated.", "quantifier": "all tables and all heights of rows and pages", "why_tests_cant": "rows, pages and the numbers of breaks that link them are unbounded; every page depends on the break of the page before", "anchors": ["src/vaev-engine/layout/table.cpp: layoutRow", "src/vaev-engine/layout/table.cpp: run", "src/vaev-engine/layout/table.cpp: handleUnforcedBreakpoint", "src/vaev-engine/layout/breaks.cpp", "src/vaev-engine/driver/print.cpp: collectBreakPointsAndRunningPositions"]}
{"id": "C248", "title": "Page breaks asked for in tables are made", "statement": "Where a row or a group of rows asks for a page break before or after it, the rows on both sides are on different pages.", "quantifier": "all tables and all heights of rows and pages", "why_tests_cant": "the page a row falls on depends on all rows before", "anchors": ["src/vaev-engine/layout/table.cpp: run", "src/vaev-engine/layout/breaks.cpp"]}
{"id": "C249", "title": "Tables are broken only where needed and allowed", "statement": "A page of a table ends where a break is asked for or before a row that does not fit; rows that are to stay together stay together if they can.", "quantifier": "all tables and all heights of rows and pages", "why_tests_cant": "the page a row falls on depends on all rows before", "anchors": ["src/vaev-engine/layout/table.cpp: run", "src/vaev-engine/layout/table.cpp: handleUnforcedBreakpoint", "src/vaev-engine/layout/breaks.cpp: classB"]}
{"id": "C250", "title": "Separate borders stay with their cell", "statement": "In a table whose borders are separate, every cell has its own four borders and no others, whatever it spans.", "quantifier": "all tables, with any spans, and all borders", "why_tests_cant": "widths are kept per slot of the grid; a cell writes to as many slots as it spans", "anchors": ["src/vaev-engine/layout/table.cpp: computeBordersStructsSeparate", "src/vaev-engine/layout/table.cpp: buildBordersWidthsForCell"]}
{"id": "C251", "title": "The border around a collapsed table is closed", "statement": "In a table whose borders collapse, a cell at a side of the table has there the strongest of its own border and those of the table, of its row, its column and their groups; the border of the table goes all around.", "quantifier": "all tables, with any spans, and all borders", "why_tests_cant": "depends on the spans of all cells along the side", "anchors": ["src/vaev-engine/layout/table.cpp: resolveConflictForTableBordersAtHorizontalAxis", "src/vaev-engine/layout/table.cpp: resolveConflictForTableBordersAtVerticalAxis"]}
{"id": "C252", "title": "A printed selector reads back", "statement": "The text that a selector is printed as is, when parsed, a selector that matches the same elements of every document with the same specificity.", "quantifier": "all selectors and all tables of namespace prefixes", "why_tests_cant": "ranges over all selectors; that two selectors mean the same is a statement about all documents", "anchors": ["src/vaev-engine/style/selector.cpp: unparse", "src/vaev-engine/style/selector.cpp: Selector::unparsed", "src/vaev-engine/style/selector.cpp: QualifiedNameSelector::repr"]}
{"id": "C253", "title": "A response is loaded as what it is", "statement": "A response is loaded as HTML, XML, Markdown, text or picture according to its type: the one that the server declares, otherwise what the address and then the content suggest. A text is decoded by the encoding that the server declares. Loading fails only for a response without body, of an unsupported type, or one that cannot be parsed.", "quantifier": "all responses, addresses and hierarchies of types", "why_tests_cant": "the hierarchy of types is open, and every combination of header, suffix and content is possible", "anchors": ["src/vaev-engine/loader/loader.cpp: _determineComputedType", "src/vaev-engine/loader/loader.cpp: _loadDocumentAsync"]}
{"id": "C254", "title": "Texts are shown as they are", "statement": "A plain text, and the source of a document, is shown with all its characters, lines and spaces, in a document like any other; documents get the built-in style sheets of their kind.", "quantifier": "all texts and all types", "why_tests_cant": "quantifies over all texts and types", "anchors": ["src/vaev-engine/loader/loader.cpp: _loadTextDocument", "src/vaev-engine/loader/loader.cpp: viewSourceAsync", "src/vaev-engine/loader/loader.cpp: fetchDocumentAsync"]}
{"id": "C255", "title": "Objects become primitive values as scripts say", "statement": "An object that is converted to a primitive value is asked for toString and valueOf in the order of ECMAScript for the wanted type; the first primitive value decides, an exception ends the conversion, and the result is never an object.", "quantifier": "all objects, prototypes, functions and heaps", "why_tests_cant": "methods may do anything to the heap, including changing the methods asked next", "anchors": ["src/vaev-script/ops-impl.cpp: ordinaryToPrimitive", "src/vaev-script/ops-impl.cpp: isCallable"]}
{"id": "C256", "title": "Exceptions tell their kind", "statement": "An exception made by the engine can always be made, and its name is that of its kind.", "quantifier": "all heaps and kinds of exceptions", "why_tests_cant": "quantifies over all histories of the heap", "anchors": ["src/vaev-script/ops-impl.cpp: createException"]}
{"id": "C257", "title": "A flex container is as large across as its items", "statement": "A flex container whose size across its items is that of its content has room there for each item with its margins, and no line is larger than its largest item.", "quantifier": "all items, lines and limits", "why_tests_cant": "quantifies over all lists of items and lines, with all combinations of sizes and limits", "anchors": ["src/vaev-engine/layout/flex.cpp: FlexItem::getCrossSizeMinMaxContentContribution", "src/vaev-engine/layout/flex.cpp: _calculateCrossSizeOfEachFlexLineIntrinsicSize", "src/vaev-engine/layout/flex.cpp: _determineCrossSpaceForIntrinsicSizes"]}
{"id": "C258", "title": "Form controls show what their attributes say", "statement": "A field for a text shows its value or, if that is empty, its placeholder; checkboxes and radio buttons are drawn as squares and discs with a mark if and only if they are checked; hidden controls show nothing; passwords are not shown.", "quantifier": "all lists of attributes, all points of the drawing", "why_tests_cant": "quantifies over all values of all attributes and all points of the picture", "anchors": ["src/vaev-engine/layout/builder/mod.cpp: _buildVoidElement", "src/vaev-engine/layout/builder/mod.cpp: _buildInputProse", "src/vaev-engine/dom/element.cpp: getAttribute"]}
