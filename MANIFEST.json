{
 "claims": [
  {
   "property": "C01",
   "status": "proved",
   "theorems": [
    "Verif.Dom.C01_edits_refine_child_lists",
    "Verif.Dom.C01_index_counts_siblings"
   ],
   "note": "Heap model of the five links refined to child lists, induction over legal histories."
  },
  {
   "property": "C02",
   "status": "partial",
   "theorems": [
    "Verif.Dom.C02_fails",
    "Verif.Dom.C02_fails_cycle",
    "Verif.Dom.C02_fails_foreign_reference",
    "Verif.Dom.C02_no_cycle_partial"
   ],
   "note": "False of the code: no edit checks its argument. Negation proved with concrete histories; acyclicity proved for legal histories."
  },
  {
   "property": "C03",
   "status": "proved",
   "theorems": [
    "Verif.Dom.C03_depth_first_is_document_order"
   ],
   "note": "Depth-first iteration equals the inductively defined document order."
  },
  {
   "property": "C04",
   "status": "proved",
   "theorems": [
    "Verif.Dom.C04_class_list_is_ordered_set",
    "Verif.Dom.C04_set_forgets",
    "Verif.Dom.C04_toggle_reports",
    "Verif.Dom.C04_replace_fails",
    "Verif.Dom.C04_replace_partial"
   ],
   "note": "add, remove, toggle and attribute assignment proved for all histories. The replace call, outside the statement, is refuted (it can duplicate) and proved under a guard."
  },
  {
   "property": "C05",
   "status": "proved",
   "theorems": [
    "Verif.WebDriver.C05_live_session_has_current_window",
    "Verif.WebDriver.C05_no_context_error",
    "Verif.WebDriver.C05_reads_succeed"
   ],
   "note": "Invariant over all schedules of atomic segments and resumptions."
  },
  {
   "property": "C06",
   "status": "proved",
   "theorems": [
    "Verif.WebDriver.C06_sessions_isolated",
    "Verif.WebDriver.C06_errors_change_nothing",
    "Verif.WebDriver.C06_new_session_is_new"
   ],
   "note": "Frame theorem per event on the client-visible view; failing commands leave every view unchanged."
  },
  {
   "property": "C07",
   "status": "partial",
   "theorems": [
    "Verif.WebDriver.C07_fails",
    "Verif.WebDriver.C07_fails_on_close",
    "Verif.WebDriver.C07_new_window_usable_partial"
   ],
   "note": "False when the session is deleted or its only window closed while the new window loads; proved when the session is still there."
  },
  {
   "property": "C08",
   "status": "partial",
   "theorems": [
    "Verif.Selector.C08_match_iff_meaning_partial",
    "Verif.Selector.C08_fails"
   ],
   "note": "False of the code for `+` after text or comments (witness). Proved for selectors without `+`, and for all selectors on documents where no text stands right before an element."
  },
  {
   "property": "C09",
   "status": "proved",
   "theorems": [
    "Verif.Selector.C09_anb_progression",
    "Verif.Selector.C09_nth_child"
   ],
   "note": "An+B decided for all integers; nth-child and nth-last-child positions on every document built by legal edits."
  },
  {
   "property": "C10",
   "status": "proved",
   "theorems": [
    "Verif.Selector.C10_specificity_counts",
    "Verif.Selector.C10_list_takes_best_match"
   ],
   "note": "Counting and best-member-of-list, for all selectors and all documents."
  },
  {
   "property": "C11",
   "status": "partial",
   "theorems": [
    "Verif.RuleIndex.C11_same_rules_partial",
    "Verif.RuleIndex.C11_same_result_partial",
    "Verif.RuleIndex.C11_equal_partial",
    "Verif.RuleIndex.C11_repeats_harmless",
    "Verif.RuleIndex.C11_list_fails",
    "Verif.RuleIndex.C11_case_fails",
    "Verif.RuleIndex.C11_attribute_fails",
    "Verif.RuleIndex.C11_repeat_fails"
   ],
   "note": "False of the code in four ways, each with a witness: lists met twice get added-up specificity, [*|a=v i] is missed, two attributes of one local name confuse the index, rules with a combinator can repeat. Proved: same rules in the same order, same result, and equality under guards excluding exactly those; repeats shown harmless to the cascade."
  },
  {
   "property": "C12",
   "status": "proved",
   "theorems": [
    "Verif.Cascade.C12_held_iff_winner",
    "Verif.Cascade.C12_held_none_iff",
    "Verif.Cascade.C12_other_properties",
    "Verif.Cascade.C12_submission_order"
   ],
   "note": "For all declaration lists the held declaration is the winner; other properties and (at distinct weights) submission order do not matter."
  },
  {
   "property": "C13",
   "status": "partial",
   "theorems": [
    "Verif.Cascade.C13_fails",
    "Verif.Cascade.C13_importance_partial"
   ],
   "note": "False of the code: importance does not reverse origins (witness). Proved: important beats normal, and origin order at equal importance."
  },
  {
   "property": "C14",
   "status": "partial",
   "theorems": [
    "Verif.Counter.Scope.C14_one_row_partial",
    "Verif.Counter.Scope.C14_fails",
    "Verif.Counter.Scope.C14_nested_fails",
    "Verif.Counter.Scope.C14_list_item_fails",
    "Verif.Counter.Scope.C14_root_fails"
   ],
   "note": "False of the code: parents' counters, increments inside preceding siblings and the root's own counters are not handed on; list items that increment another counter lose list-item (witnesses). Proved equal to CSS scoping where only the element's own row of siblings acts on the counter."
  },
  {
   "property": "C15",
   "status": "partial",
   "theorems": [
    "Verif.Counter.C15_numeric",
    "Verif.Counter.C15_alphabetic",
    "Verif.Counter.C15_distinct",
    "Verif.Counter.C15_cyclic_partial",
    "Verif.Counter.C15_cyclic_period_partial",
    "Verif.Counter.C15_cyclic_fails",
    "Verif.Counter.C15_symbolic"
   ],
   "note": "Numeric, alphabetic, symbolic and distinctness proved. Cyclic is false at negative values (witness) and proved for the others."
  },
  {
   "property": "C16",
   "status": "proved",
   "theorems": [
    "Verif.Counter.C16_additive_sum",
    "Verif.Counter.C16_additive_zero",
    "Verif.Counter.C16_additive_complete"
   ],
   "note": ""
  },
  {
   "property": "C17",
   "status": "partial",
   "theorems": [
    "Verif.Counter.C17_finishes_partial",
    "Verif.Counter.C17_stops_partial",
    "Verif.Counter.C17_fails",
    "Verif.Counter.C17_fixed_fails"
   ],
   "note": "False: @counter-style decimal with a narrow range is accepted and recurses for ever; fixed crashes below its first symbol (witnesses). Proved to end with text, within two calls per style, when decimal writes the value and no style crashes."
  },
  {
   "property": "C18",
   "status": "partial",
   "theorems": [
    "Verif.Xml.C18_escape_partial",
    "Verif.Xml.C18_denotes",
    "Verif.Xml.C18_raw_fails"
   ],
   "note": "Escaped text and values denote the original for every string, and come back through the reader in any element of no namespace; texts of raw elements (style, script, …) are written unescaped and do not (C18_raw_fails)."
  },
  {
   "property": "C19",
   "status": "partial",
   "theorems": [
    "Verif.Xml.C19_wellformed_partial",
    "Verif.Xml.C19_clean_partial",
    "Verif.Xml.C19_fragment_partial",
    "Verif.Xml.C19_eq_space_fails",
    "Verif.Xml.C19_value_fails",
    "Verif.Xml.C19_line_end_fails",
    "Verif.Xml.C19_no_namespace_fails",
    "Verif.Xml.C19_stylesheet_fails"
   ],
   "note": "Completeness: every document of a grammar written apart from the parser is read as the tree it denotes. Outside: spaces around '=', value and line-end normalisation, xmlns=\"\", internal subsets, a leading <?xml-…?> instruction; each shown to fail."
  },
  {
   "property": "C20",
   "status": "partial",
   "theorems": [
    "Verif.Xml.C20_declaration_partial",
    "Verif.Xml.C20_faulty_partial",
    "Verif.Xml.C20_accepted_partial",
    "Verif.Xml.C20_cut_fails",
    "Verif.Xml.C20_trailing_fails",
    "Verif.Xml.C20_roots_fails"
   ],
   "note": "Faulty elements at any depth are rejected, whatever is accepted is of the loose grammar, and so is its XML declaration. False for a text that ends inside the root start tag and for what follows the root; witnesses C20_cut_fails, C20_trailing_fails, C20_roots_fails."
  },
  {
   "property": "C21",
   "status": "proved",
   "theorems": [
    "Verif.Xml.C21_resolve",
    "Verif.Xml.C21_accepted",
    "Verif.Xml.C21_unknown_prefix"
   ],
   "note": "Name resolution in any nesting equals the specification, and accepted documents are in the grammar that uses it."
  },
  {
   "property": "C22",
   "status": "partial",
   "theorems": [
    "Verif.Css.C22_text_ends_partial",
    "Verif.Css.C22_sheet_ends_partial",
    "Verif.Css.C22_style_attribute_ends",
    "Verif.Css.C22_sheet_hangs",
    "Verif.Css.C22_fails"
   ],
   "note": "Model: Css/Parser.lean (css/parser.cpp over tokens). C22_sheet_ends_partial: every token list without CDO/CDC is read to its end. C22_style_attribute_ends: style attributes always end, for all token lists. False in full: C22_sheet_hangs shows that CDO or CDC after any well-formed rules is never consumed; C22_fails is the negation."
  },
  {
   "property": "C23",
   "status": "partial",
   "theorems": [
    "Verif.Css.C23_rejected_declaration_is_skipped_partial",
    "Verif.Css.C23_no_colon_swallows",
    "Verif.Css.C23_lone_bang_swallows",
    "Verif.Css.C23_fails"
   ],
   "note": "C23_rejected_declaration_is_skipped_partial: any declaration of the form name: value that the property reader rejects leaves the others as if it were absent. False for pieces without a colon (C23_no_colon_swallows: everything up to the next opening brace or the end is lost) and for a lone ! (C23_lone_bang_swallows); C23_fails is the negation over the full grammar."
  },
  {
   "property": "C24",
   "status": "partial",
   "theorems": [
    "Verif.Media.C24_partial",
    "Verif.Media.C24_all_fails",
    "Verif.Media.C24_not_fails",
    "Verif.Media.C24_only_fails",
    "Verif.Media.C24_chain_fails",
    "Verif.Media.C24_space_fails",
    "Verif.Media.C24_case_fails",
    "Verif.Media.C24_bare_fails",
    "Verif.Media.C24_any_fails",
    "Verif.Media.C24_contrast_fails",
    "Verif.Media.C24_compare_fails"
   ],
   "note": "Proved for every query list of the strict grammar (any nesting of and/or/commas, all range features with min-/max-, all keyword features): it is read and holds exactly when its formula is true of the medium. Refuted for `all`, `not …`, `only …`, chains of three with white space, white space after `(`, upper-case feature names, bare names of features without a false value, any-hover/any-pointer, prefers-contrast: no-preference and comparisons. The value of a number token is a parameter; relative lengths and ratios are not modelled."
  },
  {
   "property": "C25",
   "status": "partial",
   "theorems": [
    "Verif.Page.C25_first_partial",
    "Verif.Page.C25_first",
    "Verif.Page.C25_mirrored",
    "Verif.Page.C25_right_fails",
    "Verif.Page.C25_left_fails",
    "Verif.Page.C25_blank_fails",
    "Verif.Page.C25_printed_fails"
   ],
   "note": "Matching is right for selectors with :first only; C25_mirrored says exactly what the code does otherwise (left/right exchanged, blank inverted). C25_printed_fails: on printed pages :blank always applies and named selectors never."
  },
  {
   "property": "C26",
   "status": "partial",
   "theorems": [
    "Verif.Page.C26_ends_partial",
    "Verif.Page.C26_single_partial",
    "Verif.Page.C26_stuck_fails",
    "Verif.Page.C26_comma_fails",
    "Verif.Page.C26_colon_fails",
    "Verif.Page.C26_exact"
   ],
   "note": "C26_exact characterises the inputs on which reading ends: names, white space and the four pseudo-classes. Every comma list loops for ever and a colon at the end reads past the end."
  },
  {
   "property": "C27",
   "status": "partial",
   "theorems": [
    "Verif.Decl.C27_substitution_partial",
    "Verif.Decl.C27_only_substitution_partial",
    "Verif.Decl.C27_cycle_is_invalid",
    "Verif.Decl.C27_invalid_at_computed_time",
    "Verif.Decl.C27_long_chain_fails",
    "Verif.Decl.C27_missing_variable_fails",
    "Verif.Decl.C27_block_fails",
    "Verif.Decl.C27_cycle_with_fallback_fails",
    "Verif.Decl.C27_empty_value_fails",
    "Verif.Decl.C27_fails"
   ],
   "note": "Model: Decl/Var.lean (props/base.cpp DeferredProperty). Proved: values standing for o by substitution (nesting up to 31) expand to o; tidy values only expand to their substitution; cycles that are followed give an error of any length; such declarations give the inherited or initial value. False in full: chains of 32 variables, missing variables without fallback, var() in brackets, cyclic variable with fallback, empty values (C27_*_fails). Termination is structural in the model (levels left, then size)."
  },
  {
   "property": "C28",
   "status": "partial",
   "theorems": [
    "Verif.Table.C28_cells_placed_partial",
    "Verif.Table.C28_no_zero_tame",
    "Verif.Table.C28_no_cell_lost",
    "Verif.Table.C28_overlaps",
    "Verif.Table.C28_cells_placed_fails"
   ],
   "note": "Proved for every table in which rowspan=0 is treated right (Tame), in particular for every table without rowspan=0; the general statement is refuted by a table whose rowspan=0 cell runs on into the next body."
  },
  {
   "property": "C29",
   "status": "partial",
   "theorems": [
    "Verif.Table.C29_to_the_end_partial",
    "Verif.Table.C29_leaks_fails",
    "Verif.Table.C29_stops_early_fails"
   ],
   "note": "Proved where the group reaches one row below its last row, or is the last one. Refuted in general: the list of growing cells is only cleared inside the loop over left-over rows, so without such rows the cell runs on, and with two or more it stops early."
  },
  {
   "property": "C30",
   "status": "partial",
   "theorems": [
    "Verif.Table.C30_winner_partial",
    "Verif.Table.C30_same_style_partial",
    "Verif.Table.C30_hidden",
    "Verif.Table.C30_none",
    "Verif.Table.C30_style_fails"
   ],
   "note": "Hidden, wider and first-wins are proved for lists of any length; the comparison of styles has no effect (refuted)."
  },
  {
   "property": "C31",
   "status": "partial",
   "theorems": [
    "Verif.Paginate.C31_every_piece_once_partial",
    "Verif.Paginate.C31_roomy_every_piece_once_partial",
    "Verif.Paginate.C31_page_in_order",
    "Verif.Paginate.C31_page_no_repeat",
    "Verif.Paginate.C31_second_child_of_root_fails",
    "Verif.Paginate.C31_break_after_avoid_fails",
    "Verif.Paginate.C31_break_in_monolithic_fails"
   ],
   "note": "Proved for documents without break values of avoid, without forced breaks inside unbroken boxes and with a root of one child, whenever discovery ends with proper breaks (or every page has room). In every document: order and no repetition within a page. Refuted in general by three witnesses."
  },
  {
   "property": "C32",
   "status": "partial",
   "theorems": [
    "Verif.Paginate.C32_ends_partial",
    "Verif.Paginate.C32_no_panic",
    "Verif.Paginate.C32_tall_box_fails",
    "Verif.Paginate.C32_break_after_last_fails",
    "Verif.Paginate.C32_running_last_fails",
    "Verif.Paginate.C32_break_avoid_fails",
    "Verif.Paginate.C32_top_margin_fails"
   ],
   "note": "Proved, with the bound of one page per box, when every page has room for what it may begin with; never panics, for all documents. Five witnesses print for ever."
  },
  {
   "property": "C33",
   "status": "proved",
   "theorems": [
    "Verif.Paginate.C33_last_of_best",
    "Verif.Paginate.C33_block_uses_best"
   ],
   "note": "Choice over every list of candidates, and that the break a block reports is the choice over the candidates its children give."
  },
  {
   "property": "C34",
   "status": "partial",
   "theorems": [
    "Verif.Paginate.C34_all_content_partial",
    "Verif.Paginate.C34_at_most_once",
    "Verif.Paginate.C34_break_before_fails"
   ],
   "note": "All content once and in order if no child has a forced break before it; at most once and in order for all documents; refuted with break-before: page."
  },
  {
   "property": "C35",
   "status": "partial",
   "theorems": [
    "Verif.Running.C35_first_partial",
    "Verif.Running.C35_last_partial",
    "Verif.Running.C35_start_partial",
    "Verif.Running.C35_default_partial",
    "Verif.Running.C35_gap_fails",
    "Verif.Running.C35_default_fails",
    "Verif.Running.C35_first_except_fails"
   ],
   "note": "first, last and start are right on every page that has the element or before which it occurred at most once, for every search function that meets its contract; refuted otherwise, for the default and for first-except."
  },
  {
   "property": "C36",
   "status": "partial",
   "theorems": [
    "Verif.Sizing.C36_image_within_partial",
    "Verif.Sizing.C36_image_unchanged",
    "Verif.Sizing.C36_block_fails"
   ],
   "note": "Images: within bounds and unchanged when within bounds, for all sizes and bounds. Blocks ignore the bounds (refuted for every block)."
  },
  {
   "property": "C37",
   "status": "partial",
   "theorems": [
    "Verif.Paginate.C37_stacked_partial",
    "Verif.Paginate.C37_between_two",
    "Verif.Paginate.C37_symmetric",
    "Verif.Paginate.C37_through_empty_fails",
    "Verif.Paginate.C37_first_child_fails",
    "Verif.Paginate.C37_marker_margin_fails"
   ],
   "note": "Positions and heights of all content equal the specification for every box tree without forced breaks, in unpaginated layout; symmetric. Not collapsing through empty boxes and with the parent is refuted."
  },
  {
   "property": "C38",
   "status": "proved",
   "theorems": [
    "Verif.Sizing.C38_fills",
    "Verif.Sizing.C38_equal",
    "Verif.Sizing.C38_position"
   ],
   "note": "For every child of a block of known width, including width auto; equal shares up to the smallest unit."
  },
  {
   "property": "C39",
   "status": "partial",
   "theorems": [
    "Verif.Run.C39_concat",
    "Verif.Run.C39_concat_all_loaded",
    "Verif.Run.C39_separate",
    "Verif.Run.C39_separate_outputs_partial",
    "Verif.Run.C39_close",
    "Verif.Run.C39_separate_outputs_fails"
   ],
   "note": "C39_concat, C39_concat_all_loaded, C39_separate and C39_close hold for every world. C39_separate_outputs_partial needs different names of outputs; C39_separate_outputs_fails shows that equal stems overwrite each other."
  },
  {
   "property": "C40",
   "status": "partial",
   "theorems": [
    "Verif.Build.C40_collapse",
    "Verif.Build.C40_collapse_leading",
    "Verif.Build.C40_no_two_spaces",
    "Verif.Build.C40_keeps_characters",
    "Verif.Build.C40_idempotent",
    "Verif.Build.C40_preserved_partial",
    "Verif.Build.C40_preserved_fails",
    "Verif.Build.C40_across_elements_fails",
    "Verif.Build.C40_space_between_elements_fails"
   ],
   "note": "Proved for the text of one node, all strings and all values of white-space. Refuted: spaces of adjacent elements are both kept, the space between two inline elements is dropped, and preserved white space at the begin of a line is lost."
  },
  {
   "property": "C41",
   "status": "partial",
   "theorems": [
    "Verif.Build.C41_parts",
    "Verif.Build.C41_children_parts",
    "Verif.Build.C41_children_order_partial",
    "Verif.Build.C41_children_once_partial",
    "Verif.Build.C41_row_outside_table_fails"
   ],
   "note": "Rows have cells only: proved for every document and every table. Content once and in order: proved for all sequences of children without inline void elements that show something and without parts of tables in running text. A row that stands in no table is not fixed up (refuted)."
  },
  {
   "property": "C42",
   "status": "partial",
   "theorems": [
    "Verif.Script.C42_new_property_partial",
    "Verif.Script.C42_never_changes",
    "Verif.Script.C42_write_lost",
    "Verif.Script.C42_write_fails",
    "Verif.Script.C42_define_partial",
    "Verif.Script.C42_not_extensible"
   ],
   "note": "C42_new_property_partial: a property that is nowhere on the chain can be written and read back. C42_never_changes: a property that exists never changes in any history. C42_write_lost, C42_write_fails: a write to an existing property reports success and does nothing."
  },
  {
   "property": "C43",
   "status": "partial",
   "theorems": [
    "Verif.Script.C43_only_last",
    "Verif.Script.C43_other_objects_partial",
    "Verif.Script.C43_prototype_fails",
    "Verif.Script.C43_siblings_fails"
   ],
   "note": "C43_only_last: a write changes at most that property of the last prototype; C43_other_objects_partial: objects without prototype. C43_prototype_fails, C43_siblings_fails."
  },
  {
   "property": "C44",
   "status": "partial",
   "theorems": [
    "Verif.Css.C44_scalar",
    "Verif.Css.C44_hex_partial",
    "Verif.Css.C44_char",
    "Verif.Css.C44_six_digits_fails",
    "Verif.Css.C44_name_fails",
    "Verif.Css.C44_name_fails_sample"
   ],
   "note": "Scalar values always; one to five digits and other characters decode as written in strings. Six digits are cut after five (C44_six_digits_fails); in names escapes are never decoded (C44_name_fails)."
  },
  {
   "property": "C45",
   "status": "partial",
   "theorems": [
    "Verif.Values.C45_six",
    "Verif.Values.C45_eight",
    "Verif.Values.C45_short",
    "Verif.Values.C45_length",
    "Verif.Values.C45_digits_fails"
   ],
   "note": "Digits and lengths: C45_six, C45_eight, C45_short, C45_length. C45_digits_fails: characters that are not digits are accepted."
  },
  {
   "property": "C46",
   "status": "partial",
   "theorems": [
    "Verif.Load.C46_sheets_partial",
    "Verif.Load.C46_failure_local_partial",
    "Verif.Load.C46_loads",
    "Verif.Load.C46_sheets_fails",
    "Verif.Load.C46_rel_fails",
    "Verif.Load.C46_media_fails",
    "Verif.Load.C46_builtins"
   ],
   "note": "C46_sheets_partial: built-in sheets first, then one sheet per style or link[rel=stylesheet] element whose text could be obtained, in document order (trees in which no element is below an img, style or link). C46_failure_local_partial: changing the answer for one element changes that element's sheet only. C46_loads, C46_builtins. False: C46_sheets_fails (style below link in XHTML), C46_rel_fails (rel compared exactly), C46_media_fails (media ignored)."
  },
  {
   "property": "C47",
   "status": "partial",
   "theorems": [
    "Verif.Sizing.C47_shift",
    "Verif.Sizing.C47_moves_partial",
    "Verif.Sizing.C47_percentage_fails"
   ],
   "note": "The shift is right for a given reference length and moves nothing else; the reference length is the wrong one (refuted)."
  },
  {
   "property": "C48",
   "status": "partial",
   "theorems": [
    "Verif.Selector.C48_specificity_standard_partial",
    "Verif.Selector.C48_fails"
   ],
   "note": "False of the code (pseudo-elements count nothing, :not(list) adds up). Proved for the remaining selectors."
  },
  {
   "property": "C49",
   "status": "partial",
   "theorems": [
    "Verif.Selector.C49_root_partial",
    "Verif.Selector.C49_fails"
   ],
   "note": "False of the code: it tests for the name html. Proved when exactly the root is an html element."
  },
  {
   "property": "C50",
   "status": "partial",
   "theorems": [
    "Verif.Selector.C50_no_panic_partial",
    "Verif.Selector.C50_fails"
   ],
   "note": "False of the code: :nth-child without parentheses panics. Proved for selectors whose :nth-* have an argument, on arbitrary heaps. The parser itself is not modelled here."
  },
  {
   "property": "C51",
   "status": "partial",
   "theorems": [
    "Verif.Cascade.C51_as_if_written_out_partial",
    "Verif.Cascade.C51_font_fails",
    "Verif.Cascade.C51_gap_fails"
   ],
   "note": "False of the code for font without a weight (weight not reset) and for gap (not registered, so dropped); witnesses proved. Proved for every shorthand whose set of longhands does not depend on its value."
  },
  {
   "property": "C52",
   "status": "partial",
   "theorems": [
    "Verif.RuleIndex.C52_pseudo_only_partial",
    "Verif.RuleIndex.C52_fails"
   ],
   "note": "False of the code: a rule naming no pseudo-element also matches pseudo-elements (witness). Proved: a rule naming one matches only it."
  },
  {
   "property": "C53",
   "status": "partial",
   "theorems": [
    "Verif.Counter.C53_fixed_partial",
    "Verif.Counter.C53_late_partial",
    "Verif.Counter.C53_fails"
   ],
   "note": "False when a first value is given: everything is one late and the first value crashes (witness). Proved for the default and, as it is, one late otherwise."
  },
  {
   "property": "C54",
   "status": "partial",
   "theorems": [
    "Verif.Counter.C54_frame_partial",
    "Verif.Counter.C54_fails"
   ],
   "note": "False for negative values of a style with a prefix: the sign comes before the prefix (witness). Proved otherwise. The pad length leaves the sign out of account, as in the code."
  },
  {
   "property": "C55",
   "status": "proved",
   "theorems": [
    "Verif.Counter.C55_extends"
   ],
   "note": ""
  },
  {
   "property": "C56",
   "status": "proved",
   "theorems": [
    "Verif.Counter.C56_fallback"
   ],
   "note": ""
  },
  {
   "property": "C57",
   "status": "proved",
   "theorems": [
    "Verif.Xml.C57_terminates",
    "Verif.Xml.C57_read"
   ],
   "note": "Fuel above the length of the text always suffices."
  },
  {
   "property": "C58",
   "status": "partial",
   "theorems": [
    "Verif.Xml.C58_roundtrip_partial",
    "Verif.Xml.C58_void_fails",
    "Verif.Xml.C58_attribute_fails",
    "Verif.Xml.C58_comment_fails"
   ],
   "note": "For trees without void or raw elements, namespaced attributes, neighbouring or empty texts and comments with '-->'; each exclusion that fails has a witness."
  },
  {
   "property": "C59",
   "status": "partial",
   "theorems": [
    "Verif.Page.C59_partial",
    "Verif.Page.C59_fails"
   ],
   "note": "True when no matching rule is followed by a less specific one; refuted in general (the later rule wins whatever the specificity)."
  },
  {
   "property": "C60",
   "status": "partial",
   "theorems": [
    "Verif.Media.C60_ends",
    "Verif.Media.C60_partial",
    "Verif.Media.C60_fails"
   ],
   "note": "Reading always ends (C60_ends, all inputs). It stays inside the text for the strict grammar; refuted for `not`, `()`, `print and`, `print,`."
  },
  {
   "property": "C61",
   "status": "partial",
   "theorems": [
    "Verif.Css.C61_comments_partial",
    "Verif.Css.C61_fails",
    "Verif.Css.C61_comment_in_value_kept"
   ],
   "note": "C61_comments_partial: comments between rules, between declarations and among function arguments change nothing. False elsewhere (C61_fails, C61_comment_in_value_kept): a comment in a value, selector or bracket is kept as a value of its own."
  },
  {
   "property": "C62",
   "status": "partial",
   "theorems": [
    "Verif.Css.C62_text_read_partial",
    "Verif.Css.C62_sheet_read_partial"
   ],
   "note": "C62_sheet_read_partial: every sheet of the grammar SheetText true is read as the tree it stands for, with nothing left. Missing: comments in values and preludes, CDO/CDC, malformed pieces, nested rules beginning with a name and a colon."
  },
  {
   "property": "C63",
   "status": "partial",
   "theorems": [
    "Verif.Decl.C63_last_valid_wins_partial",
    "Verif.Decl.C63_wide_keywords",
    "Verif.Decl.C63_invalid_declaration_resets",
    "Verif.Decl.C63_trailing_items_ignored",
    "Verif.Decl.C63_fails"
   ],
   "note": "C63_last_valid_wins_partial and C63_wide_keywords hold. False: an unreadable declaration resets the property (C63_invalid_declaration_resets) and trailing items are accepted (C63_trailing_items_ignored). The property's own parser is a parameter."
  },
  {
   "property": "C64",
   "status": "partial",
   "theorems": [
    "Verif.Decl.C64_revert_crashes",
    "Verif.Decl.C64_no_crash_partial"
   ],
   "note": "C64_no_crash_partial: without revert every list of declarations gives a value. False: revert reaches unreachable() (C64_revert_crashes)."
  },
  {
   "property": "C65",
   "status": "partial",
   "theorems": [
    "Verif.Decl.C65_inherited_custom_property_partial",
    "Verif.Decl.C65_fails"
   ],
   "note": "C65_inherited_custom_property_partial: equal when the child declares none of the properties the value leads to. False in general (C65_fails): var() is expanded where used, not where declared."
  },
  {
   "property": "C66",
   "status": "partial",
   "theorems": [
    "Verif.Decl.C66_toggle_partial",
    "Verif.Decl.C66_fails"
   ],
   "note": "C66_toggle_partial for options whose computed value does not depend on the context. False otherwise: options are computed in an empty context (C66_fails)."
  },
  {
   "property": "C67",
   "status": "proved",
   "theorems": [
    "Verif.Css.C67_tokens_tile",
    "Verif.Css.C67_length",
    "Verif.Css.C67_text_back"
   ],
   "note": "For every text."
  },
  {
   "property": "C68",
   "status": "partial",
   "theorems": [
    "Verif.Css.C68_name_ends_partial",
    "Verif.Css.C68_swallows",
    "Verif.Css.C68_name_ends_fails"
   ],
   "note": "Holds for hexadecimal escapes and for character escapes followed, within the name, by a hexadecimal digit. False otherwise: the escape takes everything up to the next hexadecimal digit or line end (C68_swallows, C68_name_ends_fails)."
  },
  {
   "property": "C69",
   "status": "partial",
   "theorems": [
    "Verif.Css.C69_string_read_partial",
    "Verif.Css.C69_quoted_read_back",
    "Verif.Css.C69_crlf_fails"
   ],
   "note": "The CSSOM spelling of every text is read back (C69_quoted_read_back, no restriction but U+0000); all spellings but six-digit escapes and escaped CR LF (C69_crlf_fails)."
  },
  {
   "property": "C70",
   "status": "partial",
   "theorems": [
    "Verif.Css.C70_token_read_partial",
    "Verif.Css.C70_text_read_partial",
    "Verif.Css.C70_unambiguous"
   ],
   "note": "All token kinds, strict spellings; left out: unterminated strings, URLs and comments, and the spellings of C68/C69 that fail."
  },
  {
   "property": "C71",
   "status": "proved",
   "theorems": [
    "Verif.Table.C71_never_panics",
    "Verif.Table.C71_checked"
   ],
   "note": "For all items, also spans of 0."
  },
  {
   "property": "C72",
   "status": "partial",
   "theorems": [
    "Verif.Table.C72_columns_partial",
    "Verif.Table.C72_colgroup_span_fails"
   ],
   "note": "Columns exact for all tables; groups exact if they hold columns; a group with only a span loses its first column (refuted)."
  },
  {
   "property": "C73",
   "status": "partial",
   "theorems": [
    "Verif.Table.C73_rows_partial",
    "Verif.Table.C73_row_span_fails",
    "Verif.Table.C73_direct_row_fails"
   ],
   "note": "Proved for tables of groups without row spans above one. Refuted with a row span of two, and rows that stand in the table itself are not recorded."
  },
  {
   "property": "C74",
   "status": "partial",
   "theorems": [
    "Verif.Table.C74_edge_ends_partial",
    "Verif.Table.C74_edge_ends_fails"
   ],
   "note": "Proved for tables without rowspan=0; with it the loop does not end (refuted)."
  },
  {
   "property": "C75",
   "status": "partial",
   "theorems": [
    "Verif.Table.C75_spans_partial",
    "Verif.Table.C75_colspan_positive",
    "Verif.Table.C75_spans_fails"
   ],
   "note": "Proved for column spans up to 1000 and row spans that are numbers of at least 0; the other cases differ (refuted)."
  },
  {
   "property": "C76",
   "status": "partial",
   "theorems": [
    "Verif.Sizing.C76_ratio_partial",
    "Verif.Sizing.C76_width_fails"
   ],
   "note": "Proved if neither side is written; refuted with a written width."
  },
  {
   "property": "C77",
   "status": "partial",
   "theorems": [
    "Verif.Sizing.C77_image_both",
    "Verif.Sizing.C77_image_width",
    "Verif.Sizing.C77_image_height_fails",
    "Verif.Sizing.C77_block_width"
   ],
   "note": "Proved for both sides and for the width of images and blocks; refuted for the height of images."
  },
  {
   "property": "C78",
   "status": "proved",
   "theorems": [
    "Verif.Sizing.C78_image",
    "Verif.Sizing.C78_contain",
    "Verif.Sizing.C78_default"
   ],
   "note": "All cases, proportions up to rounding."
  },
  {
   "property": "C79",
   "status": "partial",
   "theorems": [
    "Verif.Sizing.C79_start",
    "Verif.Sizing.C79_end_partial",
    "Verif.Sizing.C79_static",
    "Verif.Sizing.C79_end_auto_fails",
    "Verif.Sizing.C79_width_fails",
    "Verif.Sizing.C79_margins_fails",
    "Verif.Sizing.C79_self_end_fails"
   ],
   "note": "Start inset always; end inset alone with known size, or both without margins; static position. Four refutations for the rest, over all frames."
  },
  {
   "property": "C80",
   "status": "partial",
   "theorems": [
    "Verif.Sizing.C80_alone_partial",
    "Verif.Sizing.C80_overflow_fails"
   ],
   "note": "Proved if no earlier sibling sticks out; refuted otherwise."
  },
  {
   "property": "C81",
   "status": "partial",
   "theorems": [
    "Verif.Sizing.C81_width_partial",
    "Verif.Sizing.C81_vertical_fails"
   ],
   "note": "Paddings and horizontal margins proved; vertical margins refuted."
  },
  {
   "property": "C82",
   "status": "proved",
   "theorems": [
    "Verif.Sizing.C82_border"
   ],
   "note": "For all widths and pixel sizes."
  },
  {
   "property": "C83",
   "status": "partial",
   "theorems": [
    "Verif.Build.C83_order_partial",
    "Verif.Build.C83_once_partial",
    "Verif.Build.C83_order_fails",
    "Verif.Build.C83_once_fails",
    "Verif.Build.C83_contents_style_fails",
    "Verif.Build.C83_capitalize_fails"
   ],
   "note": "Equality of mark sequences for all documents without inline void elements that show something, tables that are void elements, and stray table parts; with stray parts a permutation. Both guards are needed (refuted without). White space is the subject of C40."
  },
  {
   "property": "C84",
   "status": "partial",
   "theorems": [
    "Verif.Build.C84_no_abort_partial",
    "Verif.Build.C84_no_abort_fails"
   ],
   "note": "Proved for all documents in which no table has an inline ::before or ::after; refuted for those."
  },
  {
   "property": "C85",
   "status": "partial",
   "theorems": [
    "Verif.Build.C85_one_kind_partial",
    "Verif.Build.C85_one_kind_fails"
   ],
   "note": "Proved for every box of every document without inline void elements that show something; refuted with one."
  },
  {
   "property": "C86",
   "status": "partial",
   "theorems": [
    "Verif.Build.C86_break_partial",
    "Verif.Build.C86_two_lines",
    "Verif.Build.C86_empty_line_fails"
   ],
   "note": "A br closes the line, in any state of the builder; two texts around it are two lines. Empty lines for further br elements are refuted."
  },
  {
   "property": "C87",
   "status": "partial",
   "theorems": [
    "Verif.Load.C87_pictures_partial"
   ],
   "note": "For trees in which no element is below an img, style or link, and elements of different identity."
  },
  {
   "property": "C88",
   "status": "partial",
   "theorems": [
    "Verif.Load.C88_first_source_partial",
    "Verif.Load.C88_faces",
    "Verif.Load.C88_local_fails"
   ],
   "note": "C88_first_source_partial characterises the result for every list of sources; C88_faces lifts it to all rules. C88_local_fails: a local() font that is present leaves the rule without a font."
  },
  {
   "property": "C89",
   "status": "partial",
   "theorems": [
    "Verif.Load.C89_ends_iff",
    "Verif.Load.C89_ends_partial",
    "Verif.Load.C89_ends_fails"
   ],
   "note": "C89_ends_iff: fetching ends exactly for addresses from which there is no endless chain. C89_ends_fails: an SVG image that contains itself."
  },
  {
   "property": "C90",
   "status": "partial",
   "theorems": [
    "Verif.Run.C90_current",
    "Verif.Run.C90_document",
    "Verif.Run.C90_viewport",
    "Verif.Run.C90_empty_window_fails"
   ],
   "note": "C90_current, C90_document, C90_viewport hold for all histories. C90_empty_window_fails: a window into which nothing was loaded aborts."
  },
  {
   "property": "C91",
   "status": "partial",
   "theorems": [
    "Verif.Run.C91_device",
    "Verif.Run.C91_orientation_fails",
    "Verif.Run.C91_resize_orientation_fails"
   ],
   "note": "C91_device for all histories; the orientation is always portrait (C91_orientation_fails, C91_resize_orientation_fails)."
  },
  {
   "property": "C92",
   "status": "partial",
   "theorems": [
    "Verif.Script.C92_write",
    "Verif.Script.C92_define_again",
    "Verif.Script.C92_define_fails"
   ],
   "note": "C92_write for writes; C92_define_again: definitions have no effect; C92_define_fails: but report success."
  },
  {
   "property": "C93",
   "status": "proved",
   "theorems": [
    "Verif.Script.C93_ends",
    "Verif.Script.C93_first"
   ],
   "note": "C93_ends and C93_first for all reachable heaps; assumes that functions end and change heaps as operations do."
  },
  {
   "property": "C94",
   "status": "partial",
   "theorems": [
    "Verif.Script.C94_getter_partial",
    "Verif.Script.C94_no_getter_fails",
    "Verif.Script.C94_setter_fails",
    "Verif.Script.C94_setter_never"
   ],
   "note": "Getters are called (C94_getter_partial); C94_no_getter_fails, C94_setter_fails, C94_setter_never."
  },
  {
   "property": "C95",
   "status": "partial",
   "theorems": [
    "Verif.Script.C95_same_partial",
    "Verif.Script.C95_aborts",
    "Verif.Script.C95_numbers_fail"
   ],
   "note": "C95_same_partial, C95_aborts (exactly which pairs abort), C95_numbers_fail."
  },
  {
   "property": "C96",
   "status": "partial",
   "theorems": [
    "Verif.Values.C96_plain",
    "Verif.Values.C96_one",
    "Verif.Values.C96_two_partial",
    "Verif.Values.C96_missing",
    "Verif.Values.C96_rest_fails",
    "Verif.Values.C96_minus_fails",
    "Verif.Values.C96_nested_fails",
    "Verif.Values.C96_case_fails"
   ],
   "note": "One value and two values are proved (C96_plain, C96_one, C96_two_partial, C96_missing). Longer and nested expressions are refuted."
  },
  {
   "property": "C97",
   "status": "partial",
   "theorems": [
    "Verif.Values.C97_absolute",
    "Verif.Values.C97_unknown",
    "Verif.Values.C97_zero",
    "Verif.Values.C97_zero_fails",
    "Verif.Values.C97_exponent_fails"
   ],
   "note": "All units proved (C97_absolute, C97_unknown, C97_zero). C97_zero_fails: 0.0 and -0 are rejected; C97_exponent_fails. Exact rationals instead of f64."
  },
  {
   "property": "C98",
   "status": "partial",
   "theorems": [
    "Verif.Values.C98_relative_partial",
    "Verif.Values.C98_negative_fails"
   ],
   "note": "All units for all numbers, vmin/vmax kin for numbers that are not negative; C98_negative_fails for the others."
  },
  {
   "property": "C99",
   "status": "partial",
   "theorems": [
    "Verif.Values.C99_alone",
    "Verif.Values.C99_parts_partial",
    "Verif.Values.C99_order_fails",
    "Verif.Values.C99_ruby_fails",
    "Verif.Values.C99_only",
    "Verif.Values.C99_blockify",
    "Verif.Values.C99_internal_fails",
    "Verif.Values.C99_inlinify_fails"
   ],
   "note": "C99_alone, C99_parts_partial (in the order the parser expects), C99_only, C99_blockify. Order, ruby, blockifying internal boxes and inlinifying refuted."
  },
  {
   "property": "C100",
   "status": "proved",
   "theorems": [
    "Verif.Values.C100_sides",
    "Verif.Values.C100_margin",
    "Verif.Values.C100_only"
   ],
   "note": "For any type of values (C100_sides), for margins in pixels (C100_margin), and nothing else accepted (C100_only)."
  },
  {
   "property": "C101",
   "status": "partial",
   "theorems": [
    "Verif.Values.C101_parts_partial",
    "Verif.Values.C101_order",
    "Verif.Values.C101_hash_fails",
    "Verif.Values.C101_twice_fails",
    "Verif.Values.C101_inset_fails"
   ],
   "note": "C101_parts_partial, C101_order. Bad hash colours and repeated parts are accepted, inset is not: the _fails theorems."
  },
  {
   "property": "C102",
   "status": "partial",
   "theorems": [
    "Verif.Values.C102_modern_partial",
    "Verif.Values.C102_legacy_partial",
    "Verif.Values.C102_syntaxes",
    "Verif.Values.C102_range_fails",
    "Verif.Values.C102_fraction_fails",
    "Verif.Values.C102_rest_fails"
   ],
   "note": "In range: C102_modern_partial, C102_legacy_partial (whole numbers or percentages), C102_syntaxes. No clamping (undefined behaviour), fractions dropped with commas, trailing tokens ignored."
  },
  {
   "property": "C103",
   "status": "partial",
   "theorems": [
    "Verif.Values.C103_ends_partial",
    "Verif.Values.C103_between_fails",
    "Verif.Values.C103_space_fails",
    "Verif.Values.C103_spaces_fails"
   ],
   "note": "For channels that are 0 or 1. C103_between_fails: channels are rounded before scaling; C103_space_fails, C103_spaces_fails."
  },
  {
   "property": "C104",
   "status": "partial",
   "theorems": [
    "Verif.Values.C104_weights",
    "Verif.Values.C104_swap",
    "Verif.Values.C104_zero_fails",
    "Verif.Values.C104_range_fails",
    "Verif.Values.C104_hues",
    "Verif.Values.C104_arc"
   ],
   "note": "C104_weights, C104_swap, C104_hues, C104_arc. C104_zero_fails, C104_range_fails: invalid percentages are accepted. The interpolation itself and rounding are Karm's."
  },
  {
   "property": "C105",
   "status": "partial",
   "theorems": [
    "Verif.Registry.C105_inherit_partial",
    "Verif.Registry.C105_corner_fails",
    "Verif.Registry.C105_border_width_fails",
    "Verif.Registry.C105_margin_inline_fails",
    "Verif.Registry.C105_border_fails"
   ],
   "note": "Proved for 127 of the 140 registered properties, for all parents and element styles. False for border-color/-style/-width, border, border-top-left/bottom-right-radius, margin-inline/-block (witnesses proved); line-height and the background layers are not implemented; background expands to its colour only."
  },
  {
   "property": "C106",
   "status": "partial",
   "theorems": [
    "Verif.Registry.C106_initial_partial",
    "Verif.Registry.C106_initial_fails"
   ],
   "note": "Proved for all registered properties except those that start with another value than CSS says (border colours, align/justify-content, align-items, text-align), shorthands that reset less (font, vertical-align, background), and unimplemented ones."
  },
  {
   "property": "C107",
   "status": "partial",
   "theorems": [
    "Verif.Registry.C107_unset_partial",
    "Verif.Registry.C107_unset_fails"
   ],
   "note": "Proved for all properties outside the exceptions of C105 and C106 and visibility, dominant-baseline, font and list-style, for which it is false; the outline colour is left to C110."
  },
  {
   "property": "C108",
   "status": "partial",
   "theorems": [
    "Verif.Registry.C108_default_partial",
    "Verif.Registry.C108_document_partial",
    "Verif.Registry.C108_visibility_fails"
   ],
   "note": "Proved for every order of the registrations and every value except visibility and dominant-baseline (false: not inherited), border colours and alignments (other initial value), unimplemented ones, and outline-color (C110)."
  },
  {
   "property": "C109",
   "status": "partial",
   "theorems": [
    "Verif.Registry.C109_declared_partial",
    "Verif.Registry.C109_rest_partial",
    "Verif.Registry.C109_order_free_partial",
    "Verif.Registry.C109_alias_fails",
    "Verif.Registry.C109_important_fails",
    "Verif.Registry.C109_radius_fails",
    "Verif.Registry.C109_margin_inline_fails",
    "Verif.Registry.C109_registered_partial",
    "Verif.Registry.C109_unregistered_fails"
   ],
   "note": "Proved, with independence of the order of application, when no two declared properties set the same value. False for two names of one value (logical and physical margins and paddings, border-radius and its corners), margin-inline/-block with two values, and the unregistered gap and order; witnesses proved."
  },
  {
   "property": "C110",
   "status": "partial",
   "theorems": [
    "Verif.Registry.C110_outline_partial",
    "Verif.Registry.C110_undeclared_fails"
   ],
   "note": "Proved when outline-color is declared, for every order; false when it is not declared (proved for all styles)."
  },
  {
   "property": "C111",
   "status": "proved",
   "theorems": [
    "Verif.Html.C111_tokens_end"
   ],
   "note": "For every text and every tree builder."
  },
  {
   "property": "C112",
   "status": "partial",
   "theorems": [
    "Verif.Html.C112_in_bounds_fails",
    "Verif.Html.C112_in_bounds_partial"
   ],
   "note": "Refuted for every text (C112_in_bounds_fails); proved for documents of the grammar."
  },
  {
   "property": "C113",
   "status": "proved",
   "theorems": [
    "Verif.Html.C113_plain_text"
   ],
   "note": "For every text without < and &, NUL included."
  },
  {
   "property": "C114",
   "status": "partial",
   "theorems": [
    "Verif.Html.C114_document_partial"
   ],
   "note": "Proved for the whole grammar of Html/Spec.lean. Not in the grammar: malformed tags and comments, references without semicolon before a letter, NUL in names, an ampersand followed by a word that is no reference."
  },
  {
   "property": "C115",
   "status": "partial",
   "theorems": [
    "Verif.Html.C115_raw_text_partial"
   ],
   "note": "Proved for title, style and script alike; scripts that hold <!-- and text cut off by the end of the file are missing."
  },
  {
   "property": "C116",
   "status": "partial",
   "theorems": [
    "Verif.Html.C116_decimal_partial",
    "Verif.Html.C116_hexadecimal_partial",
    "Verif.Html.C116_attribute_partial",
    "Verif.Html.C116_hexadecimal_fails"
   ],
   "note": "Decimal and hexadecimal references with semicolon are proved for every number; ending the number at a letter is refuted (C116_hexadecimal_fails)."
  },
  {
   "property": "C117",
   "status": "partial",
   "theorems": [
    "Verif.Html.C117_named_partial",
    "Verif.Html.C117_attribute_partial",
    "Verif.Html.C117_legacy_partial"
   ],
   "note": "All names with semicolon, and the old names without it before a character that is no letter or digit. Missing: old names before a letter."
  },
  {
   "property": "C118",
   "status": "proved",
   "theorems": [
    "Verif.Html.C118_tags_make_sense"
   ],
   "note": "For every text and every tree builder."
  },
  {
   "property": "C119",
   "status": "partial",
   "theorems": [
    "Verif.Html.C119_query_partial"
   ],
   "note": "Proved in double quoted attributes; the grammar theorem C114 has the others. The claim that nothing else is disturbed is refuted by C112_in_bounds_fails."
  },
  {
   "property": "C120",
   "status": "partial",
   "theorems": [
    "Verif.Html.C120_doctype_partial",
    "Verif.Html.C120_two_spaces_fails",
    "Verif.Html.C120_space_fails"
   ],
   "note": "Refuted for two spaces before PUBLIC and for a space before > (C120_two_spaces_fails, C120_space_fails); proved for the other spellings."
  },
  {
   "property": "C121",
   "status": "partial",
   "theorems": [
    "Verif.Html.C121_cdata_fails"
   ],
   "note": "Refuted: C121_cdata_fails."
  },
  {
   "property": "C122",
   "status": "partial",
   "theorems": [
    "Verif.Tree.C122_tokens_partial",
    "Verif.Tree.C122_page_partial"
   ],
   "note": "Proved for every page of the grammar Page.ok, from its tokens and, with the grammar of C114, from its source, at every call depth from 18 on. Missing: math, templates, framesets, misnested or misplaced markup, comments after the document type and after the body, HTML inside drawings."
  },
  {
   "property": "C123",
   "status": "partial",
   "theorems": [
    "Verif.Tree.C123_depth_partial",
    "Verif.Tree.C123_page_partial",
    "Verif.Tree.C123_ends_fails",
    "Verif.Tree.C123_panic_fails",
    "Verif.Tree.C123_stray_end_fails",
    "Verif.Tree.C123_insertion_fails"
   ],
   "note": "False: three tags that never come back (for every depth), two panics, an insertion past the end. Proved for the pages of C122; the result does not depend on the depth once it is reached."
  },
  {
   "property": "C124",
   "status": "partial",
   "theorems": [
    "Verif.Tree.C124_framed_partial",
    "Verif.Tree.C124_fails"
   ],
   "note": "False for a document that ends inside its title. Proved for the pages of C122."
  },
  {
   "property": "C125",
   "status": "partial",
   "theorems": [
    "Verif.Tree.C125_lost_fails",
    "Verif.Tree.C125_written_partial",
    "Verif.Tree.C125_comment_fails",
    "Verif.Tree.C125_object_fails",
    "Verif.Tree.C125_template_fails",
    "Verif.Tree.C125_last_comment_fails"
   ],
   "note": "False in four ways (comment twice, nested object, template, comment after html). Proved for the pages of C122: the tree written out is the page with all its tags."
  },
  {
   "property": "C126",
   "status": "partial",
   "theorems": [
    "Verif.Tree.C126_table_fails",
    "Verif.Tree.C126_nested_partial",
    "Verif.Tree.C126_font_fails",
    "Verif.Tree.C126_cell_fails"
   ],
   "note": "False for formatting elements inside one of the same name, and inside cells after a paragraph. Proved for nested content in which a formatting element is not inside one of the same name, unless there is a cell between."
  },
  {
   "property": "C127",
   "status": "partial",
   "theorems": [
    "Verif.Tree.C127_attributes_partial",
    "Verif.Tree.C127_html_fails",
    "Verif.Tree.C127_other_fails"
   ],
   "note": "False after a comment and for a second html tag. Proved for the html tag of the pages of C122; for other elements it is C122."
  },
  {
   "property": "C128",
   "status": "partial",
   "theorems": [
    "Verif.Tree.C128_drawing_partial",
    "Verif.Tree.C128_drawing_fails"
   ],
   "note": "False for attributes called size, color or face. Proved for drawings without them and without elements that HTML begins with."
  },
  {
   "property": "C129",
   "status": "proved",
   "theorems": [
    "Verif.Tree.C129_tokens",
    "Verif.Tree.C129_document",
    "Verif.Tree.C129_whole"
   ],
   "note": "For every document and every list of tokens, whenever reading gives a result. When it does not (it may fail to end or panic) is C123. The opposite, that everything read is in the tree, is false: C125_lost_fails."
  },
  {
   "property": "C130",
   "status": "proved",
   "theorems": [
    "Verif.Tree.C130_tokens",
    "Verif.Tree.C130_document"
   ],
   "note": "For every document and every list of tokens, whenever reading gives a result (C123)."
  },
  {
   "property": "C131",
   "status": "proved",
   "theorems": [
    "Verif.Tree.C131_tokens",
    "Verif.Tree.C131_document"
   ],
   "note": "For every document and every list of tokens, whenever reading gives a result (C123)."
  },
  {
   "property": "C132",
   "status": "proved",
   "theorems": [
    "Verif.Tree.C132_tokens",
    "Verif.Tree.C132_document"
   ],
   "note": "For every document and every list of tokens, whenever reading gives a result (C123); in terms of the tokens, which C111-C121 relate to the characters."
  },
  {
   "property": "C133",
   "status": "partial",
   "theorems": [
    "Verif.Flex.C133_ends_partial",
    "Verif.Flex.C133_ends_fails"
   ],
   "note": "Proved if no minimum is negative, any rounding; otherwise false (C133_ends_fails: a container for which no number of turns is enough)."
  },
  {
   "property": "C134",
   "status": "proved",
   "theorems": [
    "Verif.Flex.C134_limits"
   ],
   "note": "Any rounding, whole layout."
  },
  {
   "property": "C135",
   "status": "partial",
   "theorems": [
    "Verif.Flex.C135_share_partial",
    "Verif.Flex.C135_portion"
   ],
   "note": "C135_share_partial: exact arithmetic, factors 0 or at least 1. C135_portion: any rounding and factors when no limit matters."
  },
  {
   "property": "C136",
   "status": "partial",
   "theorems": [
    "Verif.Flex.C136_items",
    "Verif.Flex.C136_greedy_partial",
    "Verif.Flex.C136_greedy_fails"
   ],
   "note": "Items in order proved; greedy lines for items that take room, otherwise false (C136_greedy_fails)."
  },
  {
   "property": "C137",
   "status": "partial",
   "theorems": [
    "Verif.Flex.C137_justify_partial",
    "Verif.Flex.C137_evenly_fails",
    "Verif.Flex.C137_end_fails"
   ],
   "note": "All but space-evenly and end, which do nothing (C137_evenly_fails, C137_end_fails); exact arithmetic."
  },
  {
   "property": "C138",
   "status": "partial",
   "theorems": [
    "Verif.Flex.C138_reverse_partial",
    "Verif.Flex.C138_between_fails",
    "Verif.Flex.C138_column_fails",
    "Verif.Flex.C138_wrap_fails"
   ],
   "note": "row-reverse proved except space-between without room to spare (C138_between_fails); column-reverse and wrap-reverse do nothing (C138_column_fails, C138_wrap_fails)."
  },
  {
   "property": "C139",
   "status": "proved",
   "theorems": [
    "Verif.Flex.C139_auto_margins"
   ],
   "note": "Exact arithmetic."
  },
  {
   "property": "C140",
   "status": "partial",
   "theorems": [
    "Verif.Flex.C140_across",
    "Verif.Flex.C140_auto_margins",
    "Verif.Flex.C140_baseline_fails",
    "Verif.Flex.C140_auto_fails"
   ],
   "note": "flex-start, flex-end, center, stretch and auto margins proved in exact arithmetic; baseline and auto margins without room are wrong (C140_baseline_fails, C140_auto_fails)."
  },
  {
   "property": "C141",
   "status": "proved",
   "theorems": [
    "Verif.Flex.C141_lines"
   ],
   "note": "Exact arithmetic; wrap-reverse see C138."
  },
  {
   "property": "C142",
   "status": "partial",
   "theorems": [
    "Verif.Flex.C142_apart_partial"
   ],
   "note": "Exact arithmetic, no item aligned by baseline."
  },
  {
   "property": "C143",
   "status": "partial",
   "theorems": [
    "Verif.Flex.C143_inside_partial"
   ],
   "note": "Exact arithmetic, factors 0 or at least 1."
  },
  {
   "property": "C144",
   "status": "partial",
   "theorems": [
    "Verif.Cells.C144_room_partial",
    "Verif.Cells.C144_columns",
    "Verif.Cells.C144_room_fails"
   ],
   "note": "automatic algorithm, paddings without percentages; false with percentages"
  },
  {
   "property": "C145",
   "status": "partial",
   "theorems": [
    "Verif.Cells.C145_fills_partial",
    "Verif.Cells.C145_caption_fails",
    "Verif.Cells.C145_fixed_partial",
    "Verif.Cells.C145_fixed_fails"
   ],
   "note": "automatic algorithm with a given width, after any layouts but measuring ones; fixed algorithm without borders. False with a wide caption and no width, and for fixed tables with borders"
  },
  {
   "property": "C146",
   "status": "partial",
   "theorems": [
    "Verif.Cells.C146_inside_partial",
    "Verif.Cells.C146_inside_fails",
    "Verif.Cells.C146_fixed_fails"
   ],
   "note": "automatic algorithm without border-spacing; false with it, and for fixed tables"
  },
  {
   "property": "C147",
   "status": "partial",
   "theorems": [
    "Verif.Cells.C147_preferred",
    "Verif.Cells.C147_shrinks_partial",
    "Verif.Cells.C147_shrinks_fails"
   ],
   "note": "exact width proved; fits when the preferred width does; false otherwise"
  },
  {
   "property": "C148",
   "status": "partial",
   "theorems": [
    "Verif.Cells.C148_high_enough",
    "Verif.Cells.C148_tight_partial",
    "Verif.Cells.C148_tight_fails"
   ],
   "note": "high enough: for all tables. Not too high: cells of one slot; false with cells over several columns"
  },
  {
   "property": "C149",
   "status": "proved",
   "theorems": [
    "Verif.Cells.C149_each_once",
    "Verif.Cells.C149_places",
    "Verif.Cells.C149_apart"
   ],
   "note": "for tables whose cells share no slot"
  },
  {
   "property": "C150",
   "status": "partial",
   "theorems": [
    "Verif.Cells.C150_history_partial",
    "Verif.Cells.C150_fixed_fails",
    "Verif.Cells.C150_height_fails",
    "Verif.Cells.C150_measured_fails"
   ],
   "note": "automatic algorithm, no percentages, no given height, not measured; false for each of the three"
  },
  {
   "property": "C151",
   "status": "partial",
   "theorems": [
    "Verif.Cells.C151_height_partial",
    "Verif.Cells.C151_again_fails",
    "Verif.Cells.C151_rows_fails"
   ],
   "note": "first layout, all rows counted and with a cell ending in each; false for later layouts and for rows in the table itself"
  },
  {
   "property": "C152",
   "status": "partial",
   "theorems": [
    "Verif.Cells.C152_page_partial",
    "Verif.Cells.C152_repeated",
    "Verif.Cells.C152_page_fails"
   ],
   "note": "no cell cut, footer rows no higher than the first rows; false otherwise. Repeating itself proved"
  },
  {
   "property": "C153",
   "status": "partial",
   "theorems": [
    "Verif.Cells.C153_total_partial",
    "Verif.Cells.C153_group_fails",
    "Verif.Cells.C153_fixed_fails",
    "Verif.Cells.C153_zero_fails"
   ],
   "note": "automatic algorithm, non-empty column groups, no rowspan=0, rows counted; witnesses for each"
  },
  {
   "property": "C154",
   "status": "partial",
   "theorems": [
    "Verif.SelParse.C154_means_partial",
    "Verif.SelParse.C154_match_partial",
    "Verif.SelParse.C154_strict_is_grammar",
    "Verif.SelParse.C154_grouping_fails",
    "Verif.SelParse.C154_siblings_fails",
    "Verif.SelParse.C154_space_fails",
    "Verif.SelParse.C154_tight_fails",
    "Verif.SelParse.C154_hyphen_fails",
    "Verif.SelParse.C154_nth_of_fails",
    "Verif.SelParse.C154_escape_fails",
    "Verif.SelParse.C154_case_fails",
    "Verif.SelParse.C154_no_namespace_fails"
   ],
   "note": "Proved for the strict grammar (ListText true): meaning in every tree, specificity, and matching on documents together with C08. False in general: grouping of a b > c and a + b ~ c, space before [, tight combinators, [l|=e], nth-child(n of …), escapes, capitals, |name."
  },
  {
   "property": "C155",
   "status": "proved",
   "theorems": [
    "Verif.SelParse.C155_ends"
   ],
   "note": "Bound on nested calls linear in the size of the text; outcome independent of the fuel above it."
  },
  {
   "property": "C156",
   "status": "partial",
   "theorems": [
    "Verif.SelParse.C156_stays_partial",
    "Verif.SelParse.C156_fails"
   ],
   "note": "Proved for texts in which something follows each . : | = and functions are not empty; false in general, with seven witnesses."
  },
  {
   "property": "C157",
   "status": "partial",
   "theorems": [
    "Verif.SelParse.C157_anb_partial",
    "Verif.SelParse.C157_case_fails",
    "Verif.SelParse.C157_junk_fails"
   ],
   "note": "All lower-case spellings proved; capitals are refused and n1 is taken for n+1."
  },
  {
   "property": "C158",
   "status": "partial",
   "theorems": [
    "Verif.SelParse.C158_types_partial",
    "Verif.SelParse.C158_fails"
   ],
   "note": "Proved with respect to the default of the style sheet; false when none is declared, as the default is then HTML."
  },
  {
   "property": "C159",
   "status": "partial",
   "theorems": [
    "Verif.SelParse.C159_start_partial",
    "Verif.SelParse.C159_comma_fails",
    "Verif.SelParse.C159_combinator_fails",
    "Verif.SelParse.C159_unknown_fails"
   ],
   "note": "Proved for texts whose first value begins no selector; false for trailing commas, leading combinators and unknown pseudo-classes."
  },
  {
   "property": "C160",
   "status": "partial",
   "theorems": [
    "Verif.Paint.C160_once_partial",
    "Verif.Paint.C160_vanishes_fails",
    "Verif.Paint.C160_float_fails"
   ],
   "note": "Proved for fair trees: boxes not positioned have neither z-index nor float, a coloured root has a border or outline, nothing is hidden, translucent or clipped inside SVG. Refuted for static z-index: 0 (in general) and for floats."
  },
  {
   "property": "C161",
   "status": "partial",
   "theorems": [
    "Verif.Paint.C161_order_partial",
    "Verif.Paint.C161_svg_partial",
    "Verif.Paint.C161_text_fails",
    "Verif.Paint.C161_inline_block_fails",
    "Verif.Paint.C161_opacity_fails",
    "Verif.Paint.C161_ties_fails",
    "Verif.Paint.C161_canvas_fails"
   ],
   "note": "The order proved has text with its block and effects in flow; ties in tree order where levels are not inside positioned boxes without one. Refuted for text, inline blocks, static opacity, ties and the canvas."
  },
  {
   "property": "C162",
   "status": "partial",
   "theorems": [
    "Verif.Paint.C162_effects_partial",
    "Verif.Paint.C162_svg_fails"
   ],
   "note": "Proved for fair trees; refuted in general for opacity and clip on SVG groups."
  },
  {
   "property": "C163",
   "status": "partial",
   "theorems": [
    "Verif.Paint.C163_background_partial",
    "Verif.Paint.C163_root_fails"
   ],
   "note": "Proved for fair trees; refuted in general for root elements without border and outline."
  },
  {
   "property": "C164",
   "status": "partial",
   "theorems": [
    "Verif.Paint.C164_hidden_partial",
    "Verif.Paint.C164_svg_fails"
   ],
   "note": "Proved for fair trees; refuted inside SVG."
  },
  {
   "property": "C165",
   "status": "partial",
   "theorems": [
    "Verif.Short.C165_basis",
    "Verif.Short.C165_flex_partial",
    "Verif.Short.C165_allowed_partial",
    "Verif.Short.C165_negative_fails"
   ],
   "note": "Accepted if and only if of the grammar proved, but for the sign of factors: negative ones are accepted."
  },
  {
   "property": "C166",
   "status": "proved",
   "theorems": [
    "Verif.Short.C166_flow"
   ],
   "note": "Acceptance and meaning, in both directions."
  },
  {
   "property": "C167",
   "status": "partial",
   "theorems": [
    "Verif.Short.C167_radius_partial",
    "Verif.Short.C167_slash_partial",
    "Verif.Short.C167_slash_fails",
    "Verif.Short.C167_calc_fails"
   ],
   "note": "Proved for lengths and percentages with both sides of a slash filled; empty sides are accepted and calc() is not read."
  },
  {
   "property": "C168",
   "status": "partial",
   "theorems": [
    "Verif.Short.C168_list_partial",
    "Verif.Short.C168_position_fails",
    "Verif.Short.C168_inside_fails",
    "Verif.Short.C168_none_fails"
   ],
   "note": "Proved for images and types with none in front; it is proved that no text sets the position, and refuted for a none behind."
  },
  {
   "property": "C169",
   "status": "partial",
   "theorems": [
    "Verif.Short.C169_outline_partial",
    "Verif.Short.C169_color_fails",
    "Verif.Short.C169_width_fails"
   ],
   "note": "Proved for widths that are lengths and colours not before auto; refuted in general for the others."
  },
  {
   "property": "C170",
   "status": "partial",
   "theorems": [
    "Verif.Short.C170_font_partial",
    "Verif.Short.C170_weight_fails",
    "Verif.Short.C170_height_fails",
    "Verif.Short.C170_families_fails",
    "Verif.Short.C170_normal_fails",
    "Verif.Short.C170_size_fails",
    "Verif.Short.C170_twice_fails"
   ],
   "note": "Style, weight, width, size and one family proved; refuted in general for commas, the line height and the weight not written, by witnesses for normal, sizes and repetitions."
  },
  {
   "property": "C171",
   "status": "partial",
   "theorems": [
    "Verif.Short.C171_src_partial",
    "Verif.Short.C171_local_fails",
    "Verif.Short.C171_tech_fails",
    "Verif.Short.C171_comma_fails"
   ],
   "note": "Proved for urls with and without format; refuted in general for local() and tech()."
  },
  {
   "property": "C172",
   "status": "partial",
   "theorems": [
    "Verif.Short.C172_overflow_partial",
    "Verif.Short.C172_clip_fails"
   ],
   "note": "Acceptance and meaning proved but for clip, which is refused."
  },
  {
   "property": "C173",
   "status": "partial",
   "theorems": [
    "Verif.Short.C173_position_partial",
    "Verif.Short.C173_words_fails",
    "Verif.Short.C173_center_fails",
    "Verif.Short.C173_accepts_fails"
   ],
   "note": "Proved for all forms but two with the vertical side first; refuted in general for these, and for two texts accepted that are no positions."
  },
  {
   "property": "C174",
   "status": "partial",
   "theorems": [
    "Verif.Short.C174_circle_partial",
    "Verif.Short.C174_center_fails",
    "Verif.Short.C174_space_fails"
   ],
   "note": "Proved for radii and the positions of C173; refuted in general for positions that cannot be read and white space at the start."
  },
  {
   "property": "C175",
   "status": "partial",
   "theorems": [
    "Verif.Transform.C175_list_partial",
    "Verif.Transform.C175_none",
    "Verif.Transform.C175_relative_fails"
   ],
   "note": "Any list of functions with absolute lengths, percentages, numbers, angles and calc() of two terms, any origin and point; false for lengths relative to fonts or the page (C175_relative_fails)."
  },
  {
   "property": "C176",
   "status": "partial",
   "theorems": [
    "Verif.Transform.C176_functions",
    "Verif.Transform.C176_none",
    "Verif.Transform.C176_unknown",
    "Verif.Transform.C176_count_partial",
    "Verif.Transform.C176_empty",
    "Verif.Transform.C176_units",
    "Verif.Transform.C176_matrix_fails"
   ],
   "note": "What is accepted is none or a list of known functions; unknown names, wrong counts, empty arguments and wrong units are refused; matrix() with too many numbers is accepted (C176_matrix_fails)."
  },
  {
   "property": "C177",
   "status": "partial",
   "theorems": [
    "Verif.Transform.C177_two_partial",
    "Verif.Transform.C177_fixed_partial",
    "Verif.Transform.C177_accepts",
    "Verif.Transform.C177_one_fails",
    "Verif.Transform.C177_order_fails"
   ],
   "note": "Two values, horizontal first, are the fixed point and nothing else is accepted; so one value and 'top left' are refused (C177_one_fails, C177_order_fails)."
  },
  {
   "property": "C178",
   "status": "partial",
   "theorems": [
    "Verif.Transform.C178_list_partial",
    "Verif.Transform.C178_centre",
    "Verif.Transform.C178_centre_behind_fails",
    "Verif.Transform.C178_mixed_fails",
    "Verif.Transform.C178_comma_fails"
   ],
   "note": "Lists in which each rotation with a centre stands before each one without; false for the other order and for commas between functions. Assumes Karm puts what is added before the rest and that the numbers of the matrix are written without loss."
  },
  {
   "property": "C179",
   "status": "partial",
   "theorems": [
    "Verif.Svg.C179_fits_partial",
    "Verif.Svg.C179_inside",
    "Verif.Svg.C179_none",
    "Verif.Svg.C179_frame",
    "Verif.Svg.C179_zero_fails",
    "Verif.Svg.C179_negative_fails",
    "Verif.Svg.C179_behind_fails"
   ],
   "note": "View boxes of positive size, at any depth; false for zero and negative ones. Assumes Karm's scaled() acts before the translation; false otherwise (C179_behind_fails)."
  },
  {
   "property": "C180",
   "status": "partial",
   "theorems": [
    "Verif.Svg.C180_moves_partial",
    "Verif.Svg.C180_page_fails",
    "Verif.Svg.C180_order_partial",
    "Verif.Svg.C180_origin_partial"
   ],
   "note": "Drawings with a view box, or without transforms about the view; false for the others (C180_page_fails)."
  },
  {
   "property": "C181",
   "status": "partial",
   "theorems": [
    "Verif.Svg.C181_known",
    "Verif.Svg.C181_fills",
    "Verif.Svg.C181_lengths",
    "Verif.Svg.C181_default_fails",
    "Verif.Svg.C181_relative_fails"
   ],
   "note": "Proved for known sizes, open sizes with a view box, and absolute lengths; the default size and relative lengths are wrong (refuted)."
  },
  {
   "property": "C182",
   "status": "partial",
   "theorems": [
    "Verif.Svg.C182_length_partial",
    "Verif.Svg.C182_size_partial",
    "Verif.Svg.C182_unit_fails",
    "Verif.Svg.C182_trailing_fails",
    "Verif.Svg.C182_relative_fails",
    "Verif.Svg.C182_auto_fails",
    "Verif.Svg.C182_radius_fails",
    "Verif.Svg.C182_viewbox",
    "Verif.Svg.C182_viewbox_rest_fails",
    "Verif.Svg.C182_view_partial",
    "Verif.Svg.C182_nested_partial"
   ],
   "note": "Numbers and percentages everywhere, absolute units for width and height, view boxes; false for units in x, y, cx, cy, r, stroke-width, trailing white space, relative units, missing width, and junk behind a view box."
  },
  {
   "property": "C183",
   "status": "partial",
   "theorems": [
    "Verif.Svg.C183_least_partial",
    "Verif.Svg.C183_empty_fails",
    "Verif.Svg.C183_transform_fails"
   ],
   "note": "Trees without empty groups, shapes counted without their own transforms; false with empty groups, and transforms of children do not count."
  },
  {
   "property": "C184",
   "status": "partial",
   "theorems": [
    "Verif.Svg.C184_ok_partial",
    "Verif.Svg.C184_stops_fails"
   ],
   "note": "Drawings of known size whose sizes are auto, lengths, percentages or two-operand calc(), with view boxes of non-zero size; false for min-content and calc(5)."
  },
  {
   "property": "C185",
   "status": "partial",
   "theorems": [
    "Verif.Service.C185_one_answer",
    "Verif.Service.C185_proper",
    "Verif.Service.C185_loaded",
    "Verif.Service.C185_ends",
    "Verif.Service.C185_codes_fails"
   ],
   "note": "One answer per request in every history, and its form, are proved; error codes and names of the protocol are refuted; the process ends on a window height of zero (C188)."
  },
  {
   "property": "C186",
   "status": "partial",
   "theorems": [
    "Verif.Service.C186_isolated",
    "Verif.Service.C186_errors",
    "Verif.Service.C186_dead_partial",
    "Verif.Service.C186_script_fails",
    "Verif.Service.C186_get"
   ],
   "note": "Isolation, errors and GETs proved in full; dead sessions refused but for Execute Script, which is refuted."
  },
  {
   "property": "C187",
   "status": "partial",
   "theorems": [
    "Verif.Service.C187_all_partial",
    "Verif.Service.C187_others_fails",
    "Verif.Service.C187_invalid_fails"
   ],
   "note": "Proved when all three are given; refuted for absent members and invalid values."
  },
  {
   "property": "C188",
   "status": "partial",
   "theorems": [
    "Verif.Service.C188_size_partial",
    "Verif.Service.C188_position_fails",
    "Verif.Service.C188_zero_fails",
    "Verif.Service.C188_fraction_fails"
   ],
   "note": "The size is kept, for heights other than zero; refuted for the position, for zero and for fractions."
  },
  {
   "property": "C189",
   "status": "partial",
   "theorems": [
    "Verif.Service.C189_job_partial",
    "Verif.Service.C189_orientation",
    "Verif.Service.C189_background_fails",
    "Verif.Service.C189_ranges_fails"
   ],
   "note": "Paper, orientation, margins and scale proved; refuted for background, pageRanges and shrinkToFit; validation of ranges is absent in the code."
  },
  {
   "property": "C190",
   "status": "proved",
   "theorems": [
    "Verif.Service.C190_navigate",
    "Verif.Service.C190_switch",
    "Verif.Service.C190_no_window",
    "Verif.Service.C190_delete",
    "Verif.Service.C190_new_session",
    "Verif.Service.C190_capabilities",
    "Verif.Service.C190_new_window",
    "Verif.Service.C190_close"
   ],
   "note": "For requests that follow each other directly in any reachable state; interleavings that break New Window are C07."
  },
  {
   "property": "C191",
   "status": "partial",
   "theorems": [
    "Verif.Keyword.C191_position",
    "Verif.Keyword.C191_attachment",
    "Verif.Keyword.C191_layers_fails",
    "Verif.Keyword.C191_words_partial",
    "Verif.Keyword.C191_only",
    "Verif.Keyword.C191_missing_fails",
    "Verif.Keyword.C191_lowercase_fails"
   ],
   "note": "All keywords but the eleven listed in `missing` are read, and nothing else but those and the spellings in `extra`; position exactly; refuted for the missing words and for layers separated by commas."
  },
  {
   "property": "C192",
   "status": "partial",
   "theorems": [
    "Verif.Keyword.C192_others",
    "Verif.Keyword.C192_toggle",
    "Verif.Keyword.C192_ends_partial",
    "Verif.Keyword.C192_keywords",
    "Verif.Keyword.C192_background_fails",
    "Verif.Keyword.C192_counter_fails",
    "Verif.Keyword.C192_background_nothing"
   ],
   "note": "For every parser that gets ahead, and shown to apply to keywords, alignments, content, amounts and vertical-align; refuted for background-image/-position/-repeat and the counter properties."
  },
  {
   "property": "C193",
   "status": "partial",
   "theorems": [
    "Verif.Keyword.C193_pairs_partial",
    "Verif.Keyword.C193_none",
    "Verif.Keyword.C193_bare_fails",
    "Verif.Keyword.C193_last_fails",
    "Verif.Keyword.C193_middle_fails",
    "Verif.Keyword.C193_reversed_fails",
    "Verif.Keyword.C193_only"
   ],
   "note": "Lists with all integers given are read, and all that is accepted is described; refuted for integers left out and for reversed()."
  },
  {
   "property": "C194",
   "status": "partial",
   "theorems": [
    "Verif.Keyword.C194_item_partial",
    "Verif.Keyword.C194_list_fails",
    "Verif.Keyword.C194_none_fails",
    "Verif.Keyword.C194_counters_fails",
    "Verif.Keyword.C194_style_fails",
    "Verif.Keyword.C194_space_fails",
    "Verif.Keyword.C194_target_fails"
   ],
   "note": "One item is read as written; refuted for none, lists, counters(), styles and names behind white space and unknown places."
  },
  {
   "property": "C195",
   "status": "partial",
   "theorems": [
    "Verif.Keyword.C195_exact_partial",
    "Verif.Keyword.C195_lone_fails",
    "Verif.Keyword.C195_baseline_fails"
   ],
   "note": "Equivalence with the grammar of prefix and word; refuted for baselines and for prefixes alone."
  },
  {
   "property": "C196",
   "status": "partial",
   "theorems": [
    "Verif.Keyword.C196_spacing_partial",
    "Verif.Keyword.C196_spacing",
    "Verif.Keyword.C196_negative_fails",
    "Verif.Keyword.C196_opacity",
    "Verif.Keyword.C196_range_fails",
    "Verif.Keyword.C196_z",
    "Verif.Keyword.C196_gap",
    "Verif.Keyword.C196_gap_reads"
   ],
   "note": "What is accepted is exactly what has the form; refuted for the ranges of border-spacing and opacity."
  },
  {
   "property": "C197",
   "status": "partial",
   "theorems": [
    "Verif.Keyword.C197_parts_partial",
    "Verif.Keyword.C197_twice",
    "Verif.Keyword.C197_longhands",
    "Verif.Keyword.C197_reset_fails"
   ],
   "note": "All orders of parts are read, doubles refused, and just the longhands given are set; refuted for those left out."
  },
  {
   "property": "C198",
   "status": "partial",
   "theorems": [
    "Verif.Keyword.C198_names_partial",
    "Verif.Keyword.C198_old",
    "Verif.Keyword.C198_only",
    "Verif.Keyword.C198_case_fails",
    "Verif.Keyword.C198_page_break_fails",
    "Verif.Keyword.C198_wide",
    "Verif.Keyword.C198_wide_only",
    "Verif.Keyword.C198_wide_rest_fails",
    "Verif.Keyword.C198_revert_layer_fails"
   ],
   "note": "Names in small letters and the words for all properties; refuted for other cases, page-break-*, revert-layer, and things behind such a word."
  },
  {
   "property": "C199",
   "status": "partial",
   "theorems": [
    "Verif.Sheet.C199_size_partial",
    "Verif.Sheet.C199_numbers",
    "Verif.Sheet.C199_landscape_fails"
   ],
   "note": "Without sizes in landscape, for which it is refuted."
  },
  {
   "property": "C200",
   "status": "partial",
   "theorems": [
    "Verif.Sheet.C200_reads",
    "Verif.Sheet.C200_units",
    "Verif.Sheet.C200_covers_partial",
    "Verif.Sheet.C200_zero_fails",
    "Verif.Sheet.C200_negative_fails",
    "Verif.Sheet.C200_rest_fails",
    "Verif.Sheet.C200_picture_fails"
   ],
   "note": "All units in any case, and coverage of the paper for every scale but zero; refuted for zero and negative scales, trailing text and pictures."
  },
  {
   "property": "C201",
   "status": "partial",
   "theorems": [
    "Verif.Sheet.C201_default_partial",
    "Verif.Sheet.C201_custom",
    "Verif.Sheet.C201_font_fails",
    "Verif.Sheet.C201_scaled_fails",
    "Verif.Sheet.C201_wide_fails"
   ],
   "note": "Absolute lengths, percentages, auto and margins asked for; refuted for relative units, scaled paper and too wide margins."
  },
  {
   "property": "C202",
   "status": "partial",
   "theorems": [
    "Verif.Sheet.C202_regions_partial",
    "Verif.Sheet.C202_once",
    "Verif.Sheet.C202_footnote_fails",
    "Verif.Sheet.C202_header_fails"
   ],
   "note": "For content within the page: the point sets of all margin boxes, each once, in order; refuted for footnotes and for overlap with headers."
  },
  {
   "property": "C203",
   "status": "partial",
   "theorems": [
    "Verif.Sheet.C203_area_partial",
    "Verif.Sheet.C203_no_panic",
    "Verif.Sheet.C203_view_fails",
    "Verif.Sheet.C203_fixed_fails",
    "Verif.Sheet.C203_tall_fails",
    "Verif.Sheet.C203_nothing_fails"
   ],
   "note": "Places and heights on every page whatever was remembered, no panic; refuted for sizes relative to the view, fixed sizes too small and headers that are not there."
  },
  {
   "property": "C204",
   "status": "partial",
   "theorems": [
    "Verif.Sheet.C204_size_partial",
    "Verif.Sheet.C204_ground",
    "Verif.Sheet.C204_left_fails",
    "Verif.Sheet.C204_grow_fails",
    "Verif.Sheet.C204_pages_fails",
    "Verif.Sheet.C204_paper_fails"
   ],
   "note": "View, crop, background, and fit of overflow to the right and below; refuted for overflow to the left, growing and ignored options."
  },
  {
   "property": "C205",
   "status": "partial",
   "theorems": [
    "Verif.Sheet.C205_converts",
    "Verif.Sheet.C205_refuses",
    "Verif.Sheet.C205_list_fails"
   ],
   "note": "Equivalence for conversions, refusals; the list of papers is printed in spite of conflicts. Parsing of the options is Karm's."
  },
  {
   "property": "C206",
   "status": "proved",
   "theorems": [
    "Verif.Sheet.C206_confined",
    "Verif.Sheet.C206_refused",
    "Verif.Sheet.C206_asked"
   ],
   "note": "Every event of every run behind the client of the sandbox; which schemes Karm's transports take is assumed."
  },
  {
   "property": "C207",
   "status": "proved",
   "theorems": [
    "Verif.Browser.C207_history_is_the_trail",
    "Verif.Browser.C207_back_and_forward"
   ],
   "note": "Refinement of the reducer to a trail with pages behind and ahead, over all sequences of button presses and arrivals; sessions shorter than 2^64 events."
  },
  {
   "property": "C208",
   "status": "partial",
   "theorems": [
    "Verif.Browser.C208_no_crash_partial",
    "Verif.Browser.C208_alt_left_fails",
    "Verif.Browser.C208_alt_left_while_loading_fails"
   ],
   "note": "Proved for all sequences of what the buttons offer. False of the keyboard: Alt and left arrow with no page behind crash the browser (C208_alt_left_fails, C208_alt_left_while_loading_fails)."
  },
  {
   "property": "C209",
   "status": "partial",
   "theorems": [
    "Verif.Browser.C209_shows_where_one_is_partial",
    "Verif.Browser.C209_visit_in_a_hurry_fails",
    "Verif.Browser.C209_reload_shows_where_one_is"
   ],
   "note": "Proved if nobody goes elsewhere during a load, and that reloading afterwards shows the right page for all sequences. False of a visit during a load (C209_visit_in_a_hurry_fails)."
  },
  {
   "property": "C210",
   "status": "partial",
   "theorems": [
    "Verif.Browser.C210_one_load_at_a_time",
    "Verif.Browser.C210_slow_page_can_be_left_false"
   ],
   "note": "One load at a time is proved for all sequences. That a slow page can be left is false (C210_slow_page_can_be_left_false)."
  },
  {
   "property": "C211",
   "status": "partial",
   "theorems": [
    "Verif.Browser.C211_shows_what_lies_in_open_elements",
    "Verif.Browser.C211_open_by_its_own_clicks",
    "Verif.Browser.C211_choice_ends_with_the_document_false"
   ],
   "note": "Lines and openness proved for all documents and clicks. That the choice ends with the document is false (C211_choice_ends_with_the_document_false)."
  },
  {
   "property": "C212",
   "status": "partial",
   "theorems": [
    "Verif.Hue.C212_hsl_partial",
    "Verif.Hue.C212_numbers_fails",
    "Verif.Hue.C212_none_fails",
    "Verif.Hue.C212_rest_fails"
   ],
   "note": "Proved for percentages, all hue units, both syntaxes, all spacings. False of numbers without % (C212_numbers_fails), of none as the opacity (C212_none_fails) and of what follows (C212_rest_fails)."
  },
  {
   "property": "C213",
   "status": "partial",
   "theorems": [
    "Verif.Hue.C213_mix_partial",
    "Verif.Hue.C213_space_fails",
    "Verif.Hue.C213_way_round_fails"
   ],
   "note": "Proved for mixtures in srgb nested to any depth. False of other spaces (C213_space_fails) and of ways round the hues (C213_way_round_fails)."
  },
  {
   "property": "C214",
   "status": "partial",
   "theorems": [
    "Verif.Clip.C214_clip_path_partial",
    "Verif.Clip.C214_inset_fails",
    "Verif.Clip.C214_round_fails",
    "Verif.Clip.C214_rule_fails",
    "Verif.Clip.C214_accepts_fails"
   ],
   "note": "C214_clip_path_partial covers all shape functions, boxes, order and none. Refuted: several values in inset() and behind round, space before the comma of the rule, junk behind points and an empty path accepted."
  },
  {
   "property": "C215",
   "status": "partial",
   "theorems": [
    "Verif.Clip.C215_inset_partial",
    "Verif.Clip.C215_xywh_partial",
    "Verif.Clip.C215_rect_partial",
    "Verif.Clip.C215_polygon_partial",
    "Verif.Clip.C215_path_partial",
    "Verif.Clip.C215_circle_partial",
    "Verif.Clip.C215_ellipse_partial",
    "Verif.Clip.C215_box_partial",
    "Verif.Clip.C215_relative_fails",
    "Verif.Clip.C215_corners_fails",
    "Verif.Clip.C215_closest_fails",
    "Verif.Clip.C215_crossed_fails"
   ],
   "note": "Edges, centres, radii, points and corners for all boxes and shapes without relative units. Refuted: relative units, corners of boxes other than the border box, closest-side from outside, crossing insets."
  },
  {
   "property": "C216",
   "status": "partial",
   "theorems": [
    "Verif.Rules.C216_styles_partial",
    "Verif.Rules.C216_unknown_fails",
    "Verif.Rules.C216_case_fails",
    "Verif.Rules.C216_supports_fails",
    "Verif.Rules.C216_import_fails"
   ],
   "note": "C216_styles_partial: nested @media of any depth, namespaces, page, font and counter rules between style rules. Refuted: unknown at-rules read as style rules, keywords in capitals, @supports, @import."
  },
  {
   "property": "C217",
   "status": "partial",
   "theorems": [
    "Verif.Rules.C217_declared_partial",
    "Verif.Rules.C217_late_fails",
    "Verif.Rules.C217_nested_fails"
   ],
   "note": "C217_declared_partial: any number of @namespace rules before a selector. Refuted: late and nested declarations."
  },
  {
   "property": "C218",
   "status": "partial",
   "theorems": [
    "Verif.Rules.C218_pages_partial",
    "Verif.Rules.C218_case_fails"
   ],
   "note": "C218_pages_partial: page rules without :left, :right, :blank and lists (C25, C26). Refuted: margin boxes in capitals."
  },
  {
   "property": "C219",
   "status": "partial",
   "theorems": [
    "Verif.Rules.C219_top_partial",
    "Verif.Rules.C219_nested_fails"
   ],
   "note": "C219_top_partial: rules at top level. Refuted: rules in blocks of @media."
  },
  {
   "property": "C220",
   "status": "partial",
   "theorems": [
    "Verif.Rules.C220_read_partial",
    "Verif.Rules.C220_counter_fails",
    "Verif.Rules.C220_namespace_fails",
    "Verif.Rules.C220_selector_fails",
    "Verif.Rules.C220_page_fails"
   ],
   "note": "C220_read_partial: sheets whose selectors, queries, names and page selectors are of the readable kinds. Refuted: selectors that end too early (C220_selector_fails), @counter-style without name, empty @namespace, commas in page selectors."
  },
  {
   "property": "C221",
   "status": "partial",
   "theorems": [
    "Verif.Face.C221_face_partial",
    "Verif.Face.C221_words_fails",
    "Verif.Face.C221_stretch_fails",
    "Verif.Face.C221_angles_fails",
    "Verif.Face.C221_widths_fails",
    "Verif.Face.C221_range_fails",
    "Verif.Face.C221_unicode_fails",
    "Verif.Face.C221_valid",
    "Verif.Face.C221_weight_limits",
    "Verif.Face.C221_auto_fails",
    "Verif.Face.C221_negative_fails",
    "Verif.Face.C221_empty_fails"
   ],
   "note": "C221_face_partial: all descriptors that have a parser, last one wins, unknown and stray ones ignored. Refuted: several words, font-stretch, two angles, ranges, unicode-range, negative percentages, empty name."
  },
  {
   "property": "C222",
   "status": "partial",
   "theorems": [
    "Verif.Doc.C222_title_partial",
    "Verif.Doc.C222_comment_fails",
    "Verif.Doc.C222_space_fails",
    "Verif.Doc.C222_drawing_fails"
   ],
   "note": "C222_title_partial: all documents whose titles hold only text without superfluous white space, other than drawings. Refuted with comments, white space, SVG roots."
  },
  {
   "property": "C223",
   "status": "partial",
   "theorems": [
    "Verif.Doc.C223_text_partial",
    "Verif.Doc.C223_comment_fails"
   ],
   "note": "C223_text_partial: nodes without comments in them. Refuted with comments."
  },
  {
   "property": "C224",
   "status": "partial",
   "theorems": [
    "Verif.Doc.C224_root",
    "Verif.Doc.C224_body_partial",
    "Verif.Doc.C224_frameset_fails"
   ],
   "note": "C224_root in full; C224_body_partial without frame sets, which are refuted."
  },
  {
   "property": "C225",
   "status": "partial",
   "theorems": [
    "Verif.Doc.C225_document",
    "Verif.Doc.C225_address_partial",
    "Verif.Doc.C225_self_fails",
    "Verif.Doc.C225_base_fails"
   ],
   "note": "C225_document in full; C225_address_partial without base elements, for nodes other than the document. Both exceptions refuted."
  },
  {
   "property": "C226",
   "status": "proved",
   "theorems": [
    "Verif.Doc.C226_background",
    "Verif.Doc.C226_empty_fails"
   ],
   "note": "C226_background for all documents with a root element, as C130 says all have that are read; C226_empty_fails shows what happens without one."
  },
  {
   "property": "C227",
   "status": "partial",
   "theorems": [
    "Verif.Doc.C227_styles_partial",
    "Verif.Doc.C227_again_fails"
   ],
   "note": "C227_styles_partial: first styling. Refuted for a second one: pseudo-elements stay."
  },
  {
   "property": "C228",
   "status": "partial",
   "theorems": [
    "Verif.Oof.C228_placed_partial",
    "Verif.Oof.C228_ends",
    "Verif.Oof.C228_table_fails",
    "Verif.Oof.C228_flex_fails",
    "Verif.Oof.C228_inline_fails",
    "Verif.Oof.C228_float_fails"
   ],
   "note": "Proved for trees where nothing is dropped (Keeps): laid out exactly once in the nearest containing block; layout ends for every tree. Refuted in tables, flex containers without items, floating flex items and positioned inline boxes."
  },
  {
   "property": "C229",
   "status": "partial",
   "theorems": [
    "Verif.Oof.C229_painted_partial",
    "Verif.Oof.C229_flex_fails",
    "Verif.Oof.C229_table_fails",
    "Verif.Oof.C229_float_fails"
   ],
   "note": "Proved for trees where nothing is dropped and flex containers have no children out of the flow. Refuted for absolutely positioned children of flex containers, in tables, and for floating flex items."
  },
  {
   "property": "C230",
   "status": "partial",
   "theorems": [
    "Verif.Oof.C230_covers_partial",
    "Verif.Oof.C230_least_partial",
    "Verif.Oof.C230_origin_fails"
   ],
   "note": "Covers: for all trees where nothing is dropped. Least: if the root covers the origin; refuted otherwise."
  },
  {
   "property": "C231",
   "status": "partial",
   "theorems": [
    "Verif.Oof.C231_padding",
    "Verif.Oof.C231_content",
    "Verif.Oof.C231_page_fails"
   ],
   "note": "The padding box: proved for all inputs. The initial containing block of a page with margins: refuted."
  },
  {
   "property": "C232",
   "status": "partial",
   "theorems": [
    "Verif.Fonts.C232_face",
    "Verif.Fonts.C232_weight_fails"
   ],
   "note": "C232_face: for all documents, declarations and sets of fonts. C232_weight_fails: the last resort ignores the weight."
  },
  {
   "property": "C233",
   "status": "partial",
   "theorems": [
    "Verif.Fonts.C233_size_partial",
    "Verif.Fonts.C233_root_partial",
    "Verif.Fonts.C233_inherited",
    "Verif.Fonts.C233_keywords_order",
    "Verif.Fonts.C233_larger",
    "Verif.Fonts.C233_keywords_fails"
   ],
   "note": "C233_size_partial and C233_root_partial: lengths in all units and percentages, for every element of every document. C233_inherited, C233_keywords_order, C233_larger. C233_keywords_fails: the factors of the keywords are not those of CSS."
  },
  {
   "property": "C234",
   "status": "partial",
   "theorems": [
    "Verif.Fonts.C234_own_partial",
    "Verif.Fonts.C234_not_inherited",
    "Verif.Fonts.C234_rem_fails",
    "Verif.Fonts.C234_inherited_fails",
    "Verif.Fonts.C234_inline_fails",
    "Verif.Fonts.C234_lh_fails"
   ],
   "note": "C234_own_partial: units of fonts and of the page refer to the own font and the page. C234_not_inherited. Refuted: rem (always 16 pixels), lh, inherited lengths, margins of inline elements."
  },
  {
   "property": "C235",
   "status": "partial",
   "theorems": [
    "Verif.Fonts.C235_text_partial",
    "Verif.Fonts.C235_line_height_fails",
    "Verif.Fonts.C235_rtl_fails",
    "Verif.Fonts.C235_justify_fails"
   ],
   "note": "C235_text_partial: face, size, colour, wrapping, alignment from left to right, absolute margins. Refuted: line-height has no effect, right to left, justify."
  },
  {
   "property": "C236",
   "status": "partial",
   "theorems": [
    "Verif.Hints.C236_author",
    "Verif.Hints.C236_hint",
    "Verif.Hints.C236_style",
    "Verif.Hints.C236_align_fails",
    "Verif.Hints.C236_case_fails"
   ],
   "note": "Proved for every property that goes through the cascade: C236_author (attributes make no difference where the author says something), C236_hint, C236_style. False for align, which is applied after the cascade: C236_align_fails, C236_case_fails."
  },
  {
   "property": "C237",
   "status": "partial",
   "theorems": [
    "Verif.Hints.C237_other_elements",
    "Verif.Hints.C237_percent_partial",
    "Verif.Hints.C237_number_fails",
    "Verif.Hints.C237_size_fails",
    "Verif.Hints.C237_bgcolor_fails"
   ],
   "note": "Percentages: C237_percent_partial; nothing on elements outside HTML: C237_other_elements. False for numbers (C237_number_fails), size (C237_size_fails) and bgcolor (C237_bgcolor_fails)."
  },
  {
   "property": "C238",
   "status": "proved",
   "theorems": [
    "Verif.Hints.C238_default",
    "Verif.Hints.C238_as_written",
    "Verif.Hints.C238_attribute"
   ],
   "note": "C238_default, C238_attribute and C238_as_written, for all declarations of the style rules and of the style attribute."
  },
  {
   "property": "C239",
   "status": "partial",
   "theorems": [
    "Verif.Basis.C239_base_partial",
    "Verif.Basis.C239_mix_fails",
    "Verif.Basis.C239_keyword_fails",
    "Verif.Basis.C239_floor_fails",
    "Verif.Basis.C239_container_fails",
    "Verif.Basis.C239_container_partial",
    "Verif.Basis.C239_intrinsic"
   ],
   "note": "C239_base_partial proves the base size equal to that of CSS except in the cases refuted by C239_mix_fails, C239_keyword_fails, C239_floor_fails; C239_container_partial and C239_container_fails say what percentages refer to."
  },
  {
   "property": "C240",
   "status": "partial",
   "theorems": [
    "Verif.Basis.C240_lower_partial",
    "Verif.Basis.C240_upper_partial",
    "Verif.Basis.C240_content_box_fails",
    "Verif.Basis.C240_scroll_fails",
    "Verif.Basis.C240_fit_fails",
    "Verif.Basis.C240_percent"
   ],
   "note": "C240_lower_partial and C240_upper_partial for border-box sizes or items without edges; refuted for content boxes with padding (C240_content_box_fails), scrolling items (C240_scroll_fails) and fit-content (C240_fit_fails)."
  },
  {
   "property": "C241",
   "status": "partial",
   "theorems": [
    "Verif.Basis.C241_room_partial",
    "Verif.Basis.C241_margin_fails",
    "Verif.Basis.C241_min_fails",
    "Verif.Basis.C241_padding_fails",
    "Verif.Basis.C241_wants_partial",
    "Verif.Basis.C241_wants_auto_partial",
    "Verif.Basis.C241_limit_fails",
    "Verif.Basis.C241_wrap",
    "Verif.Basis.C241_reverse_fails"
   ],
   "note": "C241_room_partial (max-content has room for every list of items without margins, under Roomy) and C241_wrap; refuted by C241_margin_fails, C241_min_fails, C241_padding_fails, C241_reverse_fails."
  },
  {
   "property": "C242",
   "status": "partial",
   "theorems": [
    "Verif.Basis.C242_column",
    "Verif.Basis.C242_given",
    "Verif.Basis.C242_stretched_fails",
    "Verif.Basis.C242_lengths_partial",
    "Verif.Basis.C242_margin_fails",
    "Verif.Basis.C242_padding_fails"
   ],
   "note": "C242_column, C242_given and C242_lengths_partial; refuted by C242_stretched_fails, C242_margin_fails, C242_padding_fails."
  },
  {
   "property": "C243",
   "status": "partial",
   "theorems": [
    "Verif.Baseline.C243_last_partial",
    "Verif.Baseline.C243_source_partial",
    "Verif.Baseline.C243_lines_fails",
    "Verif.Baseline.C243_two_lines_fails",
    "Verif.Baseline.C243_padding_fails",
    "Verif.Baseline.C243_scroll_fails",
    "Verif.Baseline.C243_empty_fails",
    "Verif.Baseline.C243_first_fails",
    "Verif.Baseline.C243_flex_fails",
    "Verif.Baseline.C243_image_partial"
   ],
   "note": "Proved by induction for nested blocks with one line per paragraph and no padding at the top; refuted for paragraphs of several lines, padding, boxes that scroll or have no lines, boxes out of the flow in front, and flex containers, grids and tables."
  },
  {
   "property": "C244",
   "status": "partial",
   "theorems": [
    "Verif.Baseline.C244_width_partial",
    "Verif.Baseline.C244_margin_fails",
    "Verif.Baseline.C244_padding_fails"
   ],
   "note": "Proved without margins, and without padding where no width is given; both are refuted."
  },
  {
   "property": "C245",
   "status": "partial",
   "theorems": [
    "Verif.Seams.C245_above",
    "Verif.Seams.C245_beside_partial",
    "Verif.Seams.C245_tables",
    "Verif.Seams.C245_group_fails",
    "Verif.Seams.C245_row_fails",
    "Verif.Seams.C245_hidden_fails"
   ],
   "note": "between rows for every table without overlapping cells (C245_above, C245_tables); between columns whenever finding them does not fail (C246); refuted for group borders inside of groups, rows below cells of several rows and the width of hidden borders"
  },
  {
   "property": "C246",
   "status": "partial",
   "theorems": [
    "Verif.Seams.C246_inside_partial",
    "Verif.Seams.C246_ends_partial",
    "Verif.Seams.C246_outside_fails",
    "Verif.Seams.C246_zero_fails"
   ],
   "note": "proved for lines between rows and starts, and for ends when cells of several rows stay away from the last row; refuted for paired rowspans at the foot and rowspan=0"
  },
  {
   "property": "C247",
   "status": "partial",
   "theorems": [
    "Verif.Rows.C247_once_partial",
    "Verif.Rows.C247_endless_fails",
    "Verif.Rows.C247_empty_row_fails",
    "Verif.Rows.C247_span_fails"
   ],
   "note": "Proved for tables of rows that fit on a page with header and footer, without cells of several rows; a row that does not fit below the header makes the pages endless, a tall row without cells panics."
  },
  {
   "property": "C248",
   "status": "partial",
   "theorems": [
    "Verif.Rows.C248_asked_partial",
    "Verif.Rows.C248_span_fails"
   ],
   "note": "Proved for tables without cells of several rows; a break after a row with a cell that goes on is not made."
  },
  {
   "property": "C249",
   "status": "partial",
   "theorems": [
    "Verif.Rows.C249_full_partial",
    "Verif.Rows.C249_group_fails",
    "Verif.Rows.C249_avoid_fails"
   ],
   "note": "Proved: pages are filled. Refuted: row groups and rows that are to stay together are separated."
  },
  {
   "property": "C250",
   "status": "partial",
   "theorems": [
    "Verif.Rims.C250_slots",
    "Verif.Rims.C250_cells",
    "Verif.Rims.C250_tables_partial",
    "Verif.Rims.C250_zero_fails",
    "Verif.Rims.C250_zero_above_fails"
   ],
   "note": "Proved for tables whose cells do not overlap, with any spans but rowspan=0, for which it is refuted."
  },
  {
   "property": "C251",
   "status": "partial",
   "theorems": [
    "Verif.Rims.C251_edge_partial",
    "Verif.Rims.C251_gap_fails",
    "Verif.Rims.C251_empty_fails"
   ],
   "note": "Proved for the cells at the sides of a table. Refuted: gaps where there is no cell; a table with rows but without cells panics."
  },
  {
   "property": "C252",
   "status": "partial",
   "theorems": [
    "Verif.Format.C252_back_partial",
    "Verif.Format.C252_type_fails",
    "Verif.Format.C252_star_fails",
    "Verif.Format.C252_null_fails",
    "Verif.Format.C252_nested_fails",
    "Verif.Format.C252_not_fails"
   ],
   "note": "Proved for classes and ids: one, several in a row, several between commas, two with a combinator. False of type selectors, *|*, names in no namespace, selectors within selectors, :not and :where, each with a witness."
  },
  {
   "property": "C253",
   "status": "partial",
   "theorems": [
    "Verif.Mime.C253_type",
    "Verif.Mime.C253_loaded",
    "Verif.Mime.C253_error",
    "Verif.Mime.C253_charset_fails"
   ],
   "note": "Proved for all hierarchies of types: which type a response has, what is loaded for it and when loading fails. False of declared encodings, which are ignored."
  },
  {
   "property": "C254",
   "status": "partial",
   "theorems": [
    "Verif.Mime.C254_source_partial",
    "Verif.Mime.C254_text_fails",
    "Verif.Mime.C254_sheets_partial",
    "Verif.Mime.C254_variant_fails"
   ],
   "note": "Proved for the source of documents and for the built-in sheets; false of plain texts, which are not in a pre and have no html element, and of variants of Markdown."
  },
  {
   "property": "C255",
   "status": "partial",
   "theorems": [
    "Verif.Coerce.C255_string_partial",
    "Verif.Coerce.C255_primitive",
    "Verif.Coerce.C255_number_fails"
   ],
   "note": "Proved where a string is wanted, for methods that are no accessors; the result is never an object for any hint. False for the other hints."
  },
  {
   "property": "C256",
   "status": "partial",
   "theorems": [
    "Verif.Coerce.C256_name_partial",
    "Verif.Coerce.C256_kind_fails"
   ],
   "note": "Exceptions can always be made and have a name; false of the name, which is the same for all kinds."
  },
  {
   "property": "C257",
   "status": "partial",
   "theorems": [
    "Verif.Across.C257_room_partial",
    "Verif.Across.C257_tight_partial",
    "Verif.Across.C257_margin_fails",
    "Verif.Across.C257_given_fails",
    "Verif.Across.C257_keyword_fails",
    "Verif.Across.C257_space_partial",
    "Verif.Across.C257_reverse_fails"
   ],
   "note": "Proved for items without margins and percentages: each has room, and for automatic sizes no line is larger than its largest item. False of margins (those of the wrong direction count), sizes smaller than the content, min-content, and wrap-reverse."
  },
  {
   "property": "C258",
   "status": "partial",
   "theorems": [
    "Verif.Forms.C258_attributes",
    "Verif.Forms.C258_no_panic",
    "Verif.Forms.C258_text_partial",
    "Verif.Forms.C258_placeholder_fails",
    "Verif.Forms.C258_password_fails",
    "Verif.Forms.C258_label_fails",
    "Verif.Forms.C258_hidden_partial",
    "Verif.Forms.C258_hidden_fails",
    "Verif.Forms.C258_box",
    "Verif.Forms.C258_hidden_box_fails",
    "Verif.Forms.C258_radio_partial",
    "Verif.Forms.C258_checkbox_partial",
    "Verif.Forms.C258_value_fails",
    "Verif.Forms.C258_case_fails"
   ],
   "note": "Proved for types in small letters: texts, discs, squares and marks for all points, no panic, and what is in the box. Refuted: value=on, types in capitals, placeholder beside an empty value, passwords, labels, boxes of hidden controls."
  }
 ]
}