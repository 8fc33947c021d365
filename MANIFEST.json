{
 "claims": [
  {
   "property": "C01",
   "status": "proved",
   "theorems": [
    "Fcsql.C01_catch_all_only_chr_overflow",
    "Fcsql.C01_overflow_reaches_catch_all",
    "Fcsql.C01_outcomes"
   ],
   "note": "All outcomes of parse for every query and setting; the catch-all is reached only by the chr overflow, and it is reached by it."
  },
  {
   "property": "C02",
   "status": "proved",
   "theorems": [
    "Fcsql.C02_acceptance",
    "Fcsql.C02_literal_check"
   ],
   "note": ""
  },
  {
   "property": "C03",
   "status": "proved",
   "theorems": [
    "Fcsql.C03_errors_reflect_last_parse",
    "Fcsql.C03_history_independent"
   ],
   "note": ""
  },
  {
   "property": "C04",
   "status": "proved",
   "theorems": [
    "Fcsql.C04_can_parse",
    "Fcsql.C24_all_or_none"
   ],
   "note": ""
  },
  {
   "property": "C05",
   "status": "partial",
   "theorems": [
    "Fcsql.C05_antlr_parse_partial",
    "Fcsql.C05_antlr_parse_ignores_lexical_errors"
   ],
   "note": "False as documented: antlr_parse removes no lexer error listener reporting and returns on lexical errors (C05_antlr_parse_ignores_lexical_errors). Proved: everything else."
  },
  {
   "property": "C06",
   "status": "proved",
   "theorems": [
    "Fcsql.C06_maximal_munch",
    "Fcsql.C06_split_unique"
   ],
   "note": ""
  },
  {
   "property": "C07",
   "status": "proved",
   "theorems": [
    "Fcsql.C07_pieces_tile",
    "Fcsql.C07_tokens",
    "Fcsql.C07_outside_tokens"
   ],
   "note": ""
  },
  {
   "property": "C08",
   "status": "proved",
   "theorems": [
    "Fcsql.C08_layout",
    "Fcsql.C08_unlocated",
    "Fcsql.C08_whitespace_irrelevant"
   ],
   "note": ""
  },
  {
   "property": "C09",
   "status": "proved",
   "theorems": [
    "Fcsql.C09_derivation_tree",
    "Fcsql.C09_query_parser"
   ],
   "note": ""
  },
  {
   "property": "C10",
   "status": "proved",
   "theorems": [
    "Fcsql.C10_no_false_errors",
    "Fcsql.C10_no_errors"
   ],
   "note": ""
  },
  {
   "property": "C11",
   "status": "proved",
   "theorems": [
    "Fcsql.C11_lowest_alternative",
    "Fcsql.C11_unique"
   ],
   "note": ""
  },
  {
   "property": "C12",
   "status": "proved",
   "theorems": [
    "Fcsql.C12_precedence_iff",
    "Fcsql.C12_precedence_located_iff",
    "Fcsql.C12_without_negation",
    "Fcsql.C12_at_most_one_or",
    "Fcsql.C12_negation_swallows"
   ],
   "note": "The grammar comment '&/AND binds tighter than |/OR' is false in general (C12_negation_swallows); the exact condition under which it holds is proved (iff), for every number of chunks, operands and negations."
  },
  {
   "property": "C13",
   "status": "proved",
   "theorems": [
    "Fcsql.C13_one_node"
   ],
   "note": ""
  },
  {
   "property": "C14",
   "status": "proved",
   "theorems": [
    "Fcsql.C14_shape"
   ],
   "note": ""
  },
  {
   "property": "C15",
   "status": "proved",
   "theorems": [
    "Fcsql.C15_sane_bounds",
    "Fcsql.C16_bounds_as_written"
   ],
   "note": ""
  },
  {
   "property": "C16",
   "status": "proved",
   "theorems": [
    "Fcsql.C16_bounds_as_written",
    "Fcsql.C16_bounds_unique",
    "Fcsql.C16_min_gt_max_rejected"
   ],
   "note": ""
  },
  {
   "property": "C17",
   "status": "proved",
   "theorems": [
    "Fcsql.C17_flags_as_written",
    "Fcsql.C17_legal_letters",
    "Fcsql.C17_illegal_rejected",
    "Fcsql.C17_order_irrelevant",
    "Fcsql.C22_expression_as_written"
   ],
   "note": ""
  },
  {
   "property": "C18",
   "status": "proved",
   "theorems": [
    "Fcsql.C18_token",
    "Fcsql.C18_literal",
    "Fcsql.C18_literal_located",
    "Fcsql.C18_comparison"
   ],
   "note": "For both quote characters, as a bare literal and in a comparison; the literal is exactly one token."
  },
  {
   "property": "C19",
   "status": "proved",
   "theorems": [
    "Fcsql.C19_decoder_total"
   ],
   "note": ""
  },
  {
   "property": "C20",
   "status": "proved",
   "theorems": [
    "Fcsql.C20_escape_semantics",
    "Fcsql.C22_expression_as_written"
   ],
   "note": ""
  },
  {
   "property": "C21",
   "status": "proved",
   "theorems": [
    "Fcsql.C21_normalized_once",
    "Fcsql.C21_acceptance",
    "Fcsql.C22_expression_as_written"
   ],
   "note": ""
  },
  {
   "property": "C22",
   "status": "proved",
   "theorems": [
    "Fcsql.C22_defaults_exact",
    "Fcsql.C22_default_settings",
    "Fcsql.C22_defaults_only",
    "Fcsql.C22_expression_as_written"
   ],
   "note": ""
  },
  {
   "property": "C23",
   "status": "proved",
   "theorems": [
    "Fcsql.C23_names",
    "Fcsql.C22_expression_as_written"
   ],
   "note": ""
  },
  {
   "property": "C24",
   "status": "proved",
   "theorems": [
    "Fcsql.C24_default_settings",
    "Fcsql.C24_all_or_none",
    "Fcsql.C24_same_tree"
   ],
   "note": ""
  },
  {
   "property": "C25",
   "status": "proved",
   "theorems": [
    "Fcsql.C25_locations"
   ],
   "note": ""
  },
  {
   "property": "C26",
   "status": "proved",
   "theorems": [
    "Fcsql.C26_fragment"
   ],
   "note": ""
  },
  {
   "property": "C27",
   "status": "proved",
   "theorems": [
    "Fcsql.C27_parent_links",
    "Fcsql.C27_same_exception",
    "Fcsql.C27_one_parent"
   ],
   "note": ""
  },
  {
   "property": "C28",
   "status": "partial",
   "theorems": [
    "Fcsql.C28_get_child_partial",
    "Fcsql.C28_refuted",
    "Fcsql.C28_get_child_of_class",
    "Fcsql.C28_base_class"
   ],
   "note": "get_child(child_count) raises IndexError (off-by-one, C28_refuted). Proved for every other index, and for every class argument."
  },
  {
   "property": "C29",
   "status": "partial",
   "theorems": [
    "Fcsql.C29_get_first_child",
    "Fcsql.C29_get_last_child",
    "Fcsql.C29_get_last_child_of_class_partial",
    "Fcsql.C29_refuted"
   ],
   "note": "get_last_child(clazz) uses child_count-1 as index among the children of that class, so it is wrong in general (C29_refuted); exact behaviour proved."
  },
  {
   "property": "C30",
   "status": "partial",
   "theorems": [
    "Fcsql.C30_simple_predicates",
    "Fcsql.C30_qualifier_empty_refuted",
    "Fcsql.C30_flags_empty_refuted",
    "Fcsql.C30_has_qualifier_refuted"
   ],
   "note": "is_layer_qualifier_empty and is_regex_flags_empty are negated in the code, has_layer_qualifier is always False for a present qualifier: refuted, exact behaviour proved."
  },
  {
   "property": "C31",
   "status": "partial",
   "theorems": [
    "Fcsql.C31_dispatch_partial",
    "Fcsql.C31_handler_runs_partial",
    "Fcsql.C31_expression_classes_refuted",
    "Fcsql.C31_query_group_refuted",
    "Fcsql.C31_adapter_methods"
   ],
   "note": "The documented method is looked up for exactly six classes; ExpressionWildcard/Group/Not/And/Or look up names the adapter does not define, and QueryGroup calls QuerySegment's method: refuted for these, proved for the others."
  },
  {
   "property": "C32",
   "status": "proved",
   "theorems": [
    "Fcsql.C32_preorder",
    "Fcsql.C32_sees_every_node",
    "Fcsql.C32_adapter_noop"
   ],
   "note": ""
  },
  {
   "property": "C33",
   "status": "partial",
   "theorems": [
    "Fcsql.C33_injective_partial",
    "Fcsql.C33_exact_partial",
    "Fcsql.C33_quote_refuted",
    "Fcsql.C33_newline_refuted",
    "Fcsql.C33_flags_shown",
    "Fcsql.C33_format",
    "Fcsql.C33_format_parsed"
   ],
   "note": "False in general (quotes and newlines are not escaped reversibly): refuted by two pairs of queries. Proved exactly (iff) for all pairs of returned trees whose literal values contain no double quote: same str iff same tree up to writing newline, CR, tab in values as escapes; hence injective for values without these. Default identifiers without space/colon assumed."
  },
  {
   "property": "C34",
   "status": "proved",
   "theorems": [
    "Fcsql.C34_verdict",
    "Fcsql.C34_issues"
   ],
   "note": ""
  },
  {
   "property": "C35",
   "status": "proved",
   "theorems": [
    "Fcsql.C35_raises_first",
    "Fcsql.C35_modes_agree",
    "Fcsql.C35_is_valid"
   ],
   "note": ""
  },
  {
   "property": "C36",
   "status": "proved",
   "theorems": [
    "Fcsql.C36_reusable",
    "Fcsql.C36_settings_kept"
   ],
   "note": ""
  },
  {
   "property": "C37",
   "status": "proved",
   "theorems": [
    "Fcsql.C37_modes_agree",
    "Fcsql.C37_verdict",
    "Fcsql.C37_defaults",
    "Fcsql.C37_unknown_version"
   ],
   "note": ""
  },
  {
   "property": "C38",
   "status": "partial",
   "theorems": [
    "Fcsql.C38_refuted",
    "Fcsql.C38_list_partial"
   ],
   "note": "Warnings are listed with return_errors=True only if warnings_as_errors is also set: refuted as documented; the returned list is characterised exactly in C38_list_partial."
  },
  {
   "property": "C39",
   "status": "proved",
   "theorems": [
    "Fcsql.C39_stricter"
   ],
   "note": ""
  },
  {
   "property": "C40",
   "status": "proved",
   "theorems": [
    "Fcsql.C40_positions"
   ],
   "note": ""
  },
  {
   "property": "C41",
   "status": "partial",
   "theorems": [
    "Fcsql.C41_details_partial",
    "Fcsql.C41_lexical_errors",
    "Fcsql.C41_single_line_partial",
    "Fcsql.C41_lexer_position_refuted"
   ],
   "note": "Parser error positions and fragments proved; for lexical errors the column is used as offset, wrong on multi-line queries (refuted), right on single-line ones."
  },
  {
   "property": "C42",
   "status": "proved",
   "theorems": [
    "Fcsql.C42_is_likely_a_regex"
   ],
   "note": ""
  },
  {
   "property": "C43",
   "status": "partial",
   "theorems": [
    "Fcsql.C43_parent_node_partial",
    "Fcsql.C43_parsed_partial",
    "Fcsql.C43_expression_parent_refuted",
    "Fcsql.C43_after_exception_refuted"
   ],
   "note": "parent_node is right for the non-Expression nodes of parsed trees; it is wrong for Expressions below And/Or/Not/Group, and after an exception left its stack filled: refuted there."
  },
  {
   "property": "C44",
   "status": "proved",
   "theorems": [
    "Fcsql.C44_within",
    "Fcsql.C44_other_word",
    "Fcsql.C44_root",
    "Fcsql.C44_within_located"
   ],
   "note": ""
  },
  {
   "property": "C45",
   "status": "proved",
   "theorems": [
    "Fcsql.C45_sequence",
    "Fcsql.C45_sequence_located"
   ],
   "note": ""
  },
  {
   "property": "C46",
   "status": "proved",
   "theorems": [
    "Fcsql.C46_disjunction",
    "Fcsql.C46_disjunction_located"
   ],
   "note": ""
  },
  {
   "property": "C47",
   "status": "proved",
   "theorems": [
    "Fcsql.C47_round_trip",
    "Fcsql.C47_round_trip_located",
    "Fcsql.C47_reprint",
    "Fcsql.C47_reprint_plain"
   ],
   "note": "(a) C47_round_trip(_located); (b) C47_reprint under NormOk (idempotence of the normalization on code point strings, true of the Unicode forms), without any assumption if normalization is off (C47_reprint_plain)."
  },
  {
   "property": "C48",
   "status": "proved",
   "theorems": [
    "Fcsql.C48_nothing_ignored",
    "Fcsql.C48_stray_end_is_error",
    "Fcsql.C48_trailing_garbage",
    "Fcsql.C48_stray"
   ],
   "note": ""
  },
  {
   "property": "C49",
   "status": "proved",
   "theorems": [
    "Fcsql.C49_layout",
    "Fcsql.C49_type_unique"
   ],
   "note": ""
  },
  {
   "property": "C50",
   "status": "proved",
   "theorems": [
    "Fcsql.C50_group",
    "Fcsql.C50_group_located"
   ],
   "note": ""
  },
  {
   "property": "C51",
   "status": "proved",
   "theorems": [
    "Fcsql.C51_quantifier",
    "Fcsql.C51_quantifier_located"
   ],
   "note": ""
  },
  {
   "property": "C52",
   "status": "proved",
   "theorems": [
    "Fcsql.C52_decodes",
    "Fcsql.C52_network_is_grammar"
   ],
   "note": ""
  },
  {
   "property": "C53",
   "status": "proved",
   "theorems": [
    "Fcsql.C53_always_ends",
    "Fcsql.C53_generated_parser"
   ],
   "note": "The prediction engine of the ANTLR runtime is a parameter; Predictor.Ideal states what is assumed of it (see DESIGN.md). Termination and soundness need only that it answers with existing alternatives."
  },
  {
   "property": "C54",
   "status": "proved",
   "theorems": [
    "Fcsql.C54_decodes",
    "Fcsql.C54_lexer_network",
    "Fcsql.C54_rules"
   ],
   "note": ""
  },
  {
   "property": "C55",
   "status": "partial",
   "theorems": [
    "Fcsql.C55_node_type_partial",
    "Fcsql.C55_query_group_refuted",
    "Fcsql.C55_none_raises"
   ],
   "note": "QueryGroup passes QUERY_SEGMENT to its base class: refuted for QueryGroup (C55_query_group_refuted), proved for all other classes."
  },
  {
   "property": "C56",
   "status": "partial",
   "theorems": [
    "Fcsql.C56_accessors_of_parsed",
    "Fcsql.C56_accessors_of_constructed",
    "Fcsql.C56_children_of_constructed",
    "Fcsql.C56_no_within_refuted"
   ],
   "note": "Proved for all parsed trees and for constructed nodes, except get_within of QueryWithWithin(query, None), which raises IndexError instead of returning None (C56_no_within_refuted)."
  },
  {
   "property": "C57",
   "status": "proved",
   "theorems": [
    "Fcsql.C57_expression"
   ],
   "note": ""
  },
  {
   "property": "C58",
   "status": "proved",
   "theorems": [
    "Fcsql.C58_parent_is_last_user",
    "Fcsql.C58_consistent_iff",
    "Fcsql.C58_parent_younger"
   ],
   "note": ""
  },
  {
   "property": "C59",
   "status": "proved",
   "theorems": [
    "Fcsql.C59_aggregate",
    "Fcsql.C59_count",
    "Fcsql.C59_last_child",
    "Fcsql.C59_search",
    "Fcsql.C59_protocol"
   ],
   "note": ""
  },
  {
   "property": "C60",
   "status": "proved",
   "theorems": [
    "Fcsql.C60_parse_depends_on_settings_only",
    "Fcsql.C60_errors_of_last_parse",
    "Fcsql.C60_no_errors_before_parse"
   ],
   "note": ""
  },
  {
   "property": "C61",
   "status": "proved",
   "theorems": [
    "Fcsql.C61_outcome_of_each_call",
    "Fcsql.C61_progress",
    "Fcsql.C61_errors_of_last_to_finish",
    "Fcsql.C61_errors_race"
   ],
   "note": "A call is modelled as a local computation (reading the settings) followed by the assignment to self.errors; the ANTLR prediction caches shared between parsers are the subject of C83. C61_errors_race shows a schedule in which a failing call finds the errors of another one."
  },
  {
   "property": "C62",
   "status": "proved",
   "theorems": [
    "Fcsql.C62_environment",
    "Fcsql.C62_any_environment"
   ],
   "note": ""
  },
  {
   "property": "C63",
   "status": "proved",
   "theorems": [
    "Fcsql.C63_names",
    "Fcsql.C63_index",
    "Fcsql.C63_every_child",
    "Fcsql.C63_bounds",
    "Fcsql.C63_one_child"
   ],
   "note": ""
  },
  {
   "property": "C64",
   "status": "proved",
   "theorems": [
    "Fcsql.C64_names",
    "Fcsql.C64_walk",
    "Fcsql.C64_tokens",
    "Fcsql.C64_faithful"
   ],
   "note": ""
  },
  {
   "property": "C65",
   "status": "proved",
   "theorems": [
    "Fcsql.C65_names",
    "Fcsql.C65_preorder",
    "Fcsql.C65_tokens",
    "Fcsql.C65_results"
   ],
   "note": ""
  },
  {
   "property": "C66",
   "status": "proved",
   "theorems": [
    "Fcsql.C66_fragment_is_query",
    "Fcsql.C66_trimmed",
    "Fcsql.C66_expression_fragment",
    "Fcsql.C66_content_fragment",
    "Fcsql.C66_not_for_and_not"
   ],
   "note": ""
  },
  {
   "property": "C67",
   "status": "proved",
   "theorems": [
    "Fcsql.C67_sequence",
    "Fcsql.C67_disjunction",
    "Fcsql.C67_whitespace_around",
    "Fcsql.C67_within",
    "Fcsql.C67_group",
    "Fcsql.C67_quantifier"
   ],
   "note": ""
  },
  {
   "property": "C68",
   "status": "proved",
   "theorems": [
    "Fcsql.C68_sequence",
    "Fcsql.C68_sequence_valid",
    "Fcsql.C68_disjunction",
    "Fcsql.C68_disjunction_valid",
    "Fcsql.C68_within",
    "Fcsql.C68_group",
    "Fcsql.C68_whitespace_around",
    "Fcsql.C68_quantifier"
   ],
   "note": ""
  },
  {
   "property": "C69",
   "status": "proved",
   "theorems": [
    "Fcsql.C69_depends_on",
    "Fcsql.C69_by_parts",
    "Fcsql.C69_only_expressions",
    "Fcsql.C69_more_layers",
    "Fcsql.C69_known_layers",
    "Fcsql.C69_more_qualifiers",
    "Fcsql.C69_no_qualifiers",
    "Fcsql.C69_empty_lists"
   ],
   "note": ""
  },
  {
   "property": "C70",
   "status": "proved",
   "theorems": [
    "Fcsql.C70_depth_bounded",
    "Fcsql.C70_depth_at_least",
    "Fcsql.C70_flat",
    "Fcsql.C70_calls",
    "Fcsql.C70_result",
    "Fcsql.C70_enough_room",
    "Fcsql.C70_less_room",
    "Fcsql.C70_builder",
    "Fcsql.C70_no_limit_is_enough"
   ],
   "note": ""
  },
  {
   "property": "C71",
   "status": "proved",
   "theorems": [
    "Fcsql.C71_same_meaning",
    "Fcsql.C71_unlocated",
    "Fcsql.C71_replace",
    "Fcsql.C71_literal",
    "Fcsql.C71_integer",
    "Fcsql.C71_flags",
    "Fcsql.C71_scope"
   ],
   "note": ""
  },
  {
   "property": "C72",
   "status": "proved",
   "theorems": [
    "Fcsql.C72_collects",
    "Fcsql.C72_raises_first",
    "Fcsql.C72_modes_agree",
    "Fcsql.C72_unused_handlers",
    "Fcsql.C72_found",
    "Fcsql.C72_reusable",
    "Fcsql.C72_reusable_parent",
    "Fcsql.C72_stale_parent"
   ],
   "note": ""
  },
  {
   "property": "C73",
   "status": "proved",
   "theorems": [
    "Fcsql.C73_get_child",
    "Fcsql.C73_first_last",
    "Fcsql.C73_parts",
    "Fcsql.C73_predicates",
    "Fcsql.C73_node_type"
   ],
   "note": ""
  },
  {
   "property": "C74",
   "status": "proved",
   "theorems": [
    "Fcsql.C74_dispatch",
    "Fcsql.C74_adapter_handlers",
    "Fcsql.C74_work"
   ],
   "note": ""
  },
  {
   "property": "C75",
   "status": "proved",
   "theorems": [
    "Fcsql.C75_lexical_errors",
    "Fcsql.C75_one_line",
    "Fcsql.C75_position"
   ],
   "note": ""
  },
  {
   "property": "C76",
   "status": "proved",
   "theorems": [
    "Fcsql.C76_like_blanks",
    "Fcsql.C76_parse_blanked",
    "Fcsql.C76_exists"
   ],
   "note": ""
  },
  {
   "property": "C77",
   "status": "proved",
   "theorems": [
    "Fcsql.C77_visitor",
    "Fcsql.C77_methods",
    "Fcsql.C77_parse",
    "Fcsql.C77_stack"
   ],
   "note": ""
  },
  {
   "property": "C78",
   "status": "proved",
   "theorems": [
    "Fcsql.C78_accepts",
    "Fcsql.C78_raises"
   ],
   "note": ""
  },
  {
   "property": "C79",
   "status": "proved",
   "theorems": [
    "Fcsql.C79_antlr_terminates",
    "Fcsql.C79_antlr_silent_iff_accepted",
    "Fcsql.C79_terminates",
    "Fcsql.C79_terminates_rule",
    "Fcsql.C79_silent_iff_accepted",
    "Fcsql.C79_reports",
    "Fcsql.C79_reports_ok"
   ],
   "note": "The C79_antlr_* theorems use the runtime's prediction as modelled (Model/Adaptive.lean) and assume nothing about prediction; the choices of the error strategy are universally quantified."
  },
  {
   "property": "C80",
   "status": "proved",
   "theorems": [
    "Fcsql.C80_malformed_iff",
    "Fcsql.C80_malformed_text",
    "Fcsql.C80_not_late",
    "Fcsql.C80_at_or_before",
    "Fcsql.C80_text_before"
   ],
   "note": "For the runtime's prediction as modelled (Strategy.Antlr, Spec/AntlrStrategy.lean); the choices of the error strategy are universally quantified. The exact place: C88."
  },
  {
   "property": "C81",
   "status": "proved",
   "theorems": [
    "Fcsql.C81_antlr_parse",
    "Fcsql.C81_one_line"
   ],
   "note": "For the runtime's prediction as modelled; the text after line and column is an arbitrary parameter."
  },
  {
   "property": "C82",
   "status": "proved",
   "theorems": [
    "Fcsql.C82_first_record",
    "Fcsql.C82_fragment"
   ],
   "note": "For the runtime's prediction as modelled; the interleaving of lexer and parser reports is arbitrary up to ReportedBy (Spec/Records.lean)."
  },
  {
   "property": "C83",
   "status": "proved",
   "theorems": [
    "Fcsql.C83_history",
    "Fcsql.C83_any_schedule",
    "Fcsql.C83_forgets"
   ],
   "note": "Relative to a simulation of the network that is right without caches (Simulator.Correct in Spec/Cache.lean; lookahead_correct is an instance). A look-up and the store after a miss are separate steps, other threads may act in between."
  },
  {
   "property": "C84",
   "status": "proved",
   "theorems": [
    "Fcsql.C84_antlr",
    "Fcsql.C84_ideal",
    "Fcsql.C84_returns",
    "Fcsql.C84_start_stop",
    "Fcsql.C84_interval",
    "Fcsql.C84_root",
    "Fcsql.C84_depth",
    "Fcsql.C84_location"
   ],
   "note": "Prediction is a parameter: the claims hold for every prediction with which the generated functions build the tree of every accepted query (Predictor.Parses); C84_ideal shows that ideal prediction does and C84_antlr that the modelled adaptive prediction of ANTLR does. Cursor, contexts and methods are modelled."
  },
  {
   "property": "C85",
   "status": "proved",
   "theorems": [
    "Fcsql.C85_string_tree",
    "Fcsql.C85_reads_back",
    "Fcsql.C85_tokens",
    "Fcsql.C85_same_meaning",
    "Fcsql.C85_tab_ambiguous",
    "Fcsql.C85_example"
   ],
   "note": ""
  },
  {
   "property": "C86",
   "status": "proved",
   "theorems": [
    "Fcsql.C86_complaint",
    "Fcsql.C86_accepted",
    "Fcsql.C86_one_complaint",
    "Fcsql.C86_settings"
   ],
   "note": ""
  },
  {
   "property": "C87",
   "status": "proved",
   "theorems": [
    "Fcsql.C87_predict",
    "Fcsql.C87_range",
    "Fcsql.C87_stops_at_eof",
    "Fcsql.C87_sync",
    "Fcsql.C87_generated_parser",
    "Fcsql.C87_history",
    "Fcsql.C87_any_schedule"
   ],
   "note": "ParserATNSimulator of the runtime library is modelled after its published algorithm (Model/Adaptive.lean); it is not part of /repo."
  },
  {
   "property": "C88",
   "status": "partial",
   "theorems": [
    "Fcsql.C88_early_partial",
    "Fcsql.C88_not_exact_partial",
    "Fcsql.C88_first_error_partial",
    "Fcsql.C88_text_through_partial"
   ],
   "note": "False for the code: C88_early_partial (on 'x'|'y'[a='b'|c='d'&] the error is reported at &, though the operand after it is missing). Proved for prediction that looks ahead as far as it can in the real calling context (Strategy.Exact); what holds unconditionally is C80."
  },
  {
   "property": "C89",
   "status": "proved",
   "theorems": [
    "Fcsql.C89_determined",
    "Fcsql.C89_same_records",
    "Fcsql.C89_exists",
    "Fcsql.C89_records",
    "Fcsql.C89_first_record"
   ],
   "note": "Runtime.Antlr: the syntax errors are those of a model of the published DefaultErrorStrategy (Model/ErrorStrategy). Records are not in textual order in general (example: pos $ = # 'a')."
  },
  {
   "property": "C90",
   "status": "proved",
   "theorems": [
    "Fcsql.C90_worded",
    "Fcsql.C90_syntax_error",
    "Fcsql.C90_readable"
   ],
   "note": "Forms are defined in Spec/Messages (Worded), independently of the model."
  },
  {
   "property": "C91",
   "status": "proved",
   "theorems": [
    "Fcsql.C91_first_message",
    "Fcsql.C91_advice",
    "Fcsql.C91_record"
   ],
   "note": "Soundness of the lists; they need not be complete (example beside the theorem)."
  },
  {
   "property": "C92",
   "status": "proved",
   "theorems": [
    "Fcsql.C92_reports",
    "Fcsql.C92_records",
    "Fcsql.C92_tight",
    "Fcsql.C92_unordered",
    "Fcsql.C92_repeated",
    "Fcsql.C92_goes_on"
   ],
   "note": "Witnesses C92_unordered, C92_repeated, C92_goes_on are concrete queries run by the kernel; the bounds are for all queries."
  },
  {
   "property": "C93",
   "status": "proved",
   "theorems": [
    "Fcsql.C93_lexer_runs",
    "Fcsql.C93_lexer_network",
    "Fcsql.C93_tokens",
    "Fcsql.C93_reports"
   ],
   "note": "About the published algorithm of antlr4.Lexer and LexerATNSimulator (not in /repo), modelled function by function in Model/LexerSim.lean, run on the tables decoded from FCSLexer.py. The pieces are those of C14-C16 (longest match, first rule) and, by C93_lexer_network, of the paths of the network."
  },
  {
   "property": "C94",
   "status": "proved",
   "theorems": [
    "Fcsql.C94_bounded",
    "Fcsql.C94_shared",
    "Fcsql.C94_any_schedule"
   ],
   "note": "28 open calls of closure; the shared DFA is an arbitrary store of right entries, changed by other threads before every access."
  },
  {
   "property": "C95",
   "status": "proved",
   "theorems": [
    "Fcsql.C95_program"
   ],
   "note": "Model/Program.lean interleaves the lexer of C93, a token buffer that fetches on demand, the generated functions with prediction (C87) and the error strategy (C89), and the tree builder (C77); the published runtime library is not in /repo."
  },
  {
   "property": "C96",
   "status": "proved",
   "theorems": [
    "Fcsql.C96_program"
   ],
   "note": "Same run as in C95 with the console listener and ExceptionThrowingErrorListener."
  },
  {
   "property": "C97",
   "status": "proved",
   "theorems": [
    "Fcsql.C97_process",
    "Fcsql.C97_errors"
   ],
   "note": "Threads are trees of actions on the shared state (DFA look-ups and stores of lexer and parser, errors attributes); all schedules, and look-ups may miss at any time."
  },
  {
   "property": "C98",
   "status": "proved",
   "theorems": [
    "Fcsql.C98_comparisons",
    "Fcsql.C98_census",
    "Fcsql.C98_size",
    "Fcsql.C98_contexts",
    "Fcsql.C98_calls",
    "Fcsql.C98_issues"
   ],
   "note": "The comparisons are read off the token sequence alone (Spec/Census). Tight: a sequence of words has 2k+1 nodes, a layer with a bad qualifier two issues."
  },
  {
   "property": "C99",
   "status": "proved",
   "theorems": [
    "Fcsql.C99_parse",
    "Fcsql.C99_builder",
    "Fcsql.C99_log",
    "Fcsql.C99_error_log",
    "Fcsql.C99_caret",
    "Fcsql.C99_names",
    "Fcsql.C99_eof_names",
    "Fcsql.C99_visitor",
    "Fcsql.C99_visitor_unnamed",
    "Fcsql.C99_visiting"
   ],
   "note": "Records are kept as arguments of the log call; handlers, addresses of contexts and token indices are left out."
  },
  {
   "property": "C100",
   "status": "proved",
   "theorems": [
    "Fcsql.C100_history",
    "Fcsql.C100_initial",
    "Fcsql.C100_syntax",
    "Fcsql.C100_reporter",
    "Fcsql.C100_configured",
    "Fcsql.C100_own_raise"
   ],
   "note": "Validators overriding validate itself or raising other exceptions are left out. C100_own_raise: the promised list depends on the validator using validation_error."
  },
  {
   "property": "C101",
   "status": "proved",
   "theorems": [
    "Fcsql.C101_lexing",
    "Fcsql.C101_lexing_empty",
    "Fcsql.C101_predictions_exact",
    "Fcsql.C101_predictions",
    "Fcsql.C101_lookahead"
   ],
   "note": "Counts looks at characters, predictions and looks at tokens; not the configurations handled at each look. Predictions are counted for accepted queries (C105 bounds them for all queries); the lexer's looks for every text. The bounds are attained (C101_lexing, C101_predictions)."
  },
  {
   "property": "C102",
   "status": "proved",
   "theorems": [
    "Fcsql.C102_parse",
    "Fcsql.C102_interrupt",
    "Fcsql.C102_history",
    "Fcsql.C102_antlr",
    "Fcsql.C102_recursion"
   ],
   "note": "Moments: every statement of the rule functions, with any part of its listener calls done; before and after every method of the tree builder; the statements of parse. What arrives is not an exception the code catches by name (ValueError, RecognitionException, its own ones)."
  },
  {
   "property": "C103",
   "status": "proved",
   "theorems": [
    "Fcsql.C103_can_parse",
    "Fcsql.C103_validate",
    "Fcsql.C103_never_wrongly_valid"
   ],
   "note": "What arrives while the validator runs, or later, leaves validate (it is not a SpecificationValidationError)."
  },
  {
   "property": "C104",
   "status": "proved",
   "theorems": [
    "Fcsql.C104_pending",
    "Fcsql.C104_antlr",
    "Fcsql.C104_enough_room",
    "Fcsql.C104_flat",
    "Fcsql.C104_linear",
    "Fcsql.C104_exact",
    "Fcsql.C104_no_limit_is_enough"
   ],
   "note": "About the calls of the rule functions of the generated parser; the frames the runtime adds on top of them (prediction, error strategy, lexer) have a depth of their own, the tree builder's depth is C70."
  },
  {
   "property": "C105",
   "status": "proved",
   "theorems": [
    "Fcsql.C105_work",
    "Fcsql.C105_ends",
    "Fcsql.C105_programs",
    "Fcsql.C105_lookahead",
    "Fcsql.C105_accepted"
   ],
   "note": "The statements are those of the generated rule functions (sync, match, predictions, calls, branches, loops); what the runtime does inside one sync, match, prediction or recovery is not counted as steps, except the looks of predictions at tokens. The constants are upper bounds, not attained."
  },
  {
   "property": "C106",
   "status": "proved",
   "theorems": [
    "Fcsql.C106_lexer",
    "Fcsql.C106_lexer_alone",
    "Fcsql.C106_parser",
    "Fcsql.C106_same",
    "Fcsql.C106_kept",
    "Fcsql.C106_unbounded",
    "Fcsql.C106_settled",
    "Fcsql.C106_again"
   ],
   "note": "Counts entries, not bytes. The lexer's table is that of Model/LexerCache (all edges, also those to the error state); the parser's are those of Model/Cache, whose states are sets of configurations with one stack each; the library merges stacks into graphs, and different sets stay different. sharedContextCache is not modelled. What error recovery stores after the first reported error is left to the other threads."
  },
  {
   "property": "C107",
   "status": "proved",
   "theorems": [
    "Fcsql.C107_tree",
    "Fcsql.C107_tokens",
    "Fcsql.C107_accepted",
    "Fcsql.C107_silent",
    "Fcsql.C107_damaged"
   ],
   "note": "Runtime library (consume, match, DefaultErrorStrategy) modelled after its published code; see DESIGN.md."
  },
  {
   "property": "C108",
   "status": "proved",
   "theorems": [
    "Fcsql.C108_conforms",
    "Fcsql.C108_rule",
    "Fcsql.C108_everywhere",
    "Fcsql.C108_query",
    "Fcsql.C108_segment",
    "Fcsql.C108_reports"
   ],
   "note": "Runtime library modelled as in C107. A group of alternative tokens may be missing without a node because the generated code does not add one for a token made up there; no query was found for which that happens."
  }
 ]
}