'Fcsql.C87_predict' depends on axioms: [propext, Classical.choice, Quot.sound]
'Fcsql.C87_range' depends on axioms: [propext, Classical.choice, Quot.sound]
'Fcsql.C87_stops_at_eof' depends on axioms: [propext, Classical.choice, Quot.sound]
'Fcsql.C87_sync' depends on axioms: [propext, Classical.choice, Quot.sound]
'Fcsql.C87_generated_parser' depends on axioms: [propext, Classical.choice, Quot.sound]
'Fcsql.C84_antlr' depends on axioms: [propext, Classical.choice, Quot.sound]
'Fcsql.C87_history' depends on axioms: [propext, Classical.choice, Quot.sound]
'Fcsql.C87_any_schedule' depends on axioms: [propext, Classical.choice, Quot.sound]
'Fcsql.C59_aggregate' does not depend on any axioms
'Fcsql.C59_count' depends on axioms: [propext, Quot.sound]
'Fcsql.C59_last_child' depends on axioms: [propext, Classical.choice, Quot.sound]
'Fcsql.C59_search' depends on axioms: [propext, Quot.sound]
'Fcsql.C59_protocol' depends on axioms: [propext, Quot.sound]
'Fcsql.C81_antlr_parse' depends on axioms: [propext, Classical.choice, Quot.sound]
'Fcsql.C81_one_line' depends on axioms: [propext, Classical.choice, Quot.sound]
'Fcsql.C28_get_child_partial' depends on axioms: [propext, Quot.sound]
'Fcsql.C28_refuted' depends on axioms: [propext, Quot.sound]
'Fcsql.C28_get_child_of_class' depends on axioms: [propext, Quot.sound]
'Fcsql.C28_base_class' depends on axioms: [propext, Quot.sound]
'Fcsql.C29_get_first_child' depends on axioms: [propext, Quot.sound]
'Fcsql.C29_get_last_child' depends on axioms: [propext, Quot.sound]
'Fcsql.C29_get_last_child_of_class_partial' depends on axioms: [propext, Quot.sound]
'Fcsql.C29_refuted' depends on axioms: [propext]
'Fcsql.C30_simple_predicates' depends on axioms: [propext, Quot.sound]
'Fcsql.C30_qualifier_empty_refuted' depends on axioms: [propext, Quot.sound]
'Fcsql.C30_flags_empty_refuted' depends on axioms: [propext, Quot.sound]
'Fcsql.C30_has_qualifier_refuted' depends on axioms: [propext, Quot.sound]
'Fcsql.C76_like_blanks' depends on axioms: [propext, Classical.choice, Quot.sound]
'Fcsql.C76_parse_blanked' depends on axioms: [propext, Classical.choice, Quot.sound]
'Fcsql.C76_exists' depends on axioms: [propext, Classical.choice, Quot.sound]
'Fcsql.C83_history' depends on axioms: [propext, Classical.choice, Quot.sound]
'Fcsql.C83_any_schedule' depends on axioms: [propext, Classical.choice, Quot.sound]
'Fcsql.C83_forgets' depends on axioms: [propext, Classical.choice, Quot.sound]
'Fcsql.C98_comparisons' depends on axioms: [propext, Classical.choice, Quot.sound]
'Fcsql.C98_census' depends on axioms: [propext, Classical.choice, Quot.sound]
'Fcsql.C98_size' depends on axioms: [propext, Classical.choice, Quot.sound]
'Fcsql.C98_contexts' depends on axioms: [propext, Classical.choice, Quot.sound]
'Fcsql.C98_calls' depends on axioms: [propext, Classical.choice, Quot.sound]
'Fcsql.C98_issues' depends on axioms: [propext, Classical.choice, Quot.sound]
'Fcsql.C86_complaint' depends on axioms: [propext, Classical.choice, Quot.sound]
'Fcsql.C86_accepted' depends on axioms: [propext, Classical.choice, Quot.sound]
'Fcsql.C86_one_complaint' depends on axioms: [propext, Classical.choice, Quot.sound]
'Fcsql.C86_settings' depends on axioms: [propext, Classical.choice, Quot.sound]
'Fcsql.C44_within' depends on axioms: [propext, Classical.choice, Quot.sound]
'Fcsql.C44_other_word' depends on axioms: [propext, Classical.choice, Quot.sound]
'Fcsql.C44_root' depends on axioms: [propext, Classical.choice, Quot.sound]
'Fcsql.C44_within_located' depends on axioms: [propext, Classical.choice, Quot.sound]
'Fcsql.C45_sequence' depends on axioms: [propext, Classical.choice, Quot.sound]
'Fcsql.C45_sequence_located' depends on axioms: [propext, Classical.choice, Quot.sound]
'Fcsql.C46_disjunction' depends on axioms: [propext, Classical.choice, Quot.sound]
'Fcsql.C46_disjunction_located' depends on axioms: [propext, Classical.choice, Quot.sound]
'Fcsql.C108_conforms' depends on axioms: [propext, Classical.choice, Quot.sound]
'Fcsql.C108_rule' depends on axioms: [propext, Classical.choice, Quot.sound]
'Fcsql.C108_everywhere' depends on axioms: [propext, Classical.choice, Quot.sound]
'Fcsql.C108_query' depends on axioms: [propext, Classical.choice, Quot.sound]
'Fcsql.C108_segment' depends on axioms: [propext, Classical.choice, Quot.sound]
'Fcsql.C108_reports' depends on axioms: [propext, Classical.choice, Quot.sound]
'Fcsql.C63_names' does not depend on any axioms
'Fcsql.C63_index' depends on axioms: [propext, Quot.sound]
'Fcsql.C63_every_child' depends on axioms: [propext, Classical.choice, Quot.sound]
'Fcsql.C63_bounds' depends on axioms: [propext, Classical.choice, Quot.sound]
'Fcsql.C63_one_child' depends on axioms: [propext, Classical.choice, Quot.sound]
'Fcsql.C64_names' depends on axioms: [propext, Quot.sound]
'Fcsql.C64_walk' depends on axioms: [propext, Quot.sound]
'Fcsql.C64_tokens' depends on axioms: [propext, Classical.choice, Quot.sound]
'Fcsql.C64_faithful' depends on axioms: [propext]
'Fcsql.C65_names' depends on axioms: [propext, Quot.sound]
'Fcsql.C65_preorder' depends on axioms: [propext, Quot.sound]
'Fcsql.C65_tokens' depends on axioms: [propext, Classical.choice, Quot.sound]
'Fcsql.C65_results' depends on axioms: [propext, Quot.sound]
'Fcsql.C72_collects' depends on axioms: [propext, Classical.choice, Quot.sound]
'Fcsql.C72_raises_first' depends on axioms: [propext, Quot.sound]
'Fcsql.C72_modes_agree' depends on axioms: [propext, Classical.choice, Quot.sound]
'Fcsql.C72_unused_handlers' depends on axioms: [propext, Classical.choice, Quot.sound]
'Fcsql.C72_found' depends on axioms: [propext]
'Fcsql.C72_reusable' depends on axioms: [propext, Classical.choice, Quot.sound]
'Fcsql.C72_reusable_parent' depends on axioms: [propext, Classical.choice, Quot.sound]
'Fcsql.C72_stale_parent' depends on axioms: [propext, Quot.sound]
'Fcsql.C99_parse' depends on axioms: [propext, Quot.sound]
'Fcsql.C99_builder' depends on axioms: [propext, Quot.sound]
'Fcsql.C99_log' depends on axioms: [propext, Classical.choice, Quot.sound]
'Fcsql.C99_error_log' depends on axioms: [propext, Classical.choice, Quot.sound]
'Fcsql.C99_caret' depends on axioms: [propext, Classical.choice, Quot.sound]
'Fcsql.C99_names' depends on axioms: [propext, Classical.choice, Quot.sound]
'Fcsql.C99_eof_names' depends on axioms: [propext]
'Fcsql.C99_visitor' depends on axioms: [propext, Quot.sound]
'Fcsql.C99_visitor_unnamed' depends on axioms: [propext]
'Fcsql.C99_visiting' depends on axioms: [propext, Quot.sound]
'Fcsql.C22_defaults_exact' depends on axioms: [propext, Classical.choice, Quot.sound]
'Fcsql.C70_depth_bounded' depends on axioms: [propext, Classical.choice, Quot.sound]
'Fcsql.C70_depth_at_least' depends on axioms: [propext, Classical.choice, Quot.sound]
'Fcsql.C70_flat' depends on axioms: [propext, Classical.choice, Quot.sound]
'Fcsql.C70_calls' depends on axioms: [propext, Classical.choice, Quot.sound]
'Fcsql.C70_result' depends on axioms: [propext, Classical.choice, Quot.sound]
'Fcsql.C70_enough_room' depends on axioms: [propext, Classical.choice, Quot.sound]
'Fcsql.C70_less_room' depends on axioms: [propext, Quot.sound]
'Fcsql.C70_builder' depends on axioms: [propext, Quot.sound]
'Fcsql.C70_no_limit_is_enough' depends on axioms: [propext, Classical.choice, Quot.sound]
'Fcsql.C88_early_partial' depends on axioms: [propext, Classical.choice, Quot.sound]
'Fcsql.C88_not_exact_partial' depends on axioms: [propext, Classical.choice, Quot.sound]
'Fcsql.C01_catch_all_only_chr_overflow' depends on axioms: [propext, Classical.choice, Quot.sound]
'Fcsql.C01_overflow_reaches_catch_all' depends on axioms: [propext]
'Fcsql.C01_outcomes' depends on axioms: [propext, Classical.choice, Quot.sound]
'Fcsql.C02_acceptance' depends on axioms: [propext, Classical.choice, Quot.sound]
'Fcsql.C02_literal_check' depends on axioms: [propext, Quot.sound]
'Fcsql.C03_errors_reflect_last_parse' depends on axioms: [propext, Classical.choice, Quot.sound]
'Fcsql.C03_history_independent' depends on axioms: [propext]
'Fcsql.C04_can_parse' depends on axioms: [propext, Classical.choice, Quot.sound]
'Fcsql.C05_antlr_parse_partial' depends on axioms: [propext, Classical.choice, Quot.sound]
'Fcsql.C05_antlr_parse_ignores_lexical_errors' depends on axioms: [propext]
'Fcsql.C62_environment' depends on axioms: [propext, Classical.choice, Quot.sound]
'Fcsql.C62_any_environment' depends on axioms: [propext, Classical.choice, Quot.sound]
'Fcsql.C22_default_settings' depends on axioms: [propext, Classical.choice, Quot.sound]
'Fcsql.C24_default_settings' depends on axioms: [propext, Classical.choice, Quot.sound]
'Fcsql.C107_tree' depends on axioms: [propext, Classical.choice, Quot.sound]
'Fcsql.C107_tokens' depends on axioms: [propext, Classical.choice, Quot.sound]
'Fcsql.C107_accepted' depends on axioms: [propext, Classical.choice, Quot.sound]
'Fcsql.C107_silent' depends on axioms: [propext, Classical.choice, Quot.sound]
'Fcsql.C107_damaged' depends on axioms: [propext, Classical.choice, Quot.sound]
'Fcsql.C105_work' depends on axioms: [propext, Classical.choice, Quot.sound]
'Fcsql.C105_ends' depends on axioms: [propext, Classical.choice, Quot.sound]
'Fcsql.C105_programs' depends on axioms: [propext, Classical.choice, Quot.sound]
'Fcsql.C105_lookahead' depends on axioms: [propext, Classical.choice, Quot.sound]
'Fcsql.C105_accepted' depends on axioms: [propext, Classical.choice, Quot.sound]
'Fcsql.C41_details_partial' depends on axioms: [propext, Classical.choice, Quot.sound]
'Fcsql.C41_lexical_errors' depends on axioms: [propext, Classical.choice, Quot.sound]
'Fcsql.C41_single_line_partial' depends on axioms: [propext, Quot.sound]
'Fcsql.C41_lexer_position_refuted' depends on axioms: [propext]
'Fcsql.C73_get_child' depends on axioms: [propext, Quot.sound]
'Fcsql.C73_first_last' depends on axioms: [propext, Quot.sound]
'Fcsql.C73_parts' depends on axioms: [propext, Quot.sound]
'Fcsql.C73_predicates' depends on axioms: [propext, Classical.choice, Quot.sound]
'Fcsql.C73_node_type' depends on axioms: [propext]
'Fcsql.C74_dispatch' does not depend on any axioms
'Fcsql.C74_adapter_handlers' depends on axioms: [propext, Quot.sound]
'Fcsql.C74_work' depends on axioms: [propext, Quot.sound]
'Fcsql.C75_lexical_errors' depends on axioms: [propext, Classical.choice, Quot.sound]
'Fcsql.C75_one_line' depends on axioms: [propext, Classical.choice, Quot.sound]
'Fcsql.C75_position' depends on axioms: [propext, Classical.choice, Quot.sound]
'Fcsql.C102_parse' depends on axioms: [propext, Classical.choice, Quot.sound]
'Fcsql.C102_interrupt' depends on axioms: [propext, Classical.choice, Quot.sound]
'Fcsql.C102_history' depends on axioms: [propext, Classical.choice, Quot.sound]
'Fcsql.C102_antlr' depends on axioms: [propext, Classical.choice, Quot.sound]
'Fcsql.C102_recursion' depends on axioms: [propext, Classical.choice, Quot.sound]
'Fcsql.C103_can_parse' depends on axioms: [propext, Classical.choice, Quot.sound]
'Fcsql.C103_validate' depends on axioms: [propext, Classical.choice, Quot.sound]
'Fcsql.C103_never_wrongly_valid' depends on axioms: [propext, Classical.choice, Quot.sound]
'Fcsql.C92_reports' depends on axioms: [propext, Classical.choice, Quot.sound]
'Fcsql.C92_records' depends on axioms: [propext, Classical.choice, Quot.sound]
'Fcsql.C92_tight' depends on axioms: [propext, Classical.choice, Quot.sound]
'Fcsql.C92_unordered' depends on axioms: [propext, Classical.choice, Quot.sound]
'Fcsql.C92_repeated' depends on axioms: [propext, Classical.choice, Quot.sound]
'Fcsql.C92_goes_on' depends on axioms: [propext, Classical.choice, Quot.sound]
'Fcsql.C80_malformed_iff' depends on axioms: [propext, Classical.choice, Quot.sound]
'Fcsql.C88_first_error_partial' depends on axioms: [propext, Classical.choice, Quot.sound]
'Fcsql.C80_malformed_text' depends on axioms: [propext, Classical.choice, Quot.sound]
'Fcsql.C88_text_through_partial' depends on axioms: [propext, Classical.choice, Quot.sound]
'Fcsql.C66_fragment_is_query' depends on axioms: [propext, Classical.choice, Quot.sound]
'Fcsql.C66_trimmed' depends on axioms: [propext, Classical.choice, Quot.sound]
'Fcsql.C66_expression_fragment' depends on axioms: [propext, Classical.choice, Quot.sound]
'Fcsql.C66_content_fragment' depends on axioms: [propext, Classical.choice, Quot.sound]
'Fcsql.C66_not_for_and_not' depends on axioms: [propext]
'Fcsql.C52_decodes' depends on axioms: [propext]
'Fcsql.C52_network_is_grammar' depends on axioms: [propext, Quot.sound]
'Fcsql.C53_always_ends' depends on axioms: [propext, Quot.sound]
'Fcsql.C53_generated_parser' depends on axioms: [propext, Classical.choice, Quot.sound]
'Fcsql.C54_decodes' depends on axioms: [propext]
'Fcsql.C54_lexer_network' depends on axioms: [propext, Classical.choice, Quot.sound]
'Fcsql.C54_rules' depends on axioms: [propext, Quot.sound]
'Fcsql.C09_derivation_tree' depends on axioms: [propext, Classical.choice, Quot.sound]
'Fcsql.C09_query_parser' depends on axioms: [propext, Classical.choice, Quot.sound]
'Fcsql.C10_no_false_errors' depends on axioms: [propext, Classical.choice, Quot.sound]
'Fcsql.C10_no_errors' depends on axioms: [propext, Classical.choice, Quot.sound]
'Fcsql.C11_lowest_alternative' depends on axioms: [propext, Classical.choice, Quot.sound]
'Fcsql.C11_unique' depends on axioms: [propext, Classical.choice, Quot.sound]
'Fcsql.C50_group' depends on axioms: [propext, Classical.choice, Quot.sound]
'Fcsql.C50_group_located' depends on axioms: [propext, Classical.choice, Quot.sound]
'Fcsql.C51_quantifier' depends on axioms: [propext, Classical.choice, Quot.sound]
'Fcsql.C51_quantifier_located' depends on axioms: [propext, Classical.choice, Quot.sound]
'Fcsql.C91_first_message' depends on axioms: [propext, Classical.choice, Quot.sound]
'Fcsql.C91_advice' depends on axioms: [propext, Classical.choice, Quot.sound]
'Fcsql.C91_record' depends on axioms: [propext, Classical.choice, Quot.sound]
'Fcsql.C58_parent_is_last_user' depends on axioms: [propext, Classical.choice, Quot.sound]
'Fcsql.C58_consistent_iff' depends on axioms: [propext, Classical.choice, Quot.sound]
'Fcsql.C58_parent_younger' depends on axioms: [propext, Classical.choice, Quot.sound]
'Fcsql.C60_parse_depends_on_settings_only' depends on axioms: [propext, Classical.choice, Quot.sound]
'Fcsql.C60_errors_of_last_parse' depends on axioms: [propext, Classical.choice, Quot.sound]
'Fcsql.C60_no_errors_before_parse' depends on axioms: [propext, Classical.choice, Quot.sound]
'Fcsql.C61_outcome_of_each_call' depends on axioms: [propext]
'Fcsql.C61_progress' depends on axioms: [propext, Quot.sound]
'Fcsql.C61_errors_of_last_to_finish' depends on axioms: [propext]
'Fcsql.C61_errors_race' depends on axioms: [propext]
'Fcsql.C49_layout' depends on axioms: [propext, Classical.choice, Quot.sound]
'Fcsql.C49_type_unique' depends on axioms: [propext, Classical.choice, Quot.sound]
'Fcsql.C08_layout' depends on axioms: [propext, Classical.choice, Quot.sound]
'Fcsql.C08_unlocated' depends on axioms: [propext, Classical.choice, Quot.sound]
'Fcsql.C08_whitespace_irrelevant' depends on axioms: [propext, Classical.choice, Quot.sound]
'Fcsql.C93_lexer_runs' depends on axioms: [propext, Classical.choice, Quot.sound]
'Fcsql.C93_lexer_network' depends on axioms: [propext, Classical.choice, Quot.sound]
'Fcsql.C93_tokens' depends on axioms: [propext, Classical.choice, Quot.sound]
'Fcsql.C93_reports' depends on axioms: [propext, Classical.choice, Quot.sound]
'Fcsql.C94_bounded' depends on axioms: [propext, Classical.choice, Quot.sound]
'Fcsql.C94_shared' depends on axioms: [propext, Classical.choice, Quot.sound]
'Fcsql.C94_any_schedule' depends on axioms: [propext, Classical.choice, Quot.sound]
'Fcsql.C06_maximal_munch' depends on axioms: [propext, Classical.choice, Quot.sound]
'Fcsql.C06_split_unique' depends on axioms: [propext, Classical.choice, Quot.sound]
'Fcsql.C07_pieces_tile' depends on axioms: [propext, Classical.choice, Quot.sound]
'Fcsql.C07_tokens' depends on axioms: [propext, Classical.choice, Quot.sound]
'Fcsql.C07_outside_tokens' depends on axioms: [propext, Classical.choice, Quot.sound]
'Fcsql.C48_nothing_ignored' depends on axioms: [propext, Classical.choice, Quot.sound]
'Fcsql.C48_stray_end_is_error' depends on axioms: [propext, Classical.choice, Quot.sound]
'Fcsql.C48_trailing_garbage' depends on axioms: [propext, Classical.choice, Quot.sound]
'Fcsql.C48_stray' depends on axioms: [propext, Classical.choice, Quot.sound]
'Fcsql.C25_locations' depends on axioms: [propext, Classical.choice, Quot.sound]
'Fcsql.C26_fragment' depends on axioms: [propext, Classical.choice, Quot.sound]
'Fcsql.C106_lexer' depends on axioms: [propext, Classical.choice, Quot.sound]
'Fcsql.C106_lexer_alone' depends on axioms: [propext, Classical.choice, Quot.sound]
'Fcsql.C106_parser' depends on axioms: [propext, Classical.choice, Quot.sound]
'Fcsql.C106_same' depends on axioms: [propext, Quot.sound]
'Fcsql.C106_kept' depends on axioms: [propext, Quot.sound]
'Fcsql.C106_unbounded' depends on axioms: [propext, Classical.choice, Quot.sound]
'Fcsql.C106_settled' depends on axioms: [propext, Quot.sound]
'Fcsql.C106_again' depends on axioms: [propext, Classical.choice, Quot.sound]
'Fcsql.C89_determined' depends on axioms: [propext, Classical.choice, Quot.sound]
'Fcsql.C89_same_records' depends on axioms: [propext, Classical.choice, Quot.sound]
'Fcsql.C89_exists' depends on axioms: [propext, Classical.choice, Quot.sound]
'Fcsql.C89_records' depends on axioms: [propext, Classical.choice, Quot.sound]
'Fcsql.C89_first_record' depends on axioms: [propext, Classical.choice, Quot.sound]
'Fcsql.C90_worded' depends on axioms: [propext, Classical.choice, Quot.sound]
'Fcsql.C90_syntax_error' depends on axioms: [propext, Classical.choice, Quot.sound]
'Fcsql.C90_readable' depends on axioms: [propext, Quot.sound]
'Fcsql.C79_antlr_terminates' depends on axioms: [propext, Classical.choice, Quot.sound]
'Fcsql.C79_antlr_silent_iff_accepted' depends on axioms: [propext, Classical.choice, Quot.sound]
'Fcsql.C80_not_late' depends on axioms: [propext, Classical.choice, Quot.sound]
'Fcsql.C80_at_or_before' depends on axioms: [propext, Classical.choice, Quot.sound]
'Fcsql.C80_text_before' depends on axioms: [propext, Classical.choice, Quot.sound]
'Fcsql.C55_node_type_partial' depends on axioms: [propext]
'Fcsql.C55_query_group_refuted' depends on axioms: [propext]
'Fcsql.C55_none_raises' does not depend on any axioms
'Fcsql.C56_accessors_of_parsed' depends on axioms: [propext, Classical.choice, Quot.sound]
'Fcsql.C56_accessors_of_constructed' depends on axioms: [propext]
'Fcsql.C56_children_of_constructed' depends on axioms: [propext]
'Fcsql.C56_no_within_refuted' depends on axioms: [propext]
'Fcsql.C57_expression' depends on axioms: [propext, Classical.choice, Quot.sound]
'Fcsql.C27_parent_links' depends on axioms: [propext, Classical.choice, Quot.sound]
'Fcsql.C27_same_exception' depends on axioms: [propext, Classical.choice, Quot.sound]
'Fcsql.C27_one_parent' depends on axioms: [propext]
'Fcsql.C43_parent_node_partial' depends on axioms: [propext, Quot.sound]
'Fcsql.C43_parsed_partial' depends on axioms: [propext, Classical.choice, Quot.sound]
'Fcsql.C43_expression_parent_refuted' depends on axioms: [propext]
'Fcsql.C43_after_exception_refuted' depends on axioms: [propext, Quot.sound]
'Fcsql.C104_pending' depends on axioms: [propext, Classical.choice, Quot.sound]
'Fcsql.C104_antlr' depends on axioms: [propext, Classical.choice, Quot.sound]
'Fcsql.C104_enough_room' depends on axioms: [propext, Classical.choice, Quot.sound]
'Fcsql.C104_flat' depends on axioms: [propext, Classical.choice, Quot.sound]
'Fcsql.C104_linear' depends on axioms: [propext, Classical.choice, Quot.sound]
'Fcsql.C104_exact' depends on axioms: [propext, Classical.choice, Quot.sound]
'Fcsql.C104_no_limit_is_enough' depends on axioms: [propext, Classical.choice, Quot.sound]
'Fcsql.C78_accepts' depends on axioms: [propext, Classical.choice, Quot.sound]
'Fcsql.C78_raises' depends on axioms: [propext, Classical.choice, Quot.sound]
'Fcsql.C67_sequence' depends on axioms: [propext, Classical.choice, Quot.sound]
'Fcsql.C67_disjunction' depends on axioms: [propext, Classical.choice, Quot.sound]
'Fcsql.C67_whitespace_around' depends on axioms: [propext, Classical.choice, Quot.sound]
'Fcsql.C67_within' depends on axioms: [propext, Classical.choice, Quot.sound]
'Fcsql.C67_group' depends on axioms: [propext, Classical.choice, Quot.sound]
'Fcsql.C67_quantifier' depends on axioms: [propext, Classical.choice, Quot.sound]
'Fcsql.C12_precedence_iff' depends on axioms: [propext, Classical.choice, Quot.sound]
'Fcsql.C12_precedence_located_iff' depends on axioms: [propext, Classical.choice, Quot.sound]
'Fcsql.C12_without_negation' depends on axioms: [propext, Classical.choice, Quot.sound]
'Fcsql.C12_at_most_one_or' depends on axioms: [propext, Classical.choice, Quot.sound]
'Fcsql.C12_negation_swallows' depends on axioms: [propext]
'Fcsql.C97_process' depends on axioms: [propext, Classical.choice, Quot.sound]
'Fcsql.C97_errors' depends on axioms: [propext, Classical.choice, Quot.sound]
'Fcsql.C95_program' depends on axioms: [propext, Classical.choice, Quot.sound]
'Fcsql.C96_program' depends on axioms: [propext, Classical.choice, Quot.sound]
'Fcsql.C84_ideal' depends on axioms: [propext, Classical.choice, Quot.sound]
'Fcsql.C84_returns' depends on axioms: [propext, Classical.choice, Quot.sound]
'Fcsql.C84_start_stop' depends on axioms: [propext, Classical.choice, Quot.sound]
'Fcsql.C84_interval' depends on axioms: [propext, Classical.choice, Quot.sound]
'Fcsql.C84_root' depends on axioms: [propext, Classical.choice, Quot.sound]
'Fcsql.C84_depth' depends on axioms: [propext, Classical.choice, Quot.sound]
'Fcsql.C84_location' depends on axioms: [propext, Classical.choice, Quot.sound]
'Fcsql.C82_first_record' depends on axioms: [propext, Classical.choice, Quot.sound]
'Fcsql.C82_fragment' depends on axioms: [propext, Classical.choice, Quot.sound]
'Fcsql.C79_terminates' depends on axioms: [propext, Classical.choice, Quot.sound]
'Fcsql.C79_terminates_rule' depends on axioms: [propext, Classical.choice, Quot.sound]
'Fcsql.C79_silent_iff_accepted' depends on axioms: [propext, Classical.choice, Quot.sound]
'Fcsql.C79_reports' depends on axioms: [propext, Quot.sound]
'Fcsql.C79_reports_ok' depends on axioms: [propext, Quot.sound]
'Fcsql.C100_history' depends on axioms: [propext, Quot.sound]
'Fcsql.C100_initial' depends on axioms: [propext, Quot.sound]
'Fcsql.C100_syntax' depends on axioms: [propext, Classical.choice, Quot.sound]
'Fcsql.C100_reporter' depends on axioms: [propext, Classical.choice, Quot.sound]
'Fcsql.C100_configured' depends on axioms: [propext, Classical.choice, Quot.sound]
'Fcsql.C100_own_raise' depends on axioms: [propext, Quot.sound]
'Fcsql.C18_token' depends on axioms: [propext, Classical.choice, Quot.sound]
'Fcsql.C18_literal' depends on axioms: [propext, Classical.choice, Quot.sound]
'Fcsql.C18_literal_located' depends on axioms: [propext, Classical.choice, Quot.sound]
'Fcsql.C18_comparison' depends on axioms: [propext, Classical.choice, Quot.sound]
'Fcsql.C47_round_trip' depends on axioms: [propext, Classical.choice, Quot.sound]
'Fcsql.C47_round_trip_located' depends on axioms: [propext, Classical.choice, Quot.sound]
'Fcsql.C47_reprint' depends on axioms: [propext, Classical.choice, Quot.sound]
'Fcsql.C47_reprint_plain' depends on axioms: [propext, Classical.choice, Quot.sound]
'Fcsql.C21_normalized_once' depends on axioms: [propext, Classical.choice, Quot.sound]
'Fcsql.C21_acceptance' depends on axioms: [propext, Classical.choice, Quot.sound]
'Fcsql.C22_defaults_only' depends on axioms: [propext, Classical.choice, Quot.sound]
'Fcsql.C24_all_or_none' depends on axioms: [propext, Classical.choice, Quot.sound]
'Fcsql.C24_same_tree' depends on axioms: [propext, Classical.choice, Quot.sound]
'Fcsql.C71_same_meaning' depends on axioms: [propext, Classical.choice, Quot.sound]
'Fcsql.C71_unlocated' depends on axioms: [propext, Classical.choice, Quot.sound]
'Fcsql.C71_replace' depends on axioms: [propext, Classical.choice, Quot.sound]
'Fcsql.C71_literal' depends on axioms: [propext, Quot.sound]
'Fcsql.C71_integer' depends on axioms: [propext, Quot.sound]
'Fcsql.C71_flags' depends on axioms: [propext, Quot.sound]
'Fcsql.C71_scope' depends on axioms: [propext, Quot.sound]
'Fcsql.C33_injective_partial' depends on axioms: [propext, Classical.choice, Quot.sound]
'Fcsql.C33_exact_partial' depends on axioms: [propext, Classical.choice, Quot.sound]
'Fcsql.C33_quote_refuted' depends on axioms: [propext]
'Fcsql.C33_newline_refuted' depends on axioms: [propext]
'Fcsql.C33_flags_shown' depends on axioms: [propext, Quot.sound]
'Fcsql.C33_format' depends on axioms: [propext, Quot.sound]
'Fcsql.C33_format_parsed' depends on axioms: [propext, Classical.choice, Quot.sound]
'Fcsql.C13_one_node' depends on axioms: [propext, Classical.choice, Quot.sound]
'Fcsql.C14_shape' depends on axioms: [propext, Classical.choice, Quot.sound]
'Fcsql.C15_sane_bounds' depends on axioms: [propext, Classical.choice, Quot.sound]
'Fcsql.C16_bounds_as_written' depends on axioms: [propext, Classical.choice, Quot.sound]
'Fcsql.C16_bounds_unique' depends on axioms: [propext, Classical.choice, Quot.sound]
'Fcsql.C16_min_gt_max_rejected' depends on axioms: [propext, Classical.choice, Quot.sound]
'Fcsql.C22_expression_as_written' depends on axioms: [propext, Classical.choice, Quot.sound]
'Fcsql.C17_flags_as_written' depends on axioms: [propext, Classical.choice, Quot.sound]
'Fcsql.C17_legal_letters' depends on axioms: [propext, Quot.sound]
'Fcsql.C17_illegal_rejected' depends on axioms: [propext, Classical.choice, Quot.sound]
'Fcsql.C17_order_irrelevant' depends on axioms: [propext, Quot.sound]
'Fcsql.C19_decoder_total' depends on axioms: [propext, Classical.choice, Quot.sound]
'Fcsql.C20_escape_semantics' depends on axioms: [propext, Quot.sound]
'Fcsql.C23_names' depends on axioms: [propext, Classical.choice, Quot.sound]
'Fcsql.C77_visitor' depends on axioms: [propext, Quot.sound]
'Fcsql.C77_methods' depends on axioms: [propext, Quot.sound]
'Fcsql.C77_parse' depends on axioms: [propext, Classical.choice, Quot.sound]
'Fcsql.C77_stack' depends on axioms: [propext, Classical.choice, Quot.sound]
'Fcsql.C85_string_tree' depends on axioms: [propext, Classical.choice, Quot.sound]
'Fcsql.C85_reads_back' depends on axioms: [propext, Classical.choice, Quot.sound]
'Fcsql.C85_tokens' depends on axioms: [propext, Classical.choice, Quot.sound]
'Fcsql.C85_same_meaning' depends on axioms: [propext, Classical.choice, Quot.sound]
'Fcsql.C85_tab_ambiguous' depends on axioms: [propext]
'Fcsql.C85_example' depends on axioms: [propext, Classical.choice, Quot.sound]
'Fcsql.C68_sequence' depends on axioms: [propext, Classical.choice, Quot.sound]
'Fcsql.C68_sequence_valid' depends on axioms: [propext, Classical.choice, Quot.sound]
'Fcsql.C68_disjunction' depends on axioms: [propext, Classical.choice, Quot.sound]
'Fcsql.C68_disjunction_valid' depends on axioms: [propext, Classical.choice, Quot.sound]
'Fcsql.C68_within' depends on axioms: [propext, Classical.choice, Quot.sound]
'Fcsql.C68_group' depends on axioms: [propext, Classical.choice, Quot.sound]
'Fcsql.C68_whitespace_around' depends on axioms: [propext, Classical.choice, Quot.sound]
'Fcsql.C68_quantifier' depends on axioms: [propext, Classical.choice, Quot.sound]
'Fcsql.C69_depends_on' depends on axioms: [propext, Classical.choice, Quot.sound]
'Fcsql.C69_by_parts' depends on axioms: [propext, Classical.choice, Quot.sound]
'Fcsql.C69_only_expressions' depends on axioms: [propext, Classical.choice, Quot.sound]
'Fcsql.C69_more_layers' depends on axioms: [propext, Classical.choice, Quot.sound]
'Fcsql.C69_known_layers' depends on axioms: [propext, Classical.choice, Quot.sound]
'Fcsql.C69_more_qualifiers' depends on axioms: [propext, Classical.choice, Quot.sound]
'Fcsql.C69_no_qualifiers' depends on axioms: [propext, Classical.choice, Quot.sound]
'Fcsql.C69_empty_lists' depends on axioms: [propext, Quot.sound]
'Fcsql.C34_verdict' depends on axioms: [propext, Classical.choice, Quot.sound]
'Fcsql.C34_issues' depends on axioms: [propext, Classical.choice, Quot.sound]
'Fcsql.C35_raises_first' depends on axioms: [propext, Classical.choice, Quot.sound]
'Fcsql.C35_modes_agree' depends on axioms: [propext, Classical.choice, Quot.sound]
'Fcsql.C35_is_valid' depends on axioms: [propext, Classical.choice, Quot.sound]
'Fcsql.C36_reusable' depends on axioms: [propext, Classical.choice, Quot.sound]
'Fcsql.C36_settings_kept' depends on axioms: [propext, Classical.choice, Quot.sound]
'Fcsql.C37_modes_agree' depends on axioms: [propext, Classical.choice, Quot.sound]
'Fcsql.C37_verdict' depends on axioms: [propext, Classical.choice, Quot.sound]
'Fcsql.C37_defaults' depends on axioms: [propext, Classical.choice, Quot.sound]
'Fcsql.C37_unknown_version' depends on axioms: [propext, Classical.choice, Quot.sound]
'Fcsql.C38_refuted' depends on axioms: [propext, Quot.sound]
'Fcsql.C38_list_partial' depends on axioms: [propext, Classical.choice, Quot.sound]
'Fcsql.C39_stricter' depends on axioms: [propext, Classical.choice, Quot.sound]
'Fcsql.C40_positions' depends on axioms: [propext, Classical.choice, Quot.sound]
'Fcsql.C42_is_likely_a_regex' depends on axioms: [propext, Classical.choice, Quot.sound]
'Fcsql.C31_dispatch_partial' depends on axioms: [propext]
'Fcsql.C31_handler_runs_partial' depends on axioms: [propext]
'Fcsql.C31_expression_classes_refuted' depends on axioms: [propext]
'Fcsql.C31_query_group_refuted' depends on axioms: [propext]
'Fcsql.C31_adapter_methods' depends on axioms: [propext, Quot.sound]
'Fcsql.C32_preorder' depends on axioms: [propext, Quot.sound]
'Fcsql.C32_sees_every_node' depends on axioms: [propext, Quot.sound]
'Fcsql.C32_adapter_noop' depends on axioms: [propext, Quot.sound]
'Fcsql.C101_lexing' depends on axioms: [propext, Classical.choice, Quot.sound]
'Fcsql.C101_lexing_empty' depends on axioms: [propext]
'Fcsql.C101_predictions_exact' depends on axioms: [propext, Classical.choice, Quot.sound]
'Fcsql.C101_predictions' depends on axioms: [propext, Classical.choice, Quot.sound]
'Fcsql.C101_lookahead' depends on axioms: [propext, Classical.choice, Quot.sound]
