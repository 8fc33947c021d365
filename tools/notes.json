{
 "C01": {
  "note": "All outcomes of parse for every query and setting; the catch-all is reached only by the chr overflow, and it is reached by it."
 },
 "C05": {
  "note": "False as documented: antlr_parse removes no lexer error listener reporting and returns on lexical errors (C05_antlr_parse_ignores_lexical_errors). Proved: everything else."
 },
 "C12": {
  "note": "The grammar comment '&/AND binds tighter than |/OR' is false in general (C12_negation_swallows); the exact condition under which it holds is proved (iff), for every number of chunks, operands and negations."
 },
 "C28": {
  "note": "get_child(child_count) raises IndexError (off-by-one, C28_refuted). Proved for every other index, and for every class argument."
 },
 "C29": {
  "note": "get_last_child(clazz) uses child_count-1 as index among the children of that class, so it is wrong in general (C29_refuted); exact behaviour proved."
 },
 "C30": {
  "note": "is_layer_qualifier_empty and is_regex_flags_empty are negated in the code, has_layer_qualifier is always False for a present qualifier: refuted, exact behaviour proved."
 },
 "C31": {
  "note": "The documented method is looked up for exactly six classes; ExpressionWildcard/Group/Not/And/Or look up names the adapter does not define, and QueryGroup calls QuerySegment's method: refuted for these, proved for the others."
 },
 "C33": {
  "note": "False in general (quotes and newlines are not escaped reversibly): refuted by two pairs of queries. Proved exactly (iff) for all pairs of returned trees whose literal values contain no double quote: same str iff same tree up to writing newline, CR, tab in values as escapes; hence injective for values without these. Default identifiers without space/colon assumed."
 },
 "C38": {
  "note": "Warnings are listed with return_errors=True only if warnings_as_errors is also set: refuted as documented; the returned list is characterised exactly in C38_list_partial."
 },
 "C41": {
  "note": "Parser error positions and fragments proved; for lexical errors the column is used as offset, wrong on multi-line queries (refuted), right on single-line ones."
 },
 "C43": {
  "note": "parent_node is right for the non-Expression nodes of parsed trees; it is wrong for Expressions below And/Or/Not/Group, and after an exception left its stack filled: refuted there."
 },
 "C18": {
  "note": "For both quote characters, as a bare literal and in a comparison; the literal is exactly one token."
 },
 "C47": {
  "note": "(a) C47_round_trip(_located); (b) C47_reprint under NormOk (idempotence of the normalization on code point strings, true of the Unicode forms), without any assumption if normalization is off (C47_reprint_plain)."
 },
 "C53": {
  "note": "The prediction engine of the ANTLR runtime is a parameter; Predictor.Ideal states what is assumed of it (see DESIGN.md). Termination and soundness need only that it answers with existing alternatives."
 },
 "C55": {
  "note": "QueryGroup passes QUERY_SEGMENT to its base class: refuted for QueryGroup (C55_query_group_refuted), proved for all other classes."
 },
 "C56": {
  "status": "partial",
  "note": "Proved for all parsed trees and for constructed nodes, except get_within of QueryWithWithin(query, None), which raises IndexError instead of returning None (C56_no_within_refuted)."
 },
 "C61": {
  "note": "A call is modelled as a local computation (reading the settings) followed by the assignment to self.errors; the ANTLR prediction caches shared between parsers are the subject of C83. C61_errors_race shows a schedule in which a failing call finds the errors of another one."
 },
 "C80": {
  "note": "For the runtime's prediction as modelled (Strategy.Antlr, Spec/AntlrStrategy.lean); the choices of the error strategy are universally quantified. The exact place: C88."
 },
 "C81": {
  "note": "For the runtime's prediction as modelled; the text after line and column is an arbitrary parameter."
 },
 "C82": {
  "note": "For the runtime's prediction as modelled; the interleaving of lexer and parser reports is arbitrary up to ReportedBy (Spec/Records.lean)."
 },
 "C83": {
  "note": "Relative to a simulation of the network that is right without caches (Simulator.Correct in Spec/Cache.lean; lookahead_correct is an instance). A look-up and the store after a miss are separate steps, other threads may act in between."
 },
 "C84": {
  "note": "Prediction is a parameter: the claims hold for every prediction with which the generated functions build the tree of every accepted query (Predictor.Parses); C84_ideal shows that ideal prediction does and C84_antlr that the modelled adaptive prediction of ANTLR does. Cursor, contexts and methods are modelled."
 },
 "C87": {
  "note": "ParserATNSimulator of the runtime library is modelled after its published algorithm (Model/Adaptive.lean); it is not part of /repo."
 },
 "C79": {
  "note": "The C79_antlr_* theorems use the runtime's prediction as modelled (Model/Adaptive.lean) and assume nothing about prediction; the choices of the error strategy are universally quantified."
 },
 "C88": {
  "note": "False for the code: C88_early_partial (on 'x'|'y'[a='b'|c='d'&] the error is reported at &, though the operand after it is missing). Proved for prediction that looks ahead as far as it can in the real calling context (Strategy.Exact); what holds unconditionally is C80."
 },
 "C89": {
  "note": "Runtime.Antlr: the syntax errors are those of a model of the published DefaultErrorStrategy (Model/ErrorStrategy). Records are not in textual order in general (example: pos $ = # 'a')."
 },
 "C90": {
  "note": "Forms are defined in Spec/Messages (Worded), independently of the model."
 },
 "C91": {
  "note": "Soundness of the lists; they need not be complete (example beside the theorem)."
 },
 "C92": {
  "note": "Witnesses C92_unordered, C92_repeated, C92_goes_on are concrete queries run by the kernel; the bounds are for all queries."
 },
 "C93": {
  "note": "About the published algorithm of antlr4.Lexer and LexerATNSimulator (not in /repo), modelled function by function in Model/LexerSim.lean, run on the tables decoded from FCSLexer.py. The pieces are those of C14-C16 (longest match, first rule) and, by C93_lexer_network, of the paths of the network."
 },
 "C94": {
  "note": "28 open calls of closure; the shared DFA is an arbitrary store of right entries, changed by other threads before every access."
 },
 "C95": {
  "note": "Model/Program.lean interleaves the lexer of C93, a token buffer that fetches on demand, the generated functions with prediction (C87) and the error strategy (C89), and the tree builder (C77); the published runtime library is not in /repo."
 },
 "C96": {
  "note": "Same run as in C95 with the console listener and ExceptionThrowingErrorListener."
 },
 "C97": {
  "note": "Threads are trees of actions on the shared state (DFA look-ups and stores of lexer and parser, errors attributes); all schedules, and look-ups may miss at any time."
 },
 "C98": {
  "note": "The comparisons are read off the token sequence alone (Spec/Census). Tight: a sequence of words has 2k+1 nodes, a layer with a bad qualifier two issues."
 },
 "C99": {
  "note": "Records are kept as arguments of the log call; handlers, addresses of contexts and token indices are left out."
 },
 "C100": {
  "note": "Validators overriding validate itself or raising other exceptions are left out. C100_own_raise: the promised list depends on the validator using validation_error."
 },
 "C101": {
  "note": "Counts looks at characters, predictions and looks at tokens; not the configurations handled at each look. Predictions are counted for accepted queries (C105 bounds them for all queries); the lexer's looks for every text. The bounds are attained (C101_lexing, C101_predictions)."
 },
 "C102": {
  "note": "Moments: every statement of the rule functions, with any part of its listener calls done; before and after every method of the tree builder; the statements of parse. What arrives is not an exception the code catches by name (ValueError, RecognitionException, its own ones)."
 },
 "C103": {
  "note": "What arrives while the validator runs, or later, leaves validate (it is not a SpecificationValidationError)."
 },
 "C104": {
  "note": "About the calls of the rule functions of the generated parser; the frames the runtime adds on top of them (prediction, error strategy, lexer) have a depth of their own, the tree builder's depth is C70."
 },
 "C105": {
  "note": "The statements are those of the generated rule functions (sync, match, predictions, calls, branches, loops); what the runtime does inside one sync, match, prediction or recovery is not counted as steps, except the looks of predictions at tokens. The constants are upper bounds, not attained."
 },
 "C106": {
  "note": "Counts entries, not bytes. The lexer's table is that of Model/LexerCache (all edges, also those to the error state); the parser's are those of Model/Cache, whose states are sets of configurations with one stack each; the library merges stacks into graphs, and different sets stay different. sharedContextCache is not modelled. What error recovery stores after the first reported error is left to the other threads."
 },
 "C107": {
  "note": "Runtime library (consume, match, DefaultErrorStrategy) modelled after its published code; see DESIGN.md."
 },
 "C108": {
  "note": "Runtime library modelled as in C107. A group of alternative tokens may be missing without a node because the generated code does not add one for a token made up there; no query was found for which that happens."
 }
}