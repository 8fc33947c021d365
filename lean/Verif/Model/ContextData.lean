/-
The context classes of `src/fcsql/FCSParser.py` (accessors, listener and visitor hooks) and the method names of
`FCSParserListener.py`, `FCSParserVisitor.py` and `ExpressionTreeBuilder` (`parser.py`), transcribed by
`tools/gen_contexts.py`.
-/
import Verif.Model.Contexts

set_option autoImplicit false

namespace Fcsql

/-- The context class of each rule (lines of FCSParser.py given per rule). -/
def ctxClass : Rule → CtxClass
  -- FCSParser.py:182-218
  | .query =>
    { name := py!"QueryContext", ruleIndex := 0, enter := py!"enterQuery", exit := py!"exitQuery", accept := py!"visitQuery"
      accessors := [⟨py!"main_query", .rule .main_query, false⟩,
        ⟨py!"EOF", .tok .EOF, false⟩,
        ⟨py!"WITHIN", .tok .WITHIN, false⟩,
        ⟨py!"within_part", .rule .within_part, false⟩] }
  -- FCSParser.py:253-291
  | .main_query =>
    { name := py!"Main_queryContext", ruleIndex := 1, enter := py!"enterMain_query", exit := py!"exitMain_query", accept := py!"visitMain_query"
      accessors := [⟨py!"query_simple", .rule .query_simple, false⟩,
        ⟨py!"query_group", .rule .query_group, false⟩,
        ⟨py!"query_sequence", .rule .query_sequence, false⟩,
        ⟨py!"query_disjunction", .rule .query_disjunction, false⟩] }
  -- FCSParser.py:338-387
  | .query_disjunction =>
    { name := py!"Query_disjunctionContext", ruleIndex := 2, enter := py!"enterQuery_disjunction", exit := py!"exitQuery_disjunction", accept := py!"visitQuery_disjunction"
      accessors := [⟨py!"query_simple", .rule .query_simple, true⟩,
        ⟨py!"query_sequence", .rule .query_sequence, true⟩,
        ⟨py!"query_group", .rule .query_group, true⟩,
        ⟨py!"OR", .tok .OR, true⟩] }
  -- FCSParser.py:458-494
  | .query_sequence =>
    { name := py!"Query_sequenceContext", ruleIndex := 3, enter := py!"enterQuery_sequence", exit := py!"exitQuery_sequence", accept := py!"visitQuery_sequence"
      accessors := [⟨py!"query_simple", .rule .query_simple, true⟩,
        ⟨py!"query_group", .rule .query_group, true⟩] }
  -- FCSParser.py:539-579
  | .query_group =>
    { name := py!"Query_groupContext", ruleIndex := 4, enter := py!"enterQuery_group", exit := py!"exitQuery_group", accept := py!"visitQuery_group"
      accessors := [⟨py!"L_PAREN", .tok .L_PAREN, false⟩,
        ⟨py!"R_PAREN", .tok .R_PAREN, false⟩,
        ⟨py!"query_disjunction", .rule .query_disjunction, false⟩,
        ⟨py!"query_sequence", .rule .query_sequence, false⟩,
        ⟨py!"quantifier", .rule .quantifier, false⟩] }
  -- FCSParser.py:626-660
  | .query_simple =>
    { name := py!"Query_simpleContext", ruleIndex := 5, enter := py!"enterQuery_simple", exit := py!"exitQuery_simple", accept := py!"visitQuery_simple"
      accessors := [⟨py!"query_implicit", .rule .query_implicit, false⟩,
        ⟨py!"query_segment", .rule .query_segment, false⟩,
        ⟨py!"quantifier", .rule .quantifier, false⟩] }
  -- FCSParser.py:703-749
  | .quantifier =>
    { name := py!"QuantifierContext", ruleIndex := 6, enter := py!"enterQuantifier", exit := py!"exitQuantifier", accept := py!"visitQuantifier"
      accessors := [⟨py!"Q_ONE_OR_MORE", .tok .Q_ONE_OR_MORE, false⟩,
        ⟨py!"Q_ZERO_OR_MORE", .tok .Q_ZERO_OR_MORE, false⟩,
        ⟨py!"Q_ZERO_OR_ONE", .tok .Q_ZERO_OR_ONE, false⟩,
        ⟨py!"L_CURLY_BRACKET", .tok .L_CURLY_BRACKET, false⟩,
        ⟨py!"R_CURLY_BRACKET", .tok .R_CURLY_BRACKET, false⟩,
        ⟨py!"INTEGER", .tok .INTEGER, true⟩,
        ⟨py!"Q_COMMA", .tok .Q_COMMA, false⟩] }
  -- FCSParser.py:833-859
  | .query_implicit =>
    { name := py!"Query_implicitContext", ruleIndex := 7, enter := py!"enterQuery_implicit", exit := py!"exitQuery_implicit", accept := py!"visitQuery_implicit"
      accessors := [⟨py!"regexp", .rule .regexp, false⟩] }
  -- FCSParser.py:881-913
  | .query_segment =>
    { name := py!"Query_segmentContext", ruleIndex := 8, enter := py!"enterQuery_segment", exit := py!"exitQuery_segment", accept := py!"visitQuery_segment"
      accessors := [⟨py!"L_SQUARE_BRACKET", .tok .L_SQUARE_BRACKET, false⟩,
        ⟨py!"R_SQUARE_BRACKET", .tok .R_SQUARE_BRACKET, false⟩,
        ⟨py!"expression", .rule .expression, false⟩] }
  -- FCSParser.py:946-972
  | .within_part =>
    { name := py!"Within_partContext", ruleIndex := 9, enter := py!"enterWithin_part", exit := py!"exitWithin_part", accept := py!"visitWithin_part"
      accessors := [⟨py!"within_part_simple", .rule .within_part_simple, false⟩] }
  -- FCSParser.py:994-1019
  | .within_part_simple =>
    { name := py!"Within_part_simpleContext", ruleIndex := 10, enter := py!"enterWithin_part_simple", exit := py!"exitWithin_part_simple", accept := py!"visitWithin_part_simple"
      accessors := [⟨py!"SIMPLE_WITHIN_SCOPE", .tok .SIMPLE_WITHIN_SCOPE, false⟩] }
  -- FCSParser.py:1041-1083
  | .expression =>
    { name := py!"ExpressionContext", ruleIndex := 11, enter := py!"enterExpression", exit := py!"exitExpression", accept := py!"visitExpression"
      accessors := [⟨py!"expression_basic", .rule .expression_basic, false⟩,
        ⟨py!"expression_group", .rule .expression_group, false⟩,
        ⟨py!"expression_or", .rule .expression_or, false⟩,
        ⟨py!"expression_and", .rule .expression_and, false⟩,
        ⟨py!"expression_not", .rule .expression_not, false⟩] }
  -- FCSParser.py:1136-1192
  | .expression_or =>
    { name := py!"Expression_orContext", ruleIndex := 12, enter := py!"enterExpression_or", exit := py!"exitExpression_or", accept := py!"visitExpression_or"
      accessors := [⟨py!"expression_basic", .rule .expression_basic, true⟩,
        ⟨py!"expression_group", .rule .expression_group, true⟩,
        ⟨py!"expression_and", .rule .expression_and, true⟩,
        ⟨py!"expression_not", .rule .expression_not, true⟩,
        ⟨py!"OR", .tok .OR, true⟩] }
  -- FCSParser.py:1274-1330
  | .expression_and =>
    { name := py!"Expression_andContext", ruleIndex := 13, enter := py!"enterExpression_and", exit := py!"exitExpression_and", accept := py!"visitExpression_and"
      accessors := [⟨py!"expression_basic", .rule .expression_basic, true⟩,
        ⟨py!"expression_group", .rule .expression_group, true⟩,
        ⟨py!"expression_not", .rule .expression_not, true⟩,
        ⟨py!"AND", .tok .AND, true⟩,
        ⟨py!"expression_or", .rule .expression_or, true⟩] }
  -- FCSParser.py:1406-1454
  | .expression_group =>
    { name := py!"Expression_groupContext", ruleIndex := 14, enter := py!"enterExpression_group", exit := py!"exitExpression_group", accept := py!"visitExpression_group"
      accessors := [⟨py!"L_PAREN", .tok .L_PAREN, false⟩,
        ⟨py!"R_PAREN", .tok .R_PAREN, false⟩,
        ⟨py!"expression_basic", .rule .expression_basic, false⟩,
        ⟨py!"expression_group", .rule .expression_group, false⟩,
        ⟨py!"expression_or", .rule .expression_or, false⟩,
        ⟨py!"expression_and", .rule .expression_and, false⟩,
        ⟨py!"expression_not", .rule .expression_not, false⟩] }
  -- FCSParser.py:1507-1552
  | .expression_not =>
    { name := py!"Expression_notContext", ruleIndex := 15, enter := py!"enterExpression_not", exit := py!"exitExpression_not", accept := py!"visitExpression_not"
      accessors := [⟨py!"NOT", .tok .NOT, false⟩,
        ⟨py!"expression_basic", .rule .expression_basic, false⟩,
        ⟨py!"expression_group", .rule .expression_group, false⟩,
        ⟨py!"expression_not", .rule .expression_not, false⟩,
        ⟨py!"expression_or", .rule .expression_or, false⟩,
        ⟨py!"expression_and", .rule .expression_and, false⟩] }
  -- FCSParser.py:1603-1639
  | .expression_basic =>
    { name := py!"Expression_basicContext", ruleIndex := 16, enter := py!"enterExpression_basic", exit := py!"exitExpression_basic", accept := py!"visitExpression_basic"
      accessors := [⟨py!"attribute", .rule .attribute_, false⟩,
        ⟨py!"regexp", .rule .regexp, false⟩,
        ⟨py!"OPERATOR_EQ", .tok .OPERATOR_EQ, false⟩,
        ⟨py!"OPERATOR_NE", .tok .OPERATOR_NE, false⟩] }
  -- FCSParser.py:1671-1704
  | .attribute_ =>
    { name := py!"AttributeContext", ruleIndex := 17, enter := py!"enterAttribute", exit := py!"exitAttribute", accept := py!"visitAttribute"
      accessors := [⟨py!"identifier", .rule .identifier, false⟩,
        ⟨py!"qualifier", .rule .qualifier, false⟩,
        ⟨py!"COLON", .tok .COLON, false⟩] }
  -- FCSParser.py:1736-1770
  | .qualifier =>
    { name := py!"QualifierContext", ruleIndex := 18, enter := py!"enterQualifier", exit := py!"exitQualifier", accept := py!"visitQualifier"
      accessors := [⟨py!"IDENTIFIER", .tok .IDENTIFIER, false⟩,
        ⟨py!"WITHIN", .tok .WITHIN, false⟩,
        ⟨py!"SIMPLE_WITHIN_SCOPE", .tok .SIMPLE_WITHIN_SCOPE, false⟩,
        ⟨py!"REGEXP_FLAGS", .tok .REGEXP_FLAGS, false⟩] }
  -- FCSParser.py:1798-1832
  | .identifier =>
    { name := py!"IdentifierContext", ruleIndex := 19, enter := py!"enterIdentifier", exit := py!"exitIdentifier", accept := py!"visitIdentifier"
      accessors := [⟨py!"IDENTIFIER", .tok .IDENTIFIER, false⟩,
        ⟨py!"WITHIN", .tok .WITHIN, false⟩,
        ⟨py!"SIMPLE_WITHIN_SCOPE", .tok .SIMPLE_WITHIN_SCOPE, false⟩,
        ⟨py!"REGEXP_FLAGS", .tok .REGEXP_FLAGS, false⟩] }
  -- FCSParser.py:1860-1893
  | .regexp =>
    { name := py!"RegexpContext", ruleIndex := 20, enter := py!"enterRegexp", exit := py!"exitRegexp", accept := py!"visitRegexp"
      accessors := [⟨py!"regexp_pattern", .rule .regexp_pattern, false⟩,
        ⟨py!"FWD_SLASH", .tok .FWD_SLASH, false⟩,
        ⟨py!"regexp_flag", .rule .regexp_flag, false⟩] }
  -- FCSParser.py:1926-1951
  | .regexp_pattern =>
    { name := py!"Regexp_patternContext", ruleIndex := 21, enter := py!"enterRegexp_pattern", exit := py!"exitRegexp_pattern", accept := py!"visitRegexp_pattern"
      accessors := [⟨py!"REGEXP", .tok .REGEXP, false⟩] }
  -- FCSParser.py:1973-1998
  | .regexp_flag =>
    { name := py!"Regexp_flagContext", ruleIndex := 22, enter := py!"enterRegexp_flag", exit := py!"exitRegexp_flag", accept := py!"visitRegexp_flag"
      accessors := [⟨py!"REGEXP_FLAGS", .tok .REGEXP_FLAGS, false⟩] }

/-- The methods `FCSParserListener` defines, all doing nothing (FCSParserListener.py:9-215). -/
def listenerMethods : List PyStr :=
  [py!"enterQuery", py!"exitQuery", py!"enterMain_query",
    py!"exitMain_query", py!"enterQuery_disjunction", py!"exitQuery_disjunction",
    py!"enterQuery_sequence", py!"exitQuery_sequence", py!"enterQuery_group",
    py!"exitQuery_group", py!"enterQuery_simple", py!"exitQuery_simple",
    py!"enterQuantifier", py!"exitQuantifier", py!"enterQuery_implicit",
    py!"exitQuery_implicit", py!"enterQuery_segment", py!"exitQuery_segment",
    py!"enterWithin_part", py!"exitWithin_part", py!"enterWithin_part_simple",
    py!"exitWithin_part_simple", py!"enterExpression", py!"exitExpression",
    py!"enterExpression_or", py!"exitExpression_or", py!"enterExpression_and",
    py!"exitExpression_and", py!"enterExpression_group", py!"exitExpression_group",
    py!"enterExpression_not", py!"exitExpression_not", py!"enterExpression_basic",
    py!"exitExpression_basic", py!"enterAttribute", py!"exitAttribute",
    py!"enterQualifier", py!"exitQualifier", py!"enterIdentifier",
    py!"exitIdentifier", py!"enterRegexp", py!"exitRegexp",
    py!"enterRegexp_pattern", py!"exitRegexp_pattern", py!"enterRegexp_flag",
    py!"exitRegexp_flag"]

/-- The methods `FCSParserVisitor` defines, all `return self.visitChildren(ctx)` (FCSParserVisitor.py:10-124). -/
def visitorMethods : List PyStr :=
  [py!"visitQuery", py!"visitMain_query", py!"visitQuery_disjunction",
    py!"visitQuery_sequence", py!"visitQuery_group", py!"visitQuery_simple",
    py!"visitQuantifier", py!"visitQuery_implicit", py!"visitQuery_segment",
    py!"visitWithin_part", py!"visitWithin_part_simple", py!"visitExpression",
    py!"visitExpression_or", py!"visitExpression_and", py!"visitExpression_group",
    py!"visitExpression_not", py!"visitExpression_basic", py!"visitAttribute",
    py!"visitQualifier", py!"visitIdentifier", py!"visitRegexp",
    py!"visitRegexp_pattern", py!"visitRegexp_flag"]

/-- The `visit*` methods `ExpressionTreeBuilder` overrides (parser.py:1028-1668). -/
def builderMethods : List PyStr :=
  [py!"visitQuery", py!"visitMain_query", py!"visitQuery_disjunction",
    py!"visitQuery_sequence", py!"visitQuery_group", py!"visitQuery_simple",
    py!"visitQuery_implicit", py!"visitQuery_segment", py!"visitExpression_basic",
    py!"visitExpression_not", py!"visitExpression_group", py!"visitExpression_or",
    py!"visitExpression_and", py!"visitAttribute", py!"visitRegexp",
    py!"visitWithin_part_simple"]

end Fcsql
