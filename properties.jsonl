{"id": "C01", "title": "parse never leaks an internal error", "statement": "QueryParser.parse either returns a query node or raises QueryParserException, and the catch-all message 'an unexpected exception occured while parsing' is never produced by an IndexError/AttributeError/assertion of the tree builder: the only input that can reach it is a string literal with an escape \\UHHHHHHHH whose value is at least 2^31 (chr() then raises OverflowError instead of ValueError on Python < 3.13).", "quantifier": "every Python string given as query and every parser configuration (default identifier, operator, normalization form, source locations on/off), no bound on length or nesting (recursion limit excluded)", "why_tests_cant": "the builder is an untyped stack machine; a sample of queries cannot show that no grammatical parse tree ever pops the wrong thing", "anchors": ["src/fcsql/parser.py:QueryParser.parse", "src/fcsql/parser.py:ExpressionTreeBuilder"]}
{"id": "C02", "title": "Acceptance is exactly: lexable, grammatical, and three local checks", "statement": "parse(q) succeeds iff (a) q splits into tokens without a lexical error, (b) the token sequence is derivable from the published FCS-QL grammar, and (c) every string literal decodes, every '/flags' suffix is a legal combination and every {n,m} has n <= m (integers within Python's int-digit limit). Nothing else can make a query fail or succeed.", "quantifier": "every query string", "why_tests_cant": "an iff over all strings; tests only sample accepted and rejected strings", "anchors": ["src/fcsql/parser.py:QueryParser.parse", "src/fcsql/FCSLexer.g4", "src/fcsql/FCSParser.g4"]}
{"id": "C03", "title": "errors attribute reflects exactly the last parse", "statement": "After parse(q) returns, parser.errors is []. If parse raises with message 'unable to parse query: m', errors is non-empty, every entry has type 'syntax-error', and errors[0].message is m. If parse raises with any other message, errors is []. All this is independent of what was parsed before with the same QueryParser object.", "quantifier": "every history of parse calls on one QueryParser object, every query", "why_tests_cant": "quantifies over call histories of a mutable object", "anchors": ["src/fcsql/parser.py:QueryParser.parse", "src/fcsql/parser.py:ErrorListener.syntaxError"]}
{"id": "C04", "title": "can_parse agrees with parse", "statement": "can_parse(q) is True iff parse(q) returns a node (with default settings), and False iff parse(q) raises QueryParserException; it never raises. Whether a query is accepted does not depend on enableSourceLocations.", "quantifier": "every query string", "why_tests_cant": "agreement of two entry points on all strings", "anchors": ["src/fcsql/__init__.py:can_parse", "src/fcsql/__init__.py:parse"]}
{"id": "C05", "title": "antlr_parse raises on erroneous input", "statement": "antlr_parse(q) raises SyntaxError if an error occurred while parsing q (documented). In particular if antlr_parse(q) returns, q has no lexical and no grammatical error; and whenever parse(q) succeeds antlr_parse(q) succeeds.", "quantifier": "every query string", "why_tests_cant": "needs the exact set of strings on which two entry points differ", "anchors": ["src/fcsql/__init__.py:antlr_parse", "src/fcsql/__init__.py:ExceptionThrowingErrorListener"]}
{"id": "C06", "title": "Tokenization is maximal munch with first-rule priority", "statement": "Each token taken at a position is the longest prefix of the remaining text that any lexer rule matches, and its type is the first rule in grammar order matching that prefix; a lexical error occurs exactly when no rule matches any non-empty prefix.", "quantifier": "every query string and position", "why_tests_cant": "longest-match claims range over all prefixes and all rules", "anchors": ["src/fcsql/FCSLexer.g4", "src/fcsql/FCSLexer.py:serializedATN"]}
{"id": "C07", "title": "Tokens, whitespace and error spans tile the query", "statement": "Every character of the query belongs to exactly one token, one skipped whitespace character or one reported lexical-error span, in order; each token's text is query[start:stop+1], tokens are non-empty, strictly ordered, and in bounds; without lexical error, all characters outside tokens are one of the 25 whitespace code points of the grammar.", "quantifier": "every query string", "why_tests_cant": "a statement about every character of every input", "anchors": ["src/fcsql/FCSLexer.g4", "src/fcsql/FCSLexer.py"]}
{"id": "C08", "title": "Whitespace between tokens is irrelevant", "statement": "If two query strings consist of the same token texts, separated/surrounded by arbitrary (possibly different, non-empty between tokens) runs of grammar whitespace, then parse (without source locations) gives the same tree, or fails on both.", "quantifier": "every sequence of tokens and every choice of whitespace runs", "why_tests_cant": "infinitely many whitespace layouts", "anchors": ["src/fcsql/FCSLexer.g4", "src/fcsql/parser.py:QueryParser.parse"]}
{"id": "C09", "title": "Parse trees are grammatical and lossless", "statement": "Whenever parsing reports no error, the parse tree is a derivation tree of the published grammar for rule query and its leaves, left to right, are exactly the tokens of the query followed by EOF: no token is dropped, duplicated, reordered or invented.", "quantifier": "every token sequence", "why_tests_cant": "holds for all derivations, including arbitrarily nested ones", "anchors": ["src/fcsql/FCSParser.g4", "src/fcsql/FCSParser.py"]}
{"id": "C10", "title": "Every grammatical token sequence is accepted", "statement": "If a token sequence followed by EOF is derivable from rule query, the parser finds a parse tree (no false syntax errors).", "quantifier": "every token sequence and derivation", "why_tests_cant": "completeness of a parser cannot be sampled", "anchors": ["src/fcsql/FCSParser.g4", "src/fcsql/FCSParser.py"]}
{"id": "C11", "title": "Ambiguity is resolved to the lowest alternative", "statement": "When several derivation trees exist, the parser returns the one that, at the first decision point where two trees differ, takes the earlier grammar alternative (loops and options: continue before leave). The result is therefore unique and deterministic.", "quantifier": "every grammatical token sequence and every competing derivation", "why_tests_cant": "compares against all other derivations", "anchors": ["src/fcsql/FCSParser.g4", "src/fcsql/FCSParser.py"]}
{"id": "C12", "title": "Operator precedence of layer expressions", "statement": "Take a bracket expression written as '|'-separated chunks of '&'-separated, possibly negated atoms (comparisons or parenthesised expressions). If it has no '!' or at most one '|', it parses to the Or of the Ands of the (negated) atoms: '!' before '&' before '|', as the grammar comments say. In general it does so exactly when its negations are calm: no chunk with several operands behind a chunk that is a lone negation, and no chunk at all behind a chunk with a negation after an '&' (where for the first chunk the last chunk does not count). Otherwise a negation or conjunction swallows a later '|', e.g. a & !b | c | d is (a & (!b | c)) | d.", "quantifier": "every expression, any number of operands, any nesting in the parentheses", "why_tests_cant": "unbounded expressions; the documented examples have one '|'", "anchors": ["src/fcsql/FCSParser.g4:expression", "src/fcsql/FCSParser.g4:expression_or", "src/fcsql/FCSParser.g4:expression_and", "src/fcsql/FCSParser.g4:expression_not"]}
{"id": "C13", "title": "The builder leaves exactly one node", "statement": "For every grammatical parse tree the tree builder either raises ExpressionTreeBuilderException (or the chr overflow of C01) or ends with exactly one item on its stack, a query node, which is the compositional meaning of the parse tree (each construct's node is built from the nodes of its parts, in order).", "quantifier": "every derivation tree", "why_tests_cant": "stack discipline over all trees", "anchors": ["src/fcsql/parser.py:ExpressionTreeBuilder"]}
{"id": "C14", "title": "Shape of returned trees", "statement": "In every returned tree: And, Or and QueryDisjunction have at least 2 children, QuerySequence at least 1, Group/Not/QueryGroup/QuerySegment exactly 1, Expression/Wildcard/SimpleWithin none; QueryWithWithin occurs only as root with exactly [query, SimpleWithin]; SimpleWithin nowhere else; Expression-level nodes occur only below a QuerySegment; a QueryGroup contains a QuerySequence or QueryDisjunction; an Or is never a direct child of an Or, an And never of an And, a sequence never of a sequence.", "quantifier": "every query accepted by parse, every node of the tree", "why_tests_cant": "structural invariant of unboundedly many trees", "anchors": ["src/fcsql/parser.py:ExpressionTreeBuilder", "src/fcsql/FCSParser.g4"]}
{"id": "C15", "title": "Occurrence bounds are always sane", "statement": "Every QuerySegment and QueryGroup in a returned tree has min_occurs >= 0 and (max_occurs == -1 (unbounded) or min_occurs <= max_occurs); with no quantifier both are 1.", "quantifier": "every accepted query, every node", "why_tests_cant": "all integers, all nodes", "anchors": ["src/fcsql/parser.py:ExpressionTreeBuilder.processRepetition", "src/fcsql/parser.py:ExpressionTreeBuilder.processRepetitionRange"]}
{"id": "C16", "title": "Quantifier meaning", "statement": "'*','+','?' give (0,-1),(1,-1),(0,1); {n} gives (n,n); {n,} gives (n,-1); {,m} gives (0,m); {n,m} gives (n,m) if n<=m and is rejected otherwise, where n and m are the decimal values of the digit strings (leading zeros allowed).", "quantifier": "every quantifier and every digit string", "why_tests_cant": "all integers of any size", "anchors": ["src/fcsql/parser.py:ExpressionTreeBuilder.processRepetition", "src/fcsql/parser.py:ExpressionTreeBuilder.getChildIndex", "src/fcsql/parser.py:ExpressionTreeBuilder.parseInt"]}
{"id": "C17", "title": "Regex flags meaning and exclusivity", "statement": "A '/flags' suffix yields the set of flags named by its letters (i,c -> case-insensitive; I,C -> case-sensitive; l -> literal; d -> ignore diacritics) irrespective of order and repetition; it is rejected iff it contains both a case-insensitive and a case-sensitive letter, or 'l' together with any other kind. No returned Expression ever holds an excluded combination, and regex_flags is None iff no flags were written.", "quantifier": "every flag string of any length, every accepted query", "why_tests_cant": "all strings over the flag alphabet", "anchors": ["src/fcsql/parser.py:ExpressionTreeBuilder.visitRegexp", "src/fcsql/parser.py:Expression.__init__"]}
{"id": "C18", "title": "Every regex value is expressible (literal round trip)", "statement": "For every string s of Unicode code points, quoting it (backslash-escaping backslash and the quote character) gives a string literal that is one REGEXP token and parses to an Expression whose regex is s (after the configured normalization); with either quote character.", "quantifier": "every string of code points", "why_tests_cant": "encode/decode round trip over all strings", "anchors": ["src/fcsql/parser.py:ExpressionTreeBuilder.stripQuotes", "src/fcsql/parser.py:ExpressionTreeBuilder.unescapeString", "src/fcsql/FCSLexer.g4:QUOTED_STRING"]}
{"id": "C19", "title": "Every literal the lexer accepts is decoded", "statement": "Every string literal accepted by the lexer is accepted by the decoder, except escapes \\} and \\] and \\UHHHHHHHH beyond U+10FFFF, which are rejected; decoding never runs off the end of the literal.", "quantifier": "every string literal token", "why_tests_cant": "all literals; index arithmetic in the decoder", "anchors": ["src/fcsql/parser.py:ExpressionTreeBuilder.unescapeString", "src/fcsql/parser.py:ExpressionTreeBuilder.unescapeUnicode", "src/fcsql/FCSLexer.g4:ESCAPED_CHAR"]}
{"id": "C20", "title": "Escape semantics", "statement": "Decoding maps each piece of a literal independently: a plain character to itself; \\\\,\\\",\\' to the bare character; \\n,\\t to newline/tab; \\ followed by one of .^$*+?(){[| to backslash plus that character (regex escape preserved); \\xHH, \\uHHHH, \\UHHHHHHHH to the code point with that hexadecimal value.", "quantifier": "every string literal token", "why_tests_cant": "all literals, all code points", "anchors": ["src/fcsql/parser.py:ExpressionTreeBuilder.unescapeString", "src/fcsql/parser.py:ExpressionTreeBuilder.parseHexChar"]}
{"id": "C21", "title": "Unicode normalization is applied once, to regex values only", "statement": "With normalization form F every Expression.regex in the tree is normalize(F, decoded literal); with None it is the decoded literal itself. Apart from regex values the tree does not depend on the normalization form, nor does acceptance.", "quantifier": "every query, every form, every behaviour of unicodedata.normalize", "why_tests_cant": "all strings and an external function", "anchors": ["src/fcsql/parser.py:ExpressionTreeBuilder.visitRegexp"]}
{"id": "C22", "title": "Defaults apply to implicit queries only", "statement": "A bare string literal yields an Expression with the parser's default_identifier and default_operator and no qualifier; a bracketed expression yields exactly the identifier, operator and qualifier written. Changing the defaults changes nothing but the identifier/operator of the Expressions coming from bare literals.", "quantifier": "every query, every pair of configurations", "why_tests_cant": "2-run property over all queries", "anchors": ["src/fcsql/parser.py:ExpressionTreeBuilder.visitQuery_implicit", "src/fcsql/parser.py:ExpressionTreeBuilder.visitExpression_basic", "src/fcsql/parser.py:ExpressionTreeBuilder.visitAttribute"]}
{"id": "C23", "title": "Identifiers and qualifiers are well-formed", "statement": "Every identifier and qualifier written in an accepted query and appearing in the tree matches [a-zA-Z]([a-zA-Z0-9-]*[a-zA-Z0-9])?, is a contiguous substring of the query, and qualifier is None iff no 'q:' prefix was written; keywords (within, scopes, flag letters) are usable as identifiers and qualifiers.", "quantifier": "every accepted query, every Expression", "why_tests_cant": "all identifiers", "anchors": ["src/fcsql/FCSParser.g4:attribute", "src/fcsql/FCSLexer.g4:IDENTIFIER", "src/fcsql/parser.py:ExpressionTreeBuilder.visitAttribute"]}
{"id": "C24", "title": "Source locations: all or none", "statement": "With enableSourceLocations every node of the returned tree has a location; without it no node has one; apart from locations the two trees are identical and acceptance is the same.", "quantifier": "every query, every node", "why_tests_cant": "2-run property over all trees", "anchors": ["src/fcsql/parser.py:SourceLocation.fromContext", "src/fcsql/parser.py:ExpressionTreeBuilder"]}
{"id": "C25", "title": "Source locations are in bounds and nested", "statement": "Every location satisfies 0 <= start < stop <= len(query); each child's range lies inside its parent's range; the ranges of consecutive siblings are disjoint and ordered.", "quantifier": "every accepted query, every node", "why_tests_cant": "all trees, all whitespace layouts", "anchors": ["src/fcsql/parser.py:SourceLocation.fromContext"]}
{"id": "C26", "title": "A node's source fragment is its own text", "statement": "For every node of a returned tree, query[location.start:location.stop] begins with the first character of the node's first token and ends with the last character of its last token, and tokenizes to exactly that node's tokens.", "quantifier": "every accepted query, every node", "why_tests_cant": "all queries and nodes", "anchors": ["src/fcsql/parser.py:SourceLocation.fromContext", "src/fcsql/validation.py:Validator.validation_error"]}
{"id": "C27", "title": "Parent links are consistent", "statement": "In the object graph returned by parse, root.parent is None and for every node n and every child c in n.children, c.parent is n; every node object occurs exactly once in the tree.", "quantifier": "every accepted query, every node", "why_tests_cant": "heap-shape invariant of mutable objects", "anchors": ["src/fcsql/parser.py:QueryNode.__init__", "src/fcsql/parser.py:ExpressionTreeBuilder"]}
{"id": "C28", "title": "get_child returns a child or None", "statement": "get_child(i) returns the i-th child for 0 <= i < child_count and None for every other integer (index out of bounds), as documented; get_child(i, clazz) returns the i-th child of that class or None; neither raises.", "quantifier": "every node, every integer index, every class filter", "why_tests_cant": "all indices including the boundary child_count", "anchors": ["src/fcsql/parser.py:QueryNode.get_child"]}
{"id": "C29", "title": "get_first_child / get_last_child", "statement": "get_first_child(clazz) returns the first child of class clazz and get_last_child(clazz) the last child of class clazz (any class if omitted), None if there is none.", "quantifier": "every node, every class filter", "why_tests_cant": "all child lists", "anchors": ["src/fcsql/parser.py:QueryNode.get_first_child", "src/fcsql/parser.py:QueryNode.get_last_child"]}
{"id": "C30", "title": "Expression predicates mean what they say", "statement": "has_layer_identifier(i), has_operator(o), has_regex_flag(f) hold iff the expression has that identifier/operator/flag; is_layer_qualifier_empty() iff there is no qualifier; has_layer_qualifier(q) iff the qualifier is q; is_regex_flags_empty() iff there are no flags.", "quantifier": "every Expression object and argument", "why_tests_cant": "all values", "anchors": ["src/fcsql/parser.py:Expression"]}
{"id": "C31", "title": "Visitors dispatch to the method of the node's class", "statement": "QueryVisitor.visit(node) calls the handler visit_X documented for the node's class (the methods listed in QueryVisitorAdapter), so overriding visit_X is called for exactly the X nodes.", "quantifier": "every tree, every visitor, every subset of overridden methods", "why_tests_cant": "all trees and all visitor subclasses", "anchors": ["src/fcsql/parser.py:QueryVisitor.visit", "src/fcsql/parser.py:QueryVisitorAdapter", "src/fcsql/parser.py:QueryNodeType", "src/fcsql/parser.py:QueryGroup.__init__"]}
{"id": "C32", "title": "Default traversal visits every node once, in preorder", "statement": "A visitor whose handlers do their work and then call visitChildren sees every node of the tree exactly once, parents before children and children left to right; a visitor without overridden methods has no effect and returns None.", "quantifier": "every tree and visitor", "why_tests_cant": "all trees", "anchors": ["src/fcsql/parser.py:QueryVisitor.visitChildren"]}
{"id": "C33", "title": "str() of a node identifies the tree", "statement": "str(node) shows type, operands, occurrence bounds, flags (always in order iIld) and location of every node; trees that differ have different strings.", "quantifier": "every pair of trees", "why_tests_cant": "injectivity over all trees", "anchors": ["src/fcsql/parser.py:QueryNode.__str__", "src/fcsql/parser.py:Expression.__str__", "src/fcsql/parser.py:QuerySegment.__str__"]}
{"id": "C34", "title": "Validator verdict is the conjunction of per-expression rules", "statement": "FCSQLValidator.validate(node) is True iff no Expression in the tree, at any depth, violates the layer-identifier rule or the qualifier rule (and, with warnings_as_errors, none triggers a warning); errors and warnings list exactly the violations in document order.", "quantifier": "every tree (any depth), every validator configuration", "why_tests_cant": "all trees and configurations", "anchors": ["src/fcsql/validation.py:FCSQLValidator.visit_Expression", "src/fcsql/validation.py:Validator.validate"]}
{"id": "C35", "title": "Raising and collecting agree", "statement": "With raise_at_first_violation, validate raises iff collecting mode would report an issue that counts as error, and the exception carries the message, node and fragment of the first such issue in document order; is_valid gives the same Boolean in both modes.", "quantifier": "every tree, every configuration", "why_tests_cant": "2-run property over all trees", "anchors": ["src/fcsql/validation.py:Validator.validation_error", "src/fcsql/validation.py:Validator.validation_warning", "src/fcsql/validation.py:Validator.is_valid"]}
{"id": "C36", "title": "A validator object can be reused", "statement": "The outcome of validate(node, query=q), and errors/warnings afterwards, do not depend on previous validate/is_valid calls on the same object, including calls that raised.", "quantifier": "every history of calls on one validator", "why_tests_cant": "histories of a mutable object with exceptions", "anchors": ["src/fcsql/validation.py:Validator.validate", "src/fcsql/validation.py:Validator.is_valid"]}
{"id": "C37", "title": "fcsql.validate: Boolean and list modes agree", "statement": "validate(q) is True iff validate(q, return_errors=True) == [], for the same warnings_as_errors; neither raises for a known version; an unknown version raises ValueError whatever the query.", "quantifier": "every query string, every flag combination, every version string", "why_tests_cant": "2-run property over all strings", "anchors": ["src/fcsql/__init__.py:validate"]}
{"id": "C38", "title": "fcsql.validate reports errors AND warnings", "statement": "With return_errors=True the returned list contains all errors and all warnings of the query (documented); every listed parse failure or violation is included.", "quantifier": "every query string", "why_tests_cant": "all strings", "anchors": ["src/fcsql/__init__.py:validate"]}
{"id": "C39", "title": "warnings_as_errors only makes validation stricter", "statement": "If validate(q, warnings_as_errors=True) is True then validate(q) is True; the issue list without it is a sublist of the one with it.", "quantifier": "every query", "why_tests_cant": "monotonicity over all strings", "anchors": ["src/fcsql/__init__.py:validate", "src/fcsql/validation.py:Validator.validate"]}
{"id": "C40", "title": "Issue positions and fragments point into the query", "statement": "Every validation issue reported by fcsql.validate carries position = location of the offending Expression and fragment = query[start:stop], which is the text of that expression, non-empty.", "quantifier": "every accepted query, every issue", "why_tests_cant": "all queries", "anchors": ["src/fcsql/validation.py:Validator.validation_error", "src/fcsql/validation.py:Validator.validation_warning"]}
{"id": "C41", "title": "Syntax-error details point into the query", "statement": "For a syntax error at a token, position is the token's range and fragment the query prefix ending with it; for a lexical error position is the offset of the offending text in the raw query string. Fragments are always prefixes of the query.", "quantifier": "every query with errors", "why_tests_cant": "all queries, including multi-line ones", "anchors": ["src/fcsql/parser.py:ErrorListener.syntaxError", "src/fcsql/parser.py:SourceLocation.fromToken"]}
{"id": "C42", "title": "is_likely_a_regex characterised", "statement": "is_likely_a_regex(s) is True iff s contains a character other than space that re.escape would escape (one of ()[]{}?*+-|^$\\.&~# or tab, newline, CR, VT, FF).", "quantifier": "every string", "why_tests_cant": "all strings", "anchors": ["src/fcsql/validation.py:is_likely_a_regex"]}
{"id": "C43", "title": "Validator parent tracking", "statement": "While a visit_ handler runs, parent_node is the parent of the visited node (documented); after validate returns the tracking stack is empty again.", "quantifier": "every tree, every node", "why_tests_cant": "all trees, exceptional exits included", "anchors": ["src/fcsql/validation.py:Validator.parent_node", "src/fcsql/validation.py:Validator.visit_Expression"]}
{"id": "C44", "title": "within clause", "statement": "'Q within S' yields QueryWithWithin(parse(Q), scope) where S in {sentence,s}/{utterance,u}/{paragraph,p}/{turn,t}/{text}/{session} maps to the corresponding scope; any other word after within is rejected; without within the root is never QueryWithWithin.", "quantifier": "every query and scope word", "why_tests_cant": "all queries Q", "anchors": ["src/fcsql/parser.py:ExpressionTreeBuilder.visitQuery", "src/fcsql/parser.py:ExpressionTreeBuilder.visitWithin_part_simple"]}
{"id": "C45", "title": "Sequences compose", "statement": "If q1..qn (n >= 2) each parse to a QuerySegment or QueryGroup, their space-separated concatenation parses to a QuerySequence whose children are, in order, exactly those trees.", "quantifier": "every n >= 2 and all such queries", "why_tests_cant": "compositionality over all queries", "anchors": ["src/fcsql/FCSParser.g4:query_sequence", "src/fcsql/parser.py:ExpressionTreeBuilder.visitQuery_sequence"]}
{"id": "C46", "title": "Disjunctions compose", "statement": "If q1..qn (n >= 2) each parse to a QuerySegment or a QuerySequence, 'q1 | ... | qn' parses to a QueryDisjunction whose children are, in order, exactly those trees; an operand that is a QueryGroup appears wrapped in a one-element QuerySequence.", "quantifier": "every n >= 2 and all such queries", "why_tests_cant": "compositionality over all queries", "anchors": ["src/fcsql/FCSParser.g4:query_disjunction", "src/fcsql/parser.py:ExpressionTreeBuilder.visitQuery_disjunction"]}
{"id": "C47", "title": "Whole-language round trip", "statement": "(a) For every abstract query (segments, groups, sequences, disjunctions, quantifiers, within; expressions are disjunctions of conjunctions of negated comparisons or parenthesised expressions, with no negation that would swallow a later operand, see C12) the canonical text of the query parses back to exactly that abstract query. (b) For every query that parses, the canonical text of the returned tree parses, and to the same tree (source locations aside), provided the configured string normalization is idempotent.", "quantifier": "every abstract query of any size", "why_tests_cant": "encode/decode round trip over all abstract syntax trees", "anchors": ["src/fcsql/parser.py:QueryParser.parse", "src/fcsql/FCSParser.g4", "src/fcsql/FCSLexer.g4"]}
{"id": "C48", "title": "Trailing or leading garbage is never ignored", "statement": "parse(q) succeeds only if every non-whitespace character of q belongs to a token of the returned parse; in particular if q parses, q followed by any character that is neither whitespace nor able to start/extend a token is rejected.", "quantifier": "every query string and every illegal character", "why_tests_cant": "all strings", "anchors": ["src/fcsql/FCSParser.g4:query", "src/fcsql/FCSLexer.g4"]}
{"id": "C49", "title": "Layout of accepted text", "statement": "A query has no lexical error and tokens t1..tn exactly if its text is t1..tn with any whitespace around them, whitespace being needed only between two tokens that would otherwise be read as one (two words or numbers, a word or number followed by a letter, digit or '-' that continues it, '!' followed by '='); the type of a token is determined by its text.", "quantifier": "every string and every token list", "why_tests_cant": "all strings", "anchors": ["src/fcsql/FCSLexer.g4"]}
{"id": "C50", "title": "Parentheses group", "statement": "If q parses to a query without within, '(q)' parses to a QueryGroup with bounds (1,1) whose only child is that tree (a QuerySegment or QueryGroup wrapped in a one-element QuerySequence).", "quantifier": "every query q", "why_tests_cant": "compositionality over all queries, nesting depth unbounded", "anchors": ["src/fcsql/FCSParser.g4:query_group", "src/fcsql/parser.py:ExpressionTreeBuilder.visitQuery_group"]}
{"id": "C51", "title": "A quantifier changes only the bounds", "statement": "If q parses to a QuerySegment or QueryGroup and does not end with a quantifier, then q followed by a quantifier (*, +, ?, {n}, {n,}, {,m}, {n,m} with n <= m) parses to the same node with exactly the bounds of that quantifier.", "quantifier": "every such query and every quantifier text", "why_tests_cant": "all queries and all numbers", "anchors": ["src/fcsql/FCSParser.g4:quantifier", "src/fcsql/parser.py:ExpressionTreeBuilder.visitQuantifier"]}
{"id": "C52", "title": "The generated parser network is the published grammar", "statement": "The integers embedded in FCSParser.py decode to a transition network in which the paths through each rule are exactly the derivations of that rule in FCSParser.g4 (children and consumed tokens).", "quantifier": "every rule, every token list, every list of children", "why_tests_cant": "the network has cycles and recursion: infinitely many paths", "anchors": ["src/fcsql/FCSParser.py:serializedATN", "src/fcsql/FCSParser.g4"]}
{"id": "C53", "title": "The generated parser functions implement the grammar", "statement": "Every generated rule function terminates on every token list; whatever the runtime predicts, a run without reported error has built a derivation tree of the consumed tokens; and with a correct predictor, FCSParser.query() builds exactly the tree of C09-C11, or reports an error exactly if there is none (the one-token lookahead tests and bit masks in the functions never decide wrongly).", "quantifier": "every token list / query string and every predictor", "why_tests_cant": "all inputs, unbounded nesting, all behaviours of the prediction engine", "anchors": ["src/fcsql/FCSParser.py:FCSParser", "src/fcsql/FCSParser.g4"]}
{"id": "C54", "title": "The generated lexer network is the published lexer grammar", "statement": "The integers embedded in FCSLexer.py decode to a network whose i-th alternative accepts exactly the language of the i-th non-fragment rule of FCSLexer.g4, with its token type, and with a skip action for Space only; queries are cut into pieces as this network prescribes.", "quantifier": "every string", "why_tests_cant": "infinite languages", "anchors": ["src/fcsql/FCSLexer.py:serializedATN", "src/fcsql/FCSLexer.g4"]}
{"id": "C55", "title": "Node types identify node classes", "statement": "node.has_node_type(t) is True exactly if node is an instance of the class documented for t; None as argument of has_node_type and of the Expression predicates raises TypeError.", "quantifier": "every node (parsed or constructed) and every node type", "why_tests_cant": "all trees", "anchors": ["src/fcsql/parser.py:QueryNode.has_node_type", "src/fcsql/parser.py:QueryNodeType", "src/fcsql/parser.py:QueryGroup.__init__"]}
{"id": "C56", "title": "Typed accessors return the parts of a node", "statement": "get_query/get_within of a QueryWithWithin, get_expression of a QuerySegment, get_content of a QueryGroup and operands of ExpressionAnd/Or return the parts the node was made of (of the right kinds in parsed trees) and do not raise; get_within returns None if there is no within clause.", "quantifier": "every node of every parsed tree, and every constructed node", "why_tests_cant": "all trees", "anchors": ["src/fcsql/parser.py:QueryWithWithin", "src/fcsql/parser.py:QuerySegment.get_expression", "src/fcsql/parser.py:QueryGroup.get_content", "src/fcsql/parser.py:ExpressionAnd.operands", "src/fcsql/parser.py:ExpressionOr.operands"]}
{"id": "C57", "title": "The Expression constructor normalises its arguments", "statement": "Expression(...) keeps identifier, operator and regex; a None, empty or whitespace-only qualifier becomes None, any other is kept; None or empty flags become None, any others are kept.", "quantifier": "all strings, all sets of flags", "why_tests_cant": "infinite domain of strings", "anchors": ["src/fcsql/parser.py:Expression.__init__"]}
{"id": "C58", "title": "Parent links after any construction history", "statement": "After any sequence of node constructor calls, a node's parent is the node created by the last call that was given it as a child (None if there was none), children, attributes and location are as given; the links are consistent with the children lists exactly if no node was given to two calls; following parent links always ends.", "quantifier": "every history of constructor calls", "why_tests_cant": "all histories", "anchors": ["src/fcsql/parser.py:QueryNode.__init__"]}
{"id": "C59", "title": "Visitor results", "statement": "visitChildren asks shouldVisitNextChild before every child, stops at the first refusal or exception, and combines the results with aggregateResult in order starting from defaultResult; by default the result is that of the last child. A visitor that stops at the first result returns the first one in document order and looks at no later node.", "quantifier": "every tree and every visitor", "why_tests_cant": "all trees, unbounded depth and width, all visitors", "anchors": ["src/fcsql/parser.py:QueryVisitor.visitChildren", "src/fcsql/parser.py:QueryVisitor.aggregateResult", "src/fcsql/parser.py:QueryVisitor.shouldVisitNextChild"]}
{"id": "C60", "title": "Parser objects do not influence each other", "statement": "In a program that creates any number of QueryParser objects, changes their settings and calls parse in any order, every call has the outcome a new parser with the current settings of that object would give, and an object's errors are those of the last parse call on it, with the settings at that time.", "quantifier": "every history of operations on several parser objects", "why_tests_cant": "all histories", "anchors": ["src/fcsql/parser.py:QueryParser"]}
{"id": "C61", "title": "Concurrent parse calls on one parser", "statement": "If several threads call parse on one QueryParser (whose settings are not changed meanwhile), every call has the outcome it has alone, under every interleaving, and calls do not block each other; the errors attribute is that of the call that finishes last.", "quantifier": "every interleaving of every number of calls", "why_tests_cant": "all schedules", "anchors": ["src/fcsql/parser.py:QueryParser.parse"]}
{"id": "C62", "title": "What of the environment matters", "statement": "The tree of an accepted query depends on the environment only through unicodedata.normalize (for the parser's form) and the interpreter's integer digit limit, and a laxer limit never changes a tree; without normalisation and without integers the tree is the same everywhere.", "quantifier": "every query and every two environments", "why_tests_cant": "all environments cannot be enumerated", "anchors": ["src/fcsql/parser.py:QueryParser.parse", "src/fcsql/parser.py:ExpressionTreeBuilder"]}
{"id": "C63", "title": "Context accessors reach every child", "statement": "In the parse tree antlr_parse returns, every child of every context is returned by the accessor method of the context named after the child's rule or token; X(i) is the i-th of X() (None out of range); accessors without parameter have at most one child to return; how many children each accessor can find is bounded by the grammar (mandatory ones never return None).", "quantifier": "every accepted query, every context of its tree, every accessor and index", "why_tests_cant": "all trees, unbounded depth and width", "anchors": ["src/fcsql/FCSParser.py:*Context", "src/fcsql/__init__.py:antlr_parse"]}
{"id": "C64", "title": "Walking a parse tree with a listener", "statement": "Walking the tree of a query with a FCSParserListener calls enterX/exitX (X the capitalized rule name) around the children of every context, in document order, enterEveryRule before and exitEveryRule after them, visitTerminal with exactly the tokens of the query and EOF; the first exception ends the walk; the calls determine the tree.", "quantifier": "every query, every tree, every listener (any state, any exceptions)", "why_tests_cant": "all trees and all listeners", "anchors": ["src/fcsql/FCSParserListener.py:FCSParserListener", "src/fcsql/FCSParser.py:*Context.enterRule", "src/fcsql/FCSParser.py:*Context.exitRule"]}
{"id": "C65", "title": "Visiting a parse tree with FCSParserVisitor", "statement": "Visiting a tree with a subclass of FCSParserVisitor that overrides some visitX methods, doing work and then visiting the children, does that work at exactly the contexts of these rules, in document order, and stops at the first exception; collecting terminals gives the tokens of the query. A visitor that overrides defaultResult, aggregateResult, shouldVisitNextChild and visitTerminal returns, for every tree, the results of the children combined from left to right, beginning with the default result, until no more children are wanted.", "quantifier": "every query, every tree, every choice of overridden methods and every work", "why_tests_cant": "all trees and all visitors", "anchors": ["src/fcsql/FCSParserVisitor.py:FCSParserVisitor", "src/fcsql/FCSParser.py:*Context.accept"]}
{"id": "C66", "title": "Fragments are queries", "statement": "The piece of the text that a segment, group, sequence or alternative of the tree covers (its location) is itself an accepted query, and its tree is that node, with locations counted from the start of the piece (a sequence of one item gives the item); the piece of a comparison, parenthesised expression, disjunction or of the whole content of a segment or parentheses, put into brackets, is a query whose segment has that node as expression. For conjunctions and negations that are only a part of an expression this is false: a counterexample is proved.", "quantifier": "every accepted query and every node of its tree", "why_tests_cant": "all queries, all nodes, unbounded depth", "anchors": ["src/fcsql/parser.py:QueryParser.parse", "src/fcsql/parser.py:SourceLocation"]}
{"id": "C67", "title": "Locations in combined queries", "statement": "With locations recorded: whitespace around a query only moves its tree; in queries joined by spaces or by ' | ' every part has the tree it has alone, moved to where its text is; 'Q within w' keeps the tree of Q and the within node is where w is; parentheses move the content by one and cover the whole text; a quantifier extends the node to the end of the text and leaves its parts where they are.", "quantifier": "all queries, all lists of queries, any lengths", "why_tests_cant": "all combinations, unbounded lengths", "anchors": ["src/fcsql/parser.py:SourceLocation", "src/fcsql/parser.py:ExpressionTreeBuilder"]}
{"id": "C68", "title": "Validation of combined queries", "statement": "What fcsql.validate reports about a query put together from queries is what it reports about the parts: for parts joined by spaces or ' | ' the lists of the parts one after the other (errors before warnings), with positions moved to where the parts are and the same messages and fragments; it is valid exactly if all parts are; parentheses and surrounding whitespace only move the positions; a within clause or a quantifier changes nothing.", "quantifier": "all queries, all lists of queries, both modes, with and without warnings_as_errors", "why_tests_cant": "all combinations, unbounded lengths", "anchors": ["src/fcsql/__init__.py:validate", "src/fcsql/validation.py:FCSQLValidator"]}
{"id": "C69", "title": "What the verdict of a validator depends on", "statement": "The verdict of FCSQLValidator.is_valid depends only on the tree without its locations, the allowed layers and qualifiers and warnings_as_errors, not on the query text, the raising mode or earlier uses; a tree is valid exactly if its root alone and its subtrees are; allowing more layers or more qualifiers makes no tree invalid; a list with only layers of the specification is stricter than no list; an empty list is the same as no list.", "quantifier": "every tree (parsed or constructed), all options, every state of the validator object", "why_tests_cant": "all trees and options", "anchors": ["src/fcsql/validation.py:FCSQLValidator", "src/fcsql/validation.py:Validator.is_valid"]}
{"id": "C70", "title": "Recursion depth is nesting, not length", "statement": "The parse tree of an accepted query, the chain of active rule functions of the generated parser and the recursion of the tree builder are at most 12 levels deep plus 3 per level of parentheses plus 6 per '!', whatever the length of the query; with room for that many levels, QueryParser.parse does the same as without a limit; with less room it does the same or raises QueryParserException ('an unexpected exception occured while parsing'), never returns another tree. No limit is enough for all queries: nested parentheses are accepted at any depth and need at least that many levels.", "quantifier": "all accepted queries, every recursion limit", "why_tests_cant": "unbounded lengths and nesting depths, every limit", "anchors": ["src/fcsql/parser.py:QueryParser.parse", "src/fcsql/parser.py:ExpressionTreeBuilder", "src/fcsql/FCSParser.py:FCSParser"]}
{"id": "C71", "title": "Different spellings of the same query", "statement": "Apart from locations, the tree of a query depends on its tokens only through their types and what they mean: a token can be replaced, where it stands, by another of the same type that means the same (a literal with other quotes or other escapes but the same normalised value, an integer with leading zeros, flags in another order or repeated or c for i, the long or short word of a scope after within) and the new query parses to the same tree, or both fail. Flag letters and scope words used as layer or qualifier names are names and count by their text.", "quantifier": "all queries, all token sequences with the same types and meanings, all settings", "why_tests_cant": "all queries and all respellings, unbounded lengths", "anchors": ["src/fcsql/parser.py:QueryParser.parse", "src/fcsql/parser.py:ExpressionTreeBuilder"]}
{"id": "C72", "title": "Validators written by users", "statement": "For a subclass of Validator whose visit_ handlers report issues through validation_error and validation_warning (depending on the node and on parent_node) and then call the super method: in collecting mode errors and warnings are exactly the reported issues in document order, with location and fragment, and the result is True exactly if nothing counts as an error; in raising mode the first issue that counts is raised and warnings before it are recorded; both modes agree. Handlers under names that are looked up for no class have no effect. If handlers do not look at parent_node the outcome does not depend on earlier uses of the object; if they do, it depends on them only through the nodes a call that raised left on the stack.", "quantifier": "every tree (parsed or constructed), every set of handlers of this form, every state of the validator object, both modes", "why_tests_cant": "all trees, all handlers, all histories", "anchors": ["src/fcsql/validation.py:Validator", "src/fcsql/validation.py:Validator.validate", "src/fcsql/validation.py:Validator.validation_error", "src/fcsql/validation.py:Validator.validation_warning"]}
{"id": "C73", "title": "Accessors and predicates of nodes, exactly", "statement": "What the accessors do on every node, including where this differs from their documentation: get_child(i, clazz) raises IndexError exactly if no class is given and i is the (non-zero) number of children and otherwise returns the i-th child (of the class) or None; get_first_child and get_last_child never raise, get_last_child(clazz) is None unless all children are of the class; get_query, get_expression, get_content raise exactly if there is no child, get_within exactly if there is one; is_layer_qualifier_empty is True exactly if a non-blank qualifier was given, has_layer_qualifier is never True, is_regex_flags_empty is True exactly if flags were given; every node has exactly one node type, that of its class, a QueryGroup that of segments.", "quantifier": "every node, every index, every class and every constructor argument", "why_tests_cant": "all nodes and arguments", "anchors": ["src/fcsql/parser.py:QueryNode.get_child", "src/fcsql/parser.py:QueryNode.get_last_child", "src/fcsql/parser.py:Expression", "src/fcsql/parser.py:QueryWithWithin.get_within"]}
{"id": "C74", "title": "Dispatch of QueryVisitor, exactly", "statement": "visit(node) calls the method named visit_ followed by the node type's value (visit_Wildcard, visit_Group, visit_Not, visit_And, visit_Or for the expression classes, visit_QuerySegment for QuerySegment and QueryGroup) if the visitor has it, and visitChildren otherwise; work done in such methods is done at exactly the nodes of these classes, in document order.", "quantifier": "every visitor, every node, every tree", "why_tests_cant": "all visitors and all trees", "anchors": ["src/fcsql/parser.py:QueryVisitor.visit", "src/fcsql/parser.py:QueryVisitorAdapter"]}
{"id": "C75", "title": "Records of lexical errors, exactly", "statement": "For a query whose recognised tokens are grammatical, QueryParser.errors after parse is exactly the list of the texts that are not recognised, in order, each with the message showing the text, no fragment, and as position its column in its line; this is its offset in the query exactly if there is no newline before it.", "quantifier": "every query", "why_tests_cant": "all queries, unbounded lengths", "anchors": ["src/fcsql/parser.py:ErrorListener.syntaxError", "src/fcsql/parser.py:QueryParser.parse"]}
{"id": "C76", "title": "Unrecognised text acts like blanks", "statement": "antlr_parse does the same for a query as for the query with everything the lexer does not recognise replaced by whitespace, character for character: same tokens at the same positions, same tree or SyntaxError; the blanked-out text has no lexical error, and parse finds no syntax error in it exactly if antlr_parse returns for the original.", "quantifier": "every query and every choice of whitespace characters", "why_tests_cant": "all queries, unbounded lengths", "anchors": ["src/fcsql/__init__.py:antlr_parse", "src/fcsql/FCSLexer.g4"]}
{"id": "C77", "title": "The tree builder is a parse-tree visitor", "statement": "ExpressionTreeBuilder can be run on any parse tree as the visitor object it is: the methods the contexts' accept looks for are exactly those it has or inherits; on the tree of antlr_parse it raises or puts exactly one node on its stack, leaving what was there untouched; QueryParser.parse of a query without errors is exactly a visit of the antlr_parse tree with a new builder followed by a pop from its stack.", "quantifier": "every parse tree, every state of the builder's stack, all settings", "why_tests_cant": "all trees and all stacks, unbounded depth", "anchors": ["src/fcsql/parser.py:ExpressionTreeBuilder", "src/fcsql/FCSParser.py:accept", "src/fcsql/FCSParserVisitor.py:FCSParserVisitor"]}
{"id": "C78", "title": "The shipped artifacts end to end", "statement": "QueryParser.parse succeeds with a node exactly if the text is cut into pieces without error by the network serialized in FCSLexer.py, the generated functions of FCSParser.py report no error on these tokens (with a prediction that is right about the network serialized there), and the tree builder's methods, called by name on the resulting contexts, raise nothing and leave this node; otherwise it raises, 'unable to parse query' exactly in the first two cases, and what the builder raised in the third.", "quantifier": "every query, all settings, every correct predictor", "why_tests_cant": "all queries, unbounded lengths", "anchors": ["src/fcsql/parser.py:QueryParser.parse", "src/fcsql/FCSLexer.py", "src/fcsql/FCSParser.py", "src/fcsql/parser.py:ExpressionTreeBuilder"]}
{"id": "C79", "title": "Malformed queries: termination, and when errors are reported", "statement": "The generated parser comes to an end on every query, malformed or not, whatever its error recovery deletes, imagines or skips; it reports no error exactly for the queries antlr_parse accepts, and then builds the tree antlr_parse returns; every error is reported at a token of the query or its end, and there are at most as many reports as tokens, plus one.", "quantifier": "every query, every error strategy (any choice of deletions, insertions and skips, depending on anything that happened before)", "why_tests_cant": "all token sequences, unbounded lengths, and all recovery decisions", "anchors": ["src/fcsql/FCSParser.py", "src/fcsql/__init__.py:antlr_parse", "src/fcsql/parser.py:ErrorListener"]}
{"id": "C80", "title": "The first syntax error is not reported too late", "statement": "A query is malformed exactly if there is a token (or the end) at which it stops being the beginning of some accepted query, and there is only one such place; the first error reported is at this place or before it: the tokens before the one complained about are the beginning of some query, whatever the error recovery does. In a text without unrecognised characters: the text before the offending token can be completed to a query antlr_parse accepts.", "quantifier": "every query, every error strategy", "why_tests_cant": "all token sequences, unbounded lengths, all completions", "anchors": ["src/fcsql/FCSParser.py", "src/fcsql/__init__.py:antlr_parse", "src/fcsql/parser.py:ErrorListener.syntaxError"]}
{"id": "C81", "title": "The SyntaxError of antlr_parse", "statement": "antlr_parse ends for every query, in one way: it returns the tree, or raises SyntaxError with a message 'line L:C ...' where L (from 1) and C (from 0) are line and column of a token (or the end) of the query, and what is before this token is the beginning of some query. For a query without newlines L is 1 and C the offset.", "quantifier": "every query, every error strategy and message text", "why_tests_cant": "all queries, unbounded lengths, any number of lines", "anchors": ["src/fcsql/__init__.py:antlr_parse", "src/fcsql/__init__.py:ExceptionThrowingErrorListener.syntaxError", "src/fcsql/FCSParser.py"]}
{"id": "C82", "title": "The first error record of a failed parse", "statement": "When QueryParser.parse raises because of syntax, the exception shows the message of errors[0], and errors[0] is about the first text the lexer does not recognise, or about a token such that what is before it is the beginning of some query (only if nothing before it is unrecognised). In the latter case position is the range of that token and fragment the query up to its end; the fragment without the token can be completed to an accepted query; the fragment followed by whitespace cannot, if the query really goes wrong at this token.", "quantifier": "every query and every way lexer and parser reports can be interleaved", "why_tests_cant": "all queries, all completions, all interleavings", "anchors": ["src/fcsql/parser.py:QueryParser.parse", "src/fcsql/parser.py:ErrorListener.syntaxError", "src/fcsql/parser.py:ErrorDetail"]}
{"id": "C83", "title": "The shared prediction caches do not matter", "statement": "The lexer and parser classes keep caches that all parsers and threads of a process share and that every query extends. Whatever queries were parsed before, by whichever entry point and with whichever outcome, and whatever other threads store in the caches meanwhile, antlr_parse and QueryParser.parse terminate with the result they have in a fresh process.", "quantifier": "every sequence of calls and every interleaving with other threads' accesses to the caches", "why_tests_cant": "all call histories and schedules", "anchors": ["src/fcsql/FCSParser.py:FCSParser.decisionsToDFA", "src/fcsql/FCSLexer.py:FCSLexer.decisionsToDFA", "src/fcsql/__init__.py:antlr_parse", "src/fcsql/parser.py:QueryParser.parse"]}
{"id": "C84", "title": "The contexts of antlr_parse know their tokens", "statement": "In the tree antlr_parse returns, every context has a start and a stop token: the first and the last token under it (EOF aside). getSourceInterval() is the range of these token indices, never empty; the intervals of the children divide it without gap or overlap (the root's does not include its last child EOF), getText() is the texts of these tokens joined (whitespace is lost; the root's ends in <EOF>), depth() is 1 at the root and one more at children. Source locations in the query tree go from the beginning of start to the end of stop.", "quantifier": "every accepted query and every context of its tree", "why_tests_cant": "all queries, unbounded sizes and nesting", "anchors": ["src/fcsql/FCSParser.py", "src/fcsql/__init__.py:antlr_parse", "examples/run_parse.py", "src/fcsql/parser.py:SourceLocation.fromContext"]}
{"id": "C85", "title": "The text of a parse tree is faithful", "statement": "toStringTree(FCSParser.ruleNames) of a tree from antlr_parse is built from '(name child ... child)' and token texts in which tab, newline and carriage return are escaped. Two accepted queries with the same text have the same tree: rules, and types and (escaped) texts of all tokens; unless a literal contains one of these characters, the same tokens exactly. They parse to the same query tree, source locations aside. The listener of examples/run_parse.py never fails and prints its contexts in document order.", "quantifier": "every pair of accepted queries", "why_tests_cant": "all pairs of queries, unbounded sizes and nesting", "anchors": ["src/fcsql/FCSParser.py:FCSParser.ruleNames", "src/fcsql/__init__.py:antlr_parse", "examples/run_parse.py"]}
{"id": "C86", "title": "What is reported about a query whose syntax is right", "statement": "parse raises with an empty error list exactly if the query has a syntax without errors and something in it is objectionable; the message is the objection to the first such token in the text: in a literal the first escape that is not understood ('invalid escape sequence: ' and the escape) or no code point ('invalid codepoint: U+' and the number in upper case hexadecimal digits), contradicting flags (i or c with I or C before l with anything else), a number beyond the interpreter's digit limit ('invalid integer: ' and the digits), a range with a larger first number ('bad qualifier: min > max (3 > 2)', numbers without leading zeros). If nothing is objectionable the query is accepted. Settings of the parser have no influence on what is reported.", "quantifier": "every query, every setting and every interpreter limit", "why_tests_cant": "all queries: which of several errors is reported must hold for every combination and position", "anchors": ["src/fcsql/parser.py:QueryParser.parse", "src/fcsql/parser.py:ExpressionTreeBuilder.visitRegexp", "src/fcsql/parser.py:ExpressionTreeBuilder.processRepetitionRange", "src/fcsql/parser.py:ExpressionTreeBuilder.parseInt"]}
{"id": "C87", "title": "Prediction is right, and cannot be confused by caches", "statement": "adaptivePredict, asked by a function of the generated parser while it parses a query, answers with the first alternative that can go on with all the remaining tokens, if there is one; whatever it answers is an alternative that exists, and nothing after the end of input matters. sync complains exactly when the next token can neither come next nor the rule end. So the generated parser with the prediction of the runtime library builds exactly the tree of the grammar, or reports an error exactly when there is none; with the shared caches, after any calls and with any interleaving of other threads.", "quantifier": "every query, decision, chain of calls and sequence of remaining tokens; every history and schedule", "why_tests_cant": "all token sequences (unbounded lookahead), all nestings of calls, all schedules", "anchors": ["src/fcsql/FCSParser.py", "src/fcsql/FCSParser.py:FCSParser.decisionsToDFA", "src/fcsql/__init__.py:antlr_parse", "src/fcsql/parser.py:QueryParser.parse"]}
{"id": "C88", "title": "The first syntax error is reported exactly where the query goes wrong", "statement": "The first error is reported at the token (or the end) at which the query stops being the beginning of some accepted query; so the text through the offending token, followed by whitespace, cannot be completed to a query antlr_parse accepts.", "quantifier": "every malformed query, every error strategy", "why_tests_cant": "all token sequences, unbounded lengths, all completions", "anchors": ["src/fcsql/FCSParser.py", "src/fcsql/__init__.py:antlr_parse", "src/fcsql/parser.py:ErrorListener.syntaxError"]}
{"id": "C89", "title": "The error records of a failed parse are determined, complete and in a known order", "statement": "With the error recovery of the ANTLR runtime, parsing ends for every query and what is reported is determined by the query alone (no settings, no Python runtime behaviour). Every record in errors is about a text the lexer does not recognise, or about a token the parser complained of; every unrecognised text has its record, in the order of the text; parser records exist exactly if antlr_parse rejects the query; and an unrecognised text is reported before the parser's complaint about any token after it. The exception shows the message of the first record.", "quantifier": "every query, every setting", "why_tests_cant": "all token sequences, all recovery histories, all interleavings of lexer and parser errors", "anchors": ["src/fcsql/FCSParser.py", "src/fcsql/parser.py:ErrorListener.syntaxError", "src/fcsql/parser.py:QueryParser.parse", "README.md"]}
{"id": "C90", "title": "The forms of syntax error messages", "statement": "Every message of the parser is 'mismatched input X expecting L', 'extraneous input X expecting L', 'missing L at X' or 'no viable alternative at input X', where X shows the offending token (or '<EOF>'; in the last case some tokens up to it) in quotes with newline, tab and carriage return escaped, and L is a non-empty list of token types in a fixed order, in braces if longer than one, from which the types can be read back. antlr_parse raises SyntaxError exactly for rejected queries, with place and message of the first error.", "quantifier": "every query and every message", "why_tests_cant": "all queries, all recovery histories", "anchors": ["src/fcsql/FCSParser.py:FCSParser.literalNames", "src/fcsql/FCSParser.py:FCSParser.symbolicNames", "src/fcsql/__init__.py:antlr_parse", "src/fcsql/__init__.py:ExceptionThrowingErrorListener.syntaxError"]}
{"id": "C91", "title": "The first syntax error message gives sound advice", "statement": "What the first message lists as expected is right: after the text before the offending token, any text of each listed type can be written and the result completed to an accepted query (if <EOF> is listed, the text before is accepted as it is), and the offending token is not of a listed type. If the token is said to be extraneous, the next token is of a listed type. If something is said to be missing, writing any text of a listed type before the offending token makes a text that can be completed. The same for errors[0] of a failed parse of a query in which all characters are recognised.", "quantifier": "every rejected query, every listed token type and every text of that type", "why_tests_cant": "all queries and all completions: existence of a completion is not observable by a test of the message", "anchors": ["src/fcsql/FCSParser.py", "src/fcsql/parser.py:ErrorListener.syntaxError", "src/fcsql/parser.py:QueryParser.parse", "src/fcsql/__init__.py:antlr_parse"]}
{"id": "C92", "title": "There are few error records, but they are not sorted", "statement": "A query of n characters leaves at most n + 1 records in errors (at most one for every unrecognised text, for every token and for the end), and there are queries of every length for which it is n + 1. The records need not be in the order of the text, two records can be about the same token, and parsing goes on after a mistake, so that later mistakes are recorded too.", "quantifier": "every query and every setting (the bound)", "why_tests_cant": "all queries and recovery histories, unbounded lengths", "anchors": ["src/fcsql/FCSParser.py", "src/fcsql/parser.py:ErrorListener.syntaxError", "src/fcsql/parser.py:QueryParser.parse"]}
{"id": "C93", "title": "The lexer, run on the tables of FCSLexer.py, cuts every text as FCSLexer.g4 says", "statement": "The tokens handed out by FCSLexer(InputStream(text)) until EOF are, in order, the longest matches of the first matching rule: their types, offsets, texts, lines and columns are those of the pieces of the text; skipped white space leaves nothing; the error listeners are called once for every unrecognised stretch, in order and at its place, with exactly its text in the message; the end is one EOF token behind the last character. The lexer ends for every text.", "quantifier": "every text (any sequence of code points)", "why_tests_cant": "all texts, unbounded length", "anchors": ["src/fcsql/FCSLexer.py:serializedATN", "src/fcsql/FCSLexer.py:FCSLexer", "src/fcsql/__init__.py:antlr_parse", "src/fcsql/parser.py:QueryParser.parse"]}
{"id": "C94", "title": "The lexer's recursion is bounded, and lexers do not disturb each other", "statement": "However long a text is, the lexer has only a fixed number of recursive calls open and its loops run at most once for each character and once more. What earlier lexers have stored in the shared class attribute decisionsToDFA, and what lexers in other threads store there while this one is at work, does not change the tokens or the errors of any text.", "quantifier": "every sequence of texts, every content of the shared state that earlier lexers can leave, every interleaving", "why_tests_cant": "all histories and interleavings, unbounded", "anchors": ["src/fcsql/FCSLexer.py:FCSLexer.decisionsToDFA", "src/fcsql/FCSLexer.py:FCSLexer.__init__"]}
{"id": "C95", "title": "QueryParser.parse as a whole: lexer, token buffer, parser, recovery, listener and tree builder together", "statement": "QueryParser.parse, in which the parser asks for tokens one at a time, the lexer runs only as far as asked, both report to the same listener in the order in which they get there, the parser predicts and recovers, and the tree builder is run if nothing was reported, ends for every query, and its outcome (tree or exception) and the content of errors are exactly those the other properties describe.", "quantifier": "every query, every setting of the parser, every Python runtime behaviour left open", "why_tests_cant": "all queries of every length, with the interleaving of lexing, prediction, recovery and reporting that each of them causes", "anchors": ["src/fcsql/parser.py:QueryParser.parse", "src/fcsql/parser.py:ErrorListener.syntaxError", "src/fcsql/FCSParser.py", "src/fcsql/FCSLexer.py"]}
{"id": "C96", "title": "What antlr_parse prints and raises", "statement": "antlr_parse ends for every query. If it returns a tree, it has printed to sys.stderr exactly one line 'line L:C token recognition error at: ...' for every unrecognised text of the query, in order, with its line and column. If it raises SyntaxError, the last line printed is the message of the exception, which names line and column of a token up to which the query is the beginning of some query, and the lines before it are those of the first unrecognised texts, with all of those in front of that token.", "quantifier": "every query", "why_tests_cant": "all queries of every length, and how far the lexer has got when the parser gives up", "anchors": ["src/fcsql/__init__.py:antlr_parse", "src/fcsql/__init__.py:ExceptionThrowingErrorListener.syntaxError", "src/fcsql/FCSParser.py", "src/fcsql/FCSLexer.py"]}
{"id": "C97", "title": "Threads that parse at the same time do not disturb each other", "statement": "In a process in which any number of threads call parse, with parser objects they may share and whose settings are not changed, and antlr_parse, as often as they like, every call has the outcome (node or exception; printed lines, tree or SyntaxError) it has in a process of its own, however the threads' accesses to the shared class attributes of lexer and parser are interleaved; a thread that gets its turn often enough comes to an end whatever the others do; errors of a parser object is at any time the complete list of one of the parse calls on it, or what was there before, the latter only until a thread that parses with it has finished; for an object only one thread parses with it is, whenever this thread looks, that of its last call.", "quantifier": "every number of threads, every sequence of calls of each, every interleaving of their accesses to shared state, every pattern of lost cache entries", "why_tests_cant": "all schedules of all programs", "anchors": ["src/fcsql/FCSLexer.py:FCSLexer.decisionsToDFA", "src/fcsql/FCSParser.py:FCSParser.decisionsToDFA", "src/fcsql/parser.py:QueryParser.parse", "src/fcsql/parser.py:QueryParser.errors", "src/fcsql/__init__.py:antlr_parse"]}
{"id": "C98", "title": "One comparison per literal, one node per operator and bracket, linear size", "statement": "In the tree of an accepted query the Expression nodes are, from left to right, those of the literals of the query: each has the qualifier, identifier and operator written before its literal (or the defaults), the literal's characters with escapes resolved and normalised as configured, and the flags written after it. There are as many ExpressionNot nodes as '!', as many groups as '(' and ')', as many operators between the operands of ExpressionAnd nodes as '&' and of ExpressionOr and QueryDisjunction nodes as '|', and as many QuerySegment nodes as '[' and words that stand alone. A query of k tokens has at most 2k+1 nodes; the generated parser calls its rule functions at most 4k+3 times in all, once for each context of the parse tree; and validating the tree reports at most two issues per literal.", "quantifier": "every accepted query, every configuration, every validator options", "why_tests_cant": "all queries of every length and nesting", "anchors": ["src/fcsql/parser.py:QueryVisitor", "src/fcsql/parser.py:QueryParser.parse", "src/fcsql/validation.py:FCSQLValidator", "src/fcsql/FCSParser.py"]}
{"id": "C99", "title": "Debug logging changes nothing, and says what is the case", "statement": "With the logger of fcsql.parser at level DEBUG, parse has the same outcome and leaves the same errors as without; the tree builder builds the same nodes; a visitor whose visit_* attributes are methods, and which does not read the log, has the same result and effects (one with a callable that has no __name__ gets an AttributeError instead). For a query the grammar accepts, the log is the parse tree as text followed by the contexts of the tree as they are entered (with number of children and text) and left, from left to right, a first part of that if the builder raises, and otherwise ending with a stack that consists of the node parse returns. For any other query it shows, for every complaint of the parser in order, the query and below it a caret under the first character of the offending token (behind the query if that is its end), with the message, and the names of the token (at the end of the query those of 'within' and of white space), and finally all records of errors. For a tree visited by a QueryVisitorAdapter it names every node once, parents first, with the method that is called.", "quantifier": "every query, every setting of the parser, every tree, every visitor", "why_tests_cant": "all queries, trees and visitors; a log statement is evaluated at every step of every run", "anchors": ["src/fcsql/parser.py:ErrorListener.syntaxError", "src/fcsql/parser.py:ErrorListener._get_token_name", "src/fcsql/parser.py:ExpressionTreeBuilder", "src/fcsql/parser.py:QueryParser.parse", "src/fcsql/parser.py:QueryVisitor.visit"]}
{"id": "C100", "title": "validate uses the validator that is registered for the version", "statement": "VALIDATORS may be changed by users of the library. In every history of assignments, removals and calls, fcsql.validate uses the validator last assigned to the version asked for, with a new validator object and a new parser object for each call, so that nothing else of the history matters; it raises ValueError, with the version in its message, exactly if there is none, before the query is looked at. If the query cannot be parsed the result is the same whatever the validator. If it can, a validator that reports issues through validation_error and validation_warning gets them returned in document order, errors first, then the warnings if warnings_as_errors, with position and fragment in the query, and without return_errors the result is True exactly if that list is empty; likewise for FCSQLValidator registered with its options. A validator that raises SpecificationValidationError itself makes validate return False even if a list is asked for.", "quantifier": "every history of changes of VALIDATORS and calls of validate, every validator, every query", "why_tests_cant": "all histories, all validators users may write, all queries", "anchors": ["src/fcsql/validation.py:VALIDATORS", "src/fcsql/__init__.py:validate", "src/fcsql/validation.py:Validator.validate", "src/fcsql/validation.py:FCSQLValidator.__init__"]}
{"id": "C101", "title": "The work a query causes is bounded by its size", "statement": "Splitting a text of n >= 1 characters into tokens looks at least n and at most 2 n times at a character, whatever the text is, and a single time if it is empty. Parsing a query of k tokens that is accepted asks the ANTLR runtime for at most k predictions, exactly one for each choice between alternatives in its parse tree and for each |, & (two inside brackets) and {; each looks at what is left of the query only, at most twice at each token and the end; so all of them together look at most 2 k (k + 1) times at a token. No query makes the work more than quadratic in these terms, however it nests.", "quantifier": "every text (characters); every query that antlr_parse accepts (predictions)", "why_tests_cant": "an upper bound for inputs of every size; a test measures one size", "anchors": ["src/fcsql/FCSLexer.py:FCSLexer", "src/fcsql/FCSParser.py:FCSParser", "src/fcsql/__init__.py:antlr_parse"]}
{"id": "C102", "title": "An exception from outside, at any moment, does no harm", "statement": "Whatever arrives during a call of parse from outside - RecursionError, MemoryError, KeyboardInterrupt from Ctrl-C, SystemExit - and at whatever moment: a node is returned only if it is the node the query has; a QueryParserException is the one the query deserves, or the one that says 'an unexpected exception occured while parsing'; a malformed query never yields a node. errors are then a beginning of the records the query would have produced, or, if something arrived before the try statement or while the call was being left, what they were before. An Exception that arrives inside the try block does not leave parse; a KeyboardInterrupt is never turned into another exception. Other calls on the same object, before and after, are not affected. antlr_parse returns the right tree, raises the right SyntaxError, or lets through what arrived, and has printed a beginning of the lines it would have printed. With any recursion limit, parse ends as without it or with the unexpected-exception error, also for malformed queries.", "quantifier": "every query, every moment, every kind of exception, every sequence of calls on an object", "why_tests_cant": "every point in every run; a test can strike only a few points of a few runs", "anchors": ["src/fcsql/parser.py:QueryParser.parse", "src/fcsql/parser.py:QueryParser.errors", "src/fcsql/parser.py:ExpressionTreeBuilder", "src/fcsql/__init__.py:antlr_parse", "src/fcsql/FCSParser.py"]}
{"id": "C103", "title": "A verdict is never wrongly positive when an exception arrives", "statement": "Whatever arrives from outside during can_parse or validate, and whenever: can_parse answers True, validate answers True or an empty list, only if it would have without it. If a RecursionError or MemoryError arrives while the query is parsed, can_parse answers False and validate False, or a list whose first record says 'an unexpected exception occured while parsing', followed by a beginning of the records of the syntax errors. KeyboardInterrupt never changes a verdict: it leaves the call, or came too late to matter. Exceptions that arrive inside the try statement of the parser do not leave can_parse, nor the parsing part of validate.", "quantifier": "every query, version, flags, registry, every moment, every kind of exception", "why_tests_cant": "every point in every run", "anchors": ["src/fcsql/__init__.py:can_parse", "src/fcsql/__init__.py:validate", "src/fcsql/parser.py:QueryParser.parse"]}
{"id": "C104", "title": "How deep the parser's calls are nested, for every query", "statement": "For every query, well-formed or not, the functions of the parser are never nested deeper than 11 calls plus three for each '(' and '!' and two for each word (name, within, scope, flags) in the query - whatever recovery from errors makes them do; so at most 11 + 3 times the length of the query. A recursion limit that leaves this much room changes nothing about parse or antlr_parse: same tree, same exception, same errors. Without parentheses, negations and words eleven calls are enough, however long the query is. For a query that is accepted by the grammar the room needed is exactly the height of its parse tree less one: with that much parse ends as without a limit, with less it always raises the exception for unexpected exceptions, with a beginning of the errors. No limit is enough for every query of the language.", "quantifier": "every query (malformed ones included), every recursion limit, every configuration, every object", "why_tests_cant": "all queries and all ways error recovery can go; a test measures one query", "anchors": ["src/fcsql/parser.py:QueryParser.parse", "src/fcsql/__init__.py:antlr_parse", "src/fcsql/FCSParser.py:FCSParser"]}
{"id": "C105", "title": "How much the parser does, for every query", "statement": "For every query of k tokens, well-formed or not, parse and antlr_parse end after a number of steps that is linear in k: the parser asks the runtime for at most 22 k + 10 predictions, calls its rule functions at most 34 k + 34 times and executes at most 129 k + 118 of their statements, whatever errors there are and however recovery from them goes; all predictions together look at most 2 (k + 1) (22 k + 10) times at a token. With that many steps allowed parse gives the result, the exception and the errors it gives without a bound. For queries the grammar accepts the predictions are exactly those counted in C101.", "quantifier": "every query (malformed ones included), every bound on the number of steps, every configuration", "why_tests_cant": "all queries and all ways error recovery can go; a test measures one query, and a slow one is not noticed", "anchors": ["src/fcsql/parser.py:QueryParser.parse", "src/fcsql/__init__.py:antlr_parse", "src/fcsql/FCSParser.py:FCSParser"]}
{"id": "C106", "title": "What a process keeps between calls", "statement": "Lexers and parsers of a process store what they have computed in tables shared by all of them, for ever. The lexer's table has a bound that does not depend on the texts: at most 12160 edges are ever stored, whatever texts are lexed, one after the other and in any number of threads. The parser's tables have none: a query that begins with N opening brackets leaves at least N different entries there - whatever follows them, whatever was stored before, whatever other threads do, and however soon the parser is stopped; so for every B there is an accepted query, 2 B characters longer than any given one, after which B entries are kept. Nothing is taken out again. But nothing is stored twice: parsing a query again, whatever was parsed in between, stores nothing new in the parser's tables.", "quantifier": "every sequence of texts and queries, every content of the tables, every schedule of other threads, every number of brackets", "why_tests_cant": "the memory of a process after all possible histories; a test observes one process for a short time", "anchors": ["src/fcsql/FCSLexer.py:FCSLexer", "src/fcsql/FCSParser.py:FCSParser", "src/fcsql/__init__.py:antlr_parse", "src/fcsql/parser.py:QueryParser.parse"]}
{"id": "C107", "title": "The parse tree of any query, malformed ones included", "statement": "A client that uses the published parser classes directly - FCSParser(CommonTokenStream(FCSLexer(InputStream(text)))).query() - gets a parse tree for every text, within a number of steps linear in the number of its tokens. Every token of the text occurs in this tree exactly once, in order: nothing that error recovery skips, deletes or stops at is lost, nothing is doubled, and what the parser makes up is marked as such. The tree is not large: of k tokens at most 34 k + 35 contexts and 388 k + 358 nodes. For a text that antlr_parse accepts it is the tree antlr_parse returns, without a report; and if no error is reported, antlr_parse accepts the text with this tree, in which nothing is repaired. A tree that shows a repair (an error node, a token made up, a context with an exception) never comes without a report.", "quantifier": "every text", "why_tests_cant": "all malformed texts, with every combination of repairs; tests look at a few", "anchors": ["src/fcsql/FCSParser.py:FCSParser.query", "src/fcsql/__init__.py:antlr_parse", "src/fcsql/parser.py:QueryParser.parse"]}
{"id": "C108", "title": "Contexts look as their grammar rules say, in any parse tree", "statement": "A client that walks the parse tree of a text that may be malformed can rely on the grammar, context by context. Apart from error nodes (tokens that were deleted or skipped), every context that has no exception holds exactly what its rule in FCSParser.g4 asks for: contexts of the rules named there and tokens of the types named there, in order, where a token may have been made up (then it has the type that was missing) and where one of several alternative tokens may be missing; every context that has an exception holds the beginning of that. So for instance a query context without an exception has a main_query, possibly within and a within_part, and the end of input, in this order. The same holds for calls of any other rule function on a new parser. And errors are always to be seen in the tree: no error is reported exactly when the tree is a derivation tree of the grammar.", "quantifier": "every text, every rule function, every context of the tree", "why_tests_cant": "all malformed texts, with every combination of repairs at every place; tests look at a few trees", "anchors": ["src/fcsql/FCSParser.py:FCSParser", "src/fcsql/FCSParser.g4", "src/fcsql/__init__.py:antlr_parse"]}
