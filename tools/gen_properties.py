#!/usr/bin/env python3
"""Regenerates /verif/properties.jsonl (one JSON object per line)."""
import json, os
P = []
def p(title, statement, quantifier, why, anchors):
    P.append(dict(id=f"C{len(P)+1:02d}", title=title, statement=statement,
                  quantifier=quantifier, why_tests_cant=why, anchors=anchors))
PR = "src/fcsql/parser.py"; VA = "src/fcsql/validation.py"; IN = "src/fcsql/__init__.py"
LG = "src/fcsql/FCSLexer.g4"; PG = "src/fcsql/FCSParser.g4"; LP="src/fcsql/FCSLexer.py"; PP = "src/fcsql/FCSParser.py"

# 1
p("parse never leaks an internal error",
  "QueryParser.parse either returns a query node or raises QueryParserException, and the catch-all message 'an unexpected exception occured while parsing' is never produced by an IndexError/AttributeError/assertion of the tree builder: the only input that can reach it is a string literal with an escape \\UHHHHHHHH whose value is at least 2^31 (chr() then raises OverflowError instead of ValueError on Python < 3.13).",
  "every Python string given as query and every parser configuration (default identifier, operator, normalization form, source locations on/off), no bound on length or nesting (recursion limit excluded)",
  "the builder is an untyped stack machine; a sample of queries cannot show that no grammatical parse tree ever pops the wrong thing",
  [f"{PR}:QueryParser.parse", f"{PR}:ExpressionTreeBuilder"])
# 2
p("Acceptance is exactly: lexable, grammatical, and three local checks",
  "parse(q) succeeds iff (a) q splits into tokens without a lexical error, (b) the token sequence is derivable from the published FCS-QL grammar, and (c) every string literal decodes, every '/flags' suffix is a legal combination and every {n,m} has n <= m (integers within Python's int-digit limit). Nothing else can make a query fail or succeed.",
  "every query string",
  "an iff over all strings; tests only sample accepted and rejected strings",
  [f"{PR}:QueryParser.parse", LG, PG])
# 3
p("errors attribute reflects exactly the last parse",
  "After parse(q) returns, parser.errors is []. If parse raises with message 'unable to parse query: m', errors is non-empty, every entry has type 'syntax-error', and errors[0].message is m. If parse raises with any other message, errors is []. All this is independent of what was parsed before with the same QueryParser object.",
  "every history of parse calls on one QueryParser object, every query",
  "quantifies over call histories of a mutable object",
  [f"{PR}:QueryParser.parse", f"{PR}:ErrorListener.syntaxError"])
# 4
p("can_parse agrees with parse",
  "can_parse(q) is True iff parse(q) returns a node (with default settings), and False iff parse(q) raises QueryParserException; it never raises. Whether a query is accepted does not depend on enableSourceLocations.",
  "every query string", "agreement of two entry points on all strings",
  [f"{IN}:can_parse", f"{IN}:parse"])
# 5
p("antlr_parse raises on erroneous input",
  "antlr_parse(q) raises SyntaxError if an error occurred while parsing q (documented). In particular if antlr_parse(q) returns, q has no lexical and no grammatical error; and whenever parse(q) succeeds antlr_parse(q) succeeds.",
  "every query string", "needs the exact set of strings on which two entry points differ",
  [f"{IN}:antlr_parse", f"{IN}:ExceptionThrowingErrorListener"])
# 6
p("Tokenization is maximal munch with first-rule priority",
  "Each token taken at a position is the longest prefix of the remaining text that any lexer rule matches, and its type is the first rule in grammar order matching that prefix; a lexical error occurs exactly when no rule matches any non-empty prefix.",
  "every query string and position", "longest-match claims range over all prefixes and all rules",
  [LG, f"{LP}:serializedATN"])
# 7
p("Tokens, whitespace and error spans tile the query",
  "Every character of the query belongs to exactly one token, one skipped whitespace character or one reported lexical-error span, in order; each token's text is query[start:stop+1], tokens are non-empty, strictly ordered, and in bounds; without lexical error, all characters outside tokens are one of the 25 whitespace code points of the grammar.",
  "every query string", "a statement about every character of every input",
  [LG, LP])
# 8
p("Whitespace between tokens is irrelevant",
  "If two query strings consist of the same token texts, separated/surrounded by arbitrary (possibly different, non-empty between tokens) runs of grammar whitespace, then parse (without source locations) gives the same tree, or fails on both.",
  "every sequence of tokens and every choice of whitespace runs", "infinitely many whitespace layouts",
  [LG, f"{PR}:QueryParser.parse"])
# 9
p("Parse trees are grammatical and lossless",
  "Whenever parsing reports no error, the parse tree is a derivation tree of the published grammar for rule query and its leaves, left to right, are exactly the tokens of the query followed by EOF: no token is dropped, duplicated, reordered or invented.",
  "every token sequence", "holds for all derivations, including arbitrarily nested ones",
  [PG, PP])
# 10
p("Every grammatical token sequence is accepted",
  "If a token sequence followed by EOF is derivable from rule query, the parser finds a parse tree (no false syntax errors).",
  "every token sequence and derivation", "completeness of a parser cannot be sampled",
  [PG, PP])
# 11
p("Ambiguity is resolved to the lowest alternative",
  "When several derivation trees exist, the parser returns the one that, at the first decision point where two trees differ, takes the earlier grammar alternative (loops and options: continue before leave). The result is therefore unique and deterministic.",
  "every grammatical token sequence and every competing derivation", "compares against all other derivations",
  [PG, PP])
# 12
p("Operator precedence of layer expressions",
  "Take a bracket expression written as '|'-separated chunks of '&'-separated, possibly negated atoms (comparisons or parenthesised expressions). If it has no '!' or at most one '|', it parses to the Or of the Ands of the (negated) atoms: '!' before '&' before '|', as the grammar comments say. In general it does so exactly when its negations are calm: no chunk with several operands behind a chunk that is a lone negation, and no chunk at all behind a chunk with a negation after an '&' (where for the first chunk the last chunk does not count). Otherwise a negation or conjunction swallows a later '|', e.g. a & !b | c | d is (a & (!b | c)) | d.",
  "every expression, any number of operands, any nesting in the parentheses", "unbounded expressions; the documented examples have one '|'",
  [f"{PG}:expression", f"{PG}:expression_or", f"{PG}:expression_and", f"{PG}:expression_not"])
# 13
p("The builder leaves exactly one node",
  "For every grammatical parse tree the tree builder either raises ExpressionTreeBuilderException (or the chr overflow of C01) or ends with exactly one item on its stack, a query node, which is the compositional meaning of the parse tree (each construct's node is built from the nodes of its parts, in order).",
  "every derivation tree", "stack discipline over all trees",
  [f"{PR}:ExpressionTreeBuilder"])
# 14
p("Shape of returned trees",
  "In every returned tree: And, Or and QueryDisjunction have at least 2 children, QuerySequence at least 1, Group/Not/QueryGroup/QuerySegment exactly 1, Expression/Wildcard/SimpleWithin none; QueryWithWithin occurs only as root with exactly [query, SimpleWithin]; SimpleWithin nowhere else; Expression-level nodes occur only below a QuerySegment; a QueryGroup contains a QuerySequence or QueryDisjunction; an Or is never a direct child of an Or, an And never of an And, a sequence never of a sequence.",
  "every query accepted by parse, every node of the tree", "structural invariant of unboundedly many trees",
  [f"{PR}:ExpressionTreeBuilder", PG])
# 15
p("Occurrence bounds are always sane",
  "Every QuerySegment and QueryGroup in a returned tree has min_occurs >= 0 and (max_occurs == -1 (unbounded) or min_occurs <= max_occurs); with no quantifier both are 1.",
  "every accepted query, every node", "all integers, all nodes",
  [f"{PR}:ExpressionTreeBuilder.processRepetition", f"{PR}:ExpressionTreeBuilder.processRepetitionRange"])
# 16
p("Quantifier meaning",
  "'*','+','?' give (0,-1),(1,-1),(0,1); {n} gives (n,n); {n,} gives (n,-1); {,m} gives (0,m); {n,m} gives (n,m) if n<=m and is rejected otherwise, where n and m are the decimal values of the digit strings (leading zeros allowed).",
  "every quantifier and every digit string", "all integers of any size",
  [f"{PR}:ExpressionTreeBuilder.processRepetition", f"{PR}:ExpressionTreeBuilder.getChildIndex", f"{PR}:ExpressionTreeBuilder.parseInt"])
# 17
p("Regex flags meaning and exclusivity",
  "A '/flags' suffix yields the set of flags named by its letters (i,c -> case-insensitive; I,C -> case-sensitive; l -> literal; d -> ignore diacritics) irrespective of order and repetition; it is rejected iff it contains both a case-insensitive and a case-sensitive letter, or 'l' together with any other kind. No returned Expression ever holds an excluded combination, and regex_flags is None iff no flags were written.",
  "every flag string of any length, every accepted query", "all strings over the flag alphabet",
  [f"{PR}:ExpressionTreeBuilder.visitRegexp", f"{PR}:Expression.__init__"])
# 18
p("Every regex value is expressible (literal round trip)",
  "For every string s of Unicode code points, quoting it (backslash-escaping backslash and the quote character) gives a string literal that is one REGEXP token and parses to an Expression whose regex is s (after the configured normalization); with either quote character.",
  "every string of code points", "encode/decode round trip over all strings",
  [f"{PR}:ExpressionTreeBuilder.stripQuotes", f"{PR}:ExpressionTreeBuilder.unescapeString", f"{LG}:QUOTED_STRING"])
# 19
p("Every literal the lexer accepts is decoded",
  "Every string literal accepted by the lexer is accepted by the decoder, except escapes \\} and \\] and \\UHHHHHHHH beyond U+10FFFF, which are rejected; decoding never runs off the end of the literal.",
  "every string literal token", "all literals; index arithmetic in the decoder",
  [f"{PR}:ExpressionTreeBuilder.unescapeString", f"{PR}:ExpressionTreeBuilder.unescapeUnicode", f"{LG}:ESCAPED_CHAR"])
# 20
p("Escape semantics",
  "Decoding maps each piece of a literal independently: a plain character to itself; \\\\,\\\",\\' to the bare character; \\n,\\t to newline/tab; \\ followed by one of .^$*+?(){[| to backslash plus that character (regex escape preserved); \\xHH, \\uHHHH, \\UHHHHHHHH to the code point with that hexadecimal value.",
  "every string literal token", "all literals, all code points",
  [f"{PR}:ExpressionTreeBuilder.unescapeString", f"{PR}:ExpressionTreeBuilder.parseHexChar"])
# 21
p("Unicode normalization is applied once, to regex values only",
  "With normalization form F every Expression.regex in the tree is normalize(F, decoded literal); with None it is the decoded literal itself. Apart from regex values the tree does not depend on the normalization form, nor does acceptance.",
  "every query, every form, every behaviour of unicodedata.normalize", "all strings and an external function",
  [f"{PR}:ExpressionTreeBuilder.visitRegexp"])
# 22
p("Defaults apply to implicit queries only",
  "A bare string literal yields an Expression with the parser's default_identifier and default_operator and no qualifier; a bracketed expression yields exactly the identifier, operator and qualifier written. Changing the defaults changes nothing but the identifier/operator of the Expressions coming from bare literals.",
  "every query, every pair of configurations", "2-run property over all queries",
  [f"{PR}:ExpressionTreeBuilder.visitQuery_implicit", f"{PR}:ExpressionTreeBuilder.visitExpression_basic", f"{PR}:ExpressionTreeBuilder.visitAttribute"])
# 23
p("Identifiers and qualifiers are well-formed",
  "Every identifier and qualifier written in an accepted query and appearing in the tree matches [a-zA-Z]([a-zA-Z0-9-]*[a-zA-Z0-9])?, is a contiguous substring of the query, and qualifier is None iff no 'q:' prefix was written; keywords (within, scopes, flag letters) are usable as identifiers and qualifiers.",
  "every accepted query, every Expression", "all identifiers",
  [f"{PG}:attribute", f"{LG}:IDENTIFIER", f"{PR}:ExpressionTreeBuilder.visitAttribute"])
# 24
p("Source locations: all or none",
  "With enableSourceLocations every node of the returned tree has a location; without it no node has one; apart from locations the two trees are identical and acceptance is the same.",
  "every query, every node", "2-run property over all trees",
  [f"{PR}:SourceLocation.fromContext", f"{PR}:ExpressionTreeBuilder"])
# 25
p("Source locations are in bounds and nested",
  "Every location satisfies 0 <= start < stop <= len(query); each child's range lies inside its parent's range; the ranges of consecutive siblings are disjoint and ordered.",
  "every accepted query, every node", "all trees, all whitespace layouts",
  [f"{PR}:SourceLocation.fromContext"])
# 26
p("A node's source fragment is its own text",
  "For every node of a returned tree, query[location.start:location.stop] begins with the first character of the node's first token and ends with the last character of its last token, and tokenizes to exactly that node's tokens.",
  "every accepted query, every node", "all queries and nodes",
  [f"{PR}:SourceLocation.fromContext", f"{VA}:Validator.validation_error"])
# 27
p("Parent links are consistent",
  "In the object graph returned by parse, root.parent is None and for every node n and every child c in n.children, c.parent is n; every node object occurs exactly once in the tree.",
  "every accepted query, every node", "heap-shape invariant of mutable objects",
  [f"{PR}:QueryNode.__init__", f"{PR}:ExpressionTreeBuilder"])
# 28
p("get_child returns a child or None",
  "get_child(i) returns the i-th child for 0 <= i < child_count and None for every other integer (index out of bounds), as documented; get_child(i, clazz) returns the i-th child of that class or None; neither raises.",
  "every node, every integer index, every class filter", "all indices including the boundary child_count",
  [f"{PR}:QueryNode.get_child"])
# 29
p("get_first_child / get_last_child",
  "get_first_child(clazz) returns the first child of class clazz and get_last_child(clazz) the last child of class clazz (any class if omitted), None if there is none.",
  "every node, every class filter", "all child lists",
  [f"{PR}:QueryNode.get_first_child", f"{PR}:QueryNode.get_last_child"])
# 30
p("Expression predicates mean what they say",
  "has_layer_identifier(i), has_operator(o), has_regex_flag(f) hold iff the expression has that identifier/operator/flag; is_layer_qualifier_empty() iff there is no qualifier; has_layer_qualifier(q) iff the qualifier is q; is_regex_flags_empty() iff there are no flags.",
  "every Expression object and argument", "all values",
  [f"{PR}:Expression"])
# 31
p("Visitors dispatch to the method of the node's class",
  "QueryVisitor.visit(node) calls the handler visit_X documented for the node's class (the methods listed in QueryVisitorAdapter), so overriding visit_X is called for exactly the X nodes.",
  "every tree, every visitor, every subset of overridden methods", "all trees and all visitor subclasses",
  [f"{PR}:QueryVisitor.visit", f"{PR}:QueryVisitorAdapter", f"{PR}:QueryNodeType", f"{PR}:QueryGroup.__init__"])
# 32
p("Default traversal visits every node once, in preorder",
  "A visitor whose handlers do their work and then call visitChildren sees every node of the tree exactly once, parents before children and children left to right; a visitor without overridden methods has no effect and returns None.",
  "every tree and visitor", "all trees",
  [f"{PR}:QueryVisitor.visitChildren"])
# 33
p("str() of a node identifies the tree",
  "str(node) shows type, operands, occurrence bounds, flags (always in order iIld) and location of every node; trees that differ have different strings.",
  "every pair of trees", "injectivity over all trees",
  [f"{PR}:QueryNode.__str__", f"{PR}:Expression.__str__", f"{PR}:QuerySegment.__str__"])
# 34
p("Validator verdict is the conjunction of per-expression rules",
  "FCSQLValidator.validate(node) is True iff no Expression in the tree, at any depth, violates the layer-identifier rule or the qualifier rule (and, with warnings_as_errors, none triggers a warning); errors and warnings list exactly the violations in document order.",
  "every tree (any depth), every validator configuration", "all trees and configurations",
  [f"{VA}:FCSQLValidator.visit_Expression", f"{VA}:Validator.validate"])
# 35
p("Raising and collecting agree",
  "With raise_at_first_violation, validate raises iff collecting mode would report an issue that counts as error, and the exception carries the message, node and fragment of the first such issue in document order; is_valid gives the same Boolean in both modes.",
  "every tree, every configuration", "2-run property over all trees",
  [f"{VA}:Validator.validation_error", f"{VA}:Validator.validation_warning", f"{VA}:Validator.is_valid"])
# 36
p("A validator object can be reused",
  "The outcome of validate(node, query=q), and errors/warnings afterwards, do not depend on previous validate/is_valid calls on the same object, including calls that raised.",
  "every history of calls on one validator", "histories of a mutable object with exceptions",
  [f"{VA}:Validator.validate", f"{VA}:Validator.is_valid"])
# 37
p("fcsql.validate: Boolean and list modes agree",
  "validate(q) is True iff validate(q, return_errors=True) == [], for the same warnings_as_errors; neither raises for a known version; an unknown version raises ValueError whatever the query.",
  "every query string, every flag combination, every version string", "2-run property over all strings",
  [f"{IN}:validate"])
# 38
p("fcsql.validate reports errors AND warnings",
  "With return_errors=True the returned list contains all errors and all warnings of the query (documented); every listed parse failure or violation is included.",
  "every query string", "all strings",
  [f"{IN}:validate"])
# 39
p("warnings_as_errors only makes validation stricter",
  "If validate(q, warnings_as_errors=True) is True then validate(q) is True; the issue list without it is a sublist of the one with it.",
  "every query", "monotonicity over all strings",
  [f"{IN}:validate", f"{VA}:Validator.validate"])
# 40
p("Issue positions and fragments point into the query",
  "Every validation issue reported by fcsql.validate carries position = location of the offending Expression and fragment = query[start:stop], which is the text of that expression, non-empty.",
  "every accepted query, every issue", "all queries",
  [f"{VA}:Validator.validation_error", f"{VA}:Validator.validation_warning"])
# 41
p("Syntax-error details point into the query",
  "For a syntax error at a token, position is the token's range and fragment the query prefix ending with it; for a lexical error position is the offset of the offending text in the raw query string. Fragments are always prefixes of the query.",
  "every query with errors", "all queries, including multi-line ones",
  [f"{PR}:ErrorListener.syntaxError", f"{PR}:SourceLocation.fromToken"])
# 42
p("is_likely_a_regex characterised",
  "is_likely_a_regex(s) is True iff s contains a character other than space that re.escape would escape (one of ()[]{}?*+-|^$\\.&~# or tab, newline, CR, VT, FF).",
  "every string", "all strings",
  [f"{VA}:is_likely_a_regex"])
# 43
p("Validator parent tracking",
  "While a visit_ handler runs, parent_node is the parent of the visited node (documented); after validate returns the tracking stack is empty again.",
  "every tree, every node", "all trees, exceptional exits included",
  [f"{VA}:Validator.parent_node", f"{VA}:Validator.visit_Expression"])
# 44
p("within clause",
  "'Q within S' yields QueryWithWithin(parse(Q), scope) where S in {sentence,s}/{utterance,u}/{paragraph,p}/{turn,t}/{text}/{session} maps to the corresponding scope; any other word after within is rejected; without within the root is never QueryWithWithin.",
  "every query and scope word", "all queries Q",
  [f"{PR}:ExpressionTreeBuilder.visitQuery", f"{PR}:ExpressionTreeBuilder.visitWithin_part_simple"])
# 45
p("Sequences compose",
  "If q1..qn (n >= 2) each parse to a QuerySegment or QueryGroup, their space-separated concatenation parses to a QuerySequence whose children are, in order, exactly those trees.",
  "every n >= 2 and all such queries", "compositionality over all queries",
  [f"{PG}:query_sequence", f"{PR}:ExpressionTreeBuilder.visitQuery_sequence"])
# 46
p("Disjunctions compose",
  "If q1..qn (n >= 2) each parse to a QuerySegment or a QuerySequence, 'q1 | ... | qn' parses to a QueryDisjunction whose children are, in order, exactly those trees; an operand that is a QueryGroup appears wrapped in a one-element QuerySequence.",
  "every n >= 2 and all such queries", "compositionality over all queries",
  [f"{PG}:query_disjunction", f"{PR}:ExpressionTreeBuilder.visitQuery_disjunction"])
# 47
p("Whole-language round trip",
  "(a) For every abstract query (segments, groups, sequences, disjunctions, quantifiers, within; expressions are disjunctions of conjunctions of negated comparisons or parenthesised expressions, with no negation that would swallow a later operand, see C12) the canonical text of the query parses back to exactly that abstract query. (b) For every query that parses, the canonical text of the returned tree parses, and to the same tree (source locations aside), provided the configured string normalization is idempotent.",
  "every abstract query of any size", "encode/decode round trip over all abstract syntax trees",
  [f"{PR}:QueryParser.parse", PG, LG])
# 48
p("Trailing or leading garbage is never ignored",
  "parse(q) succeeds only if every non-whitespace character of q belongs to a token of the returned parse; in particular if q parses, q followed by any character that is neither whitespace nor able to start/extend a token is rejected.",
  "every query string and every illegal character", "all strings",
  [f"{PG}:query", LG])
# 49
p("Layout of accepted text",
  "A query has no lexical error and tokens t1..tn exactly if its text is t1..tn with any whitespace around them, whitespace being needed only between two tokens that would otherwise be read as one (two words or numbers, a word or number followed by a letter, digit or '-' that continues it, '!' followed by '='); the type of a token is determined by its text.",
  "every string and every token list", "all strings",
  [LG])
# 50
p("Parentheses group",
  "If q parses to a query without within, '(q)' parses to a QueryGroup with bounds (1,1) whose only child is that tree (a QuerySegment or QueryGroup wrapped in a one-element QuerySequence).",
  "every query q", "compositionality over all queries, nesting depth unbounded",
  [f"{PG}:query_group", f"{PR}:ExpressionTreeBuilder.visitQuery_group"])
# 51
p("A quantifier changes only the bounds",
  "If q parses to a QuerySegment or QueryGroup and does not end with a quantifier, then q followed by a quantifier (*, +, ?, {n}, {n,}, {,m}, {n,m} with n <= m) parses to the same node with exactly the bounds of that quantifier.",
  "every such query and every quantifier text", "all queries and all numbers",
  [f"{PG}:quantifier", f"{PR}:ExpressionTreeBuilder.visitQuantifier"])

FP="src/fcsql/FCSParser.py"; FL="src/fcsql/FCSLexer.py"
# 52
p("The generated parser network is the published grammar",
  "The integers embedded in FCSParser.py decode to a transition network in which the paths through each rule are exactly the derivations of that rule in FCSParser.g4 (children and consumed tokens).",
  "every rule, every token list, every list of children", "the network has cycles and recursion: infinitely many paths",
  [f"{FP}:serializedATN", PG])
# 53
p("The generated parser functions implement the grammar",
  "Every generated rule function terminates on every token list; whatever the runtime predicts, a run without reported error has built a derivation tree of the consumed tokens; and with a correct predictor, FCSParser.query() builds exactly the tree of C09-C11, or reports an error exactly if there is none (the one-token lookahead tests and bit masks in the functions never decide wrongly).",
  "every token list / query string and every predictor", "all inputs, unbounded nesting, all behaviours of the prediction engine",
  [f"{FP}:FCSParser", PG])
# 54
p("The generated lexer network is the published lexer grammar",
  "The integers embedded in FCSLexer.py decode to a network whose i-th alternative accepts exactly the language of the i-th non-fragment rule of FCSLexer.g4, with its token type, and with a skip action for Space only; queries are cut into pieces as this network prescribes.",
  "every string", "infinite languages",
  [f"{FL}:serializedATN", LG])

# 55
p("Node types identify node classes",
  "node.has_node_type(t) is True exactly if node is an instance of the class documented for t; None as argument of has_node_type and of the Expression predicates raises TypeError.",
  "every node (parsed or constructed) and every node type", "all trees",
  [f"{PR}:QueryNode.has_node_type", f"{PR}:QueryNodeType", f"{PR}:QueryGroup.__init__"])
# 56
p("Typed accessors return the parts of a node",
  "get_query/get_within of a QueryWithWithin, get_expression of a QuerySegment, get_content of a QueryGroup and operands of ExpressionAnd/Or return the parts the node was made of (of the right kinds in parsed trees) and do not raise; get_within returns None if there is no within clause.",
  "every node of every parsed tree, and every constructed node", "all trees",
  [f"{PR}:QueryWithWithin", f"{PR}:QuerySegment.get_expression", f"{PR}:QueryGroup.get_content", f"{PR}:ExpressionAnd.operands", f"{PR}:ExpressionOr.operands"])
# 57
p("The Expression constructor normalises its arguments",
  "Expression(...) keeps identifier, operator and regex; a None, empty or whitespace-only qualifier becomes None, any other is kept; None or empty flags become None, any others are kept.",
  "all strings, all sets of flags", "infinite domain of strings",
  [f"{PR}:Expression.__init__"])
# 58
p("Parent links after any construction history",
  "After any sequence of node constructor calls, a node's parent is the node created by the last call that was given it as a child (None if there was none), children, attributes and location are as given; the links are consistent with the children lists exactly if no node was given to two calls; following parent links always ends.",
  "every history of constructor calls", "all histories",
  [f"{PR}:QueryNode.__init__"])
# 59
p("Visitor results",
  "visitChildren asks shouldVisitNextChild before every child, stops at the first refusal or exception, and combines the results with aggregateResult in order starting from defaultResult; by default the result is that of the last child. A visitor that stops at the first result returns the first one in document order and looks at no later node.",
  "every tree and every visitor", "all trees, unbounded depth and width, all visitors",
  [f"{PR}:QueryVisitor.visitChildren", f"{PR}:QueryVisitor.aggregateResult", f"{PR}:QueryVisitor.shouldVisitNextChild"])
# 60
p("Parser objects do not influence each other",
  "In a program that creates any number of QueryParser objects, changes their settings and calls parse in any order, every call has the outcome a new parser with the current settings of that object would give, and an object's errors are those of the last parse call on it, with the settings at that time.",
  "every history of operations on several parser objects", "all histories",
  [f"{PR}:QueryParser"])
# 61
p("Concurrent parse calls on one parser",
  "If several threads call parse on one QueryParser (whose settings are not changed meanwhile), every call has the outcome it has alone, under every interleaving, and calls do not block each other; the errors attribute is that of the call that finishes last.",
  "every interleaving of every number of calls", "all schedules",
  [f"{PR}:QueryParser.parse"])
# 62
p("What of the environment matters",
  "The tree of an accepted query depends on the environment only through unicodedata.normalize (for the parser's form) and the interpreter's integer digit limit, and a laxer limit never changes a tree; without normalisation and without integers the tree is the same everywhere.",
  "every query and every two environments", "all environments cannot be enumerated",
  [f"{PR}:QueryParser.parse", f"{PR}:ExpressionTreeBuilder"])
# 63
p("Context accessors reach every child",
  "In the parse tree antlr_parse returns, every child of every context is returned by the accessor method of the context named after the child's rule or token; X(i) is the i-th of X() (None out of range); accessors without parameter have at most one child to return; how many children each accessor can find is bounded by the grammar (mandatory ones never return None).",
  "every accepted query, every context of its tree, every accessor and index", "all trees, unbounded depth and width",
  [f"{PP}:*Context", f"{IN}:antlr_parse"])
# 64
p("Walking a parse tree with a listener",
  "Walking the tree of a query with a FCSParserListener calls enterX/exitX (X the capitalized rule name) around the children of every context, in document order, enterEveryRule before and exitEveryRule after them, visitTerminal with exactly the tokens of the query and EOF; the first exception ends the walk; the calls determine the tree.",
  "every query, every tree, every listener (any state, any exceptions)", "all trees and all listeners",
  ["src/fcsql/FCSParserListener.py:FCSParserListener", f"{PP}:*Context.enterRule", f"{PP}:*Context.exitRule"])
# 65
p("Visiting a parse tree with FCSParserVisitor",
  "Visiting a tree with a subclass of FCSParserVisitor that overrides some visitX methods, doing work and then visiting the children, does that work at exactly the contexts of these rules, in document order, and stops at the first exception; collecting terminals gives the tokens of the query. A visitor that overrides defaultResult, aggregateResult, shouldVisitNextChild and visitTerminal returns, for every tree, the results of the children combined from left to right, beginning with the default result, until no more children are wanted.",
  "every query, every tree, every choice of overridden methods and every work", "all trees and all visitors",
  ["src/fcsql/FCSParserVisitor.py:FCSParserVisitor", f"{PP}:*Context.accept"])
# 66
p("Fragments are queries",
  "The piece of the text that a segment, group, sequence or alternative of the tree covers (its location) is itself an accepted query, and its tree is that node, with locations counted from the start of the piece (a sequence of one item gives the item); the piece of a comparison, parenthesised expression, disjunction or of the whole content of a segment or parentheses, put into brackets, is a query whose segment has that node as expression. For conjunctions and negations that are only a part of an expression this is false: a counterexample is proved.",
  "every accepted query and every node of its tree", "all queries, all nodes, unbounded depth",
  [f"{PR}:QueryParser.parse", f"{PR}:SourceLocation"])
# 67
p("Locations in combined queries",
  "With locations recorded: whitespace around a query only moves its tree; in queries joined by spaces or by ' | ' every part has the tree it has alone, moved to where its text is; 'Q within w' keeps the tree of Q and the within node is where w is; parentheses move the content by one and cover the whole text; a quantifier extends the node to the end of the text and leaves its parts where they are.",
  "all queries, all lists of queries, any lengths", "all combinations, unbounded lengths",
  [f"{PR}:SourceLocation", f"{PR}:ExpressionTreeBuilder"])
# 68
p("Validation of combined queries",
  "What fcsql.validate reports about a query put together from queries is what it reports about the parts: for parts joined by spaces or ' | ' the lists of the parts one after the other (errors before warnings), with positions moved to where the parts are and the same messages and fragments; it is valid exactly if all parts are; parentheses and surrounding whitespace only move the positions; a within clause or a quantifier changes nothing.",
  "all queries, all lists of queries, both modes, with and without warnings_as_errors", "all combinations, unbounded lengths",
  [f"{IN}:validate", f"{VA}:FCSQLValidator"])
# 69
p("What the verdict of a validator depends on",
  "The verdict of FCSQLValidator.is_valid depends only on the tree without its locations, the allowed layers and qualifiers and warnings_as_errors, not on the query text, the raising mode or earlier uses; a tree is valid exactly if its root alone and its subtrees are; allowing more layers or more qualifiers makes no tree invalid; a list with only layers of the specification is stricter than no list; an empty list is the same as no list.",
  "every tree (parsed or constructed), all options, every state of the validator object", "all trees and options",
  [f"{VA}:FCSQLValidator", f"{VA}:Validator.is_valid"])
# 70
p("Recursion depth is nesting, not length",
  "The parse tree of an accepted query, the chain of active rule functions of the generated parser and the recursion of the tree builder are at most 12 levels deep plus 3 per level of parentheses plus 6 per '!', whatever the length of the query; with room for that many levels, QueryParser.parse does the same as without a limit; with less room it does the same or raises QueryParserException ('an unexpected exception occured while parsing'), never returns another tree. No limit is enough for all queries: nested parentheses are accepted at any depth and need at least that many levels.",
  "all accepted queries, every recursion limit", "unbounded lengths and nesting depths, every limit",
  [f"{PR}:QueryParser.parse", f"{PR}:ExpressionTreeBuilder", "src/fcsql/FCSParser.py:FCSParser"])
# 71
p("Different spellings of the same query",
  "Apart from locations, the tree of a query depends on its tokens only through their types and what they mean: a token can be replaced, where it stands, by another of the same type that means the same (a literal with other quotes or other escapes but the same normalised value, an integer with leading zeros, flags in another order or repeated or c for i, the long or short word of a scope after within) and the new query parses to the same tree, or both fail. Flag letters and scope words used as layer or qualifier names are names and count by their text.",
  "all queries, all token sequences with the same types and meanings, all settings", "all queries and all respellings, unbounded lengths",
  [f"{PR}:QueryParser.parse", f"{PR}:ExpressionTreeBuilder"])

# 72
p("Validators written by users",
  "For a subclass of Validator whose visit_ handlers report issues through validation_error and validation_warning (depending on the node and on parent_node) and then call the super method: in collecting mode errors and warnings are exactly the reported issues in document order, with location and fragment, and the result is True exactly if nothing counts as an error; in raising mode the first issue that counts is raised and warnings before it are recorded; both modes agree. Handlers under names that are looked up for no class have no effect. If handlers do not look at parent_node the outcome does not depend on earlier uses of the object; if they do, it depends on them only through the nodes a call that raised left on the stack.",
  "every tree (parsed or constructed), every set of handlers of this form, every state of the validator object, both modes", "all trees, all handlers, all histories",
  [f"{VA}:Validator", f"{VA}:Validator.validate", f"{VA}:Validator.validation_error", f"{VA}:Validator.validation_warning"])
# 73
p("Accessors and predicates of nodes, exactly",
  "What the accessors do on every node, including where this differs from their documentation: get_child(i, clazz) raises IndexError exactly if no class is given and i is the (non-zero) number of children and otherwise returns the i-th child (of the class) or None; get_first_child and get_last_child never raise, get_last_child(clazz) is None unless all children are of the class; get_query, get_expression, get_content raise exactly if there is no child, get_within exactly if there is one; is_layer_qualifier_empty is True exactly if a non-blank qualifier was given, has_layer_qualifier is never True, is_regex_flags_empty is True exactly if flags were given; every node has exactly one node type, that of its class, a QueryGroup that of segments.",
  "every node, every index, every class and every constructor argument", "all nodes and arguments",
  [f"{PR}:QueryNode.get_child", f"{PR}:QueryNode.get_last_child", f"{PR}:Expression", f"{PR}:QueryWithWithin.get_within"])
# 74
p("Dispatch of QueryVisitor, exactly",
  "visit(node) calls the method named visit_ followed by the node type's value (visit_Wildcard, visit_Group, visit_Not, visit_And, visit_Or for the expression classes, visit_QuerySegment for QuerySegment and QueryGroup) if the visitor has it, and visitChildren otherwise; work done in such methods is done at exactly the nodes of these classes, in document order.",
  "every visitor, every node, every tree", "all visitors and all trees",
  [f"{PR}:QueryVisitor.visit", f"{PR}:QueryVisitorAdapter"])
# 75
p("Records of lexical errors, exactly",
  "For a query whose recognised tokens are grammatical, QueryParser.errors after parse is exactly the list of the texts that are not recognised, in order, each with the message showing the text, no fragment, and as position its column in its line; this is its offset in the query exactly if there is no newline before it.",
  "every query", "all queries, unbounded lengths",
  [f"{PR}:ErrorListener.syntaxError", f"{PR}:QueryParser.parse"])
# 76
p("Unrecognised text acts like blanks",
  "antlr_parse does the same for a query as for the query with everything the lexer does not recognise replaced by whitespace, character for character: same tokens at the same positions, same tree or SyntaxError; the blanked-out text has no lexical error, and parse finds no syntax error in it exactly if antlr_parse returns for the original.",
  "every query and every choice of whitespace characters", "all queries, unbounded lengths",
  [f"{IN}:antlr_parse", "src/fcsql/FCSLexer.g4"])

# 77
p("The tree builder is a parse-tree visitor",
  "ExpressionTreeBuilder can be run on any parse tree as the visitor object it is: the methods the contexts' accept looks for are exactly those it has or inherits; on the tree of antlr_parse it raises or puts exactly one node on its stack, leaving what was there untouched; QueryParser.parse of a query without errors is exactly a visit of the antlr_parse tree with a new builder followed by a pop from its stack.",
  "every parse tree, every state of the builder's stack, all settings", "all trees and all stacks, unbounded depth",
  [f"{PR}:ExpressionTreeBuilder", "src/fcsql/FCSParser.py:accept", "src/fcsql/FCSParserVisitor.py:FCSParserVisitor"])
# 78
p("The shipped artifacts end to end",
  "QueryParser.parse succeeds with a node exactly if the text is cut into pieces without error by the network serialized in FCSLexer.py, the generated functions of FCSParser.py report no error on these tokens (with a prediction that is right about the network serialized there), and the tree builder's methods, called by name on the resulting contexts, raise nothing and leave this node; otherwise it raises, 'unable to parse query' exactly in the first two cases, and what the builder raised in the third.",
  "every query, all settings, every correct predictor", "all queries, unbounded lengths",
  [f"{PR}:QueryParser.parse", "src/fcsql/FCSLexer.py", "src/fcsql/FCSParser.py", f"{PR}:ExpressionTreeBuilder"])
# 79
p("Malformed queries: termination, and when errors are reported",
  "The generated parser comes to an end on every query, malformed or not, whatever its error recovery deletes, imagines or skips; it reports no error exactly for the queries antlr_parse accepts, and then builds the tree antlr_parse returns; every error is reported at a token of the query or its end, and there are at most as many reports as tokens, plus one.",
  "every query, every error strategy (any choice of deletions, insertions and skips, depending on anything that happened before)", "all token sequences, unbounded lengths, and all recovery decisions",
  ["src/fcsql/FCSParser.py", f"{IN}:antlr_parse", f"{PR}:ErrorListener"])

# 80
p("The first syntax error is not reported too late",
  "A query is malformed exactly if there is a token (or the end) at which it stops being the beginning of some accepted query, and there is only one such place; the first error reported is at this place or before it: the tokens before the one complained about are the beginning of some query, whatever the error recovery does. In a text without unrecognised characters: the text before the offending token can be completed to a query antlr_parse accepts.",
  "every query, every error strategy", "all token sequences, unbounded lengths, all completions",
  ["src/fcsql/FCSParser.py", f"{IN}:antlr_parse", f"{PR}:ErrorListener.syntaxError"])

# 81
p("The SyntaxError of antlr_parse",
  "antlr_parse ends for every query, in one way: it returns the tree, or raises SyntaxError with a message 'line L:C ...' where L (from 1) and C (from 0) are line and column of a token (or the end) of the query, and what is before this token is the beginning of some query. For a query without newlines L is 1 and C the offset.",
  "every query, every error strategy and message text", "all queries, unbounded lengths, any number of lines",
  [f"{IN}:antlr_parse", f"{IN}:ExceptionThrowingErrorListener.syntaxError", "src/fcsql/FCSParser.py"])
# 82
p("The first error record of a failed parse",
  "When QueryParser.parse raises because of syntax, the exception shows the message of errors[0], and errors[0] is about the first text the lexer does not recognise, or about a token such that what is before it is the beginning of some query (only if nothing before it is unrecognised). In the latter case position is the range of that token and fragment the query up to its end; the fragment without the token can be completed to an accepted query; the fragment followed by whitespace cannot, if the query really goes wrong at this token.",
  "every query and every way lexer and parser reports can be interleaved", "all queries, all completions, all interleavings",
  [f"{PR}:QueryParser.parse", f"{PR}:ErrorListener.syntaxError", f"{PR}:ErrorDetail"])

# 83
p("The shared prediction caches do not matter",
  "The lexer and parser classes keep caches that all parsers and threads of a process share and that every query extends. Whatever queries were parsed before, by whichever entry point and with whichever outcome, and whatever other threads store in the caches meanwhile, antlr_parse and QueryParser.parse terminate with the result they have in a fresh process.",
  "every sequence of calls and every interleaving with other threads' accesses to the caches", "all call histories and schedules",
  ["src/fcsql/FCSParser.py:FCSParser.decisionsToDFA", "src/fcsql/FCSLexer.py:FCSLexer.decisionsToDFA", f"{IN}:antlr_parse", f"{PR}:QueryParser.parse"])

# 84
p("The contexts of antlr_parse know their tokens",
  "In the tree antlr_parse returns, every context has a start and a stop token: the first and the last token under it (EOF aside). getSourceInterval() is the range of these token indices, never empty; the intervals of the children divide it without gap or overlap (the root's does not include its last child EOF), getText() is the texts of these tokens joined (whitespace is lost; the root's ends in <EOF>), depth() is 1 at the root and one more at children. Source locations in the query tree go from the beginning of start to the end of stop.",
  "every accepted query and every context of its tree", "all queries, unbounded sizes and nesting",
  ["src/fcsql/FCSParser.py", f"{IN}:antlr_parse", "examples/run_parse.py", f"{PR}:SourceLocation.fromContext"])

# 85
p("The text of a parse tree is faithful",
  "toStringTree(FCSParser.ruleNames) of a tree from antlr_parse is built from '(name child ... child)' and token texts in which tab, newline and carriage return are escaped. Two accepted queries with the same text have the same tree: rules, and types and (escaped) texts of all tokens; unless a literal contains one of these characters, the same tokens exactly. They parse to the same query tree, source locations aside. The listener of examples/run_parse.py never fails and prints its contexts in document order.",
  "every pair of accepted queries", "all pairs of queries, unbounded sizes and nesting",
  ["src/fcsql/FCSParser.py:FCSParser.ruleNames", f"{IN}:antlr_parse", "examples/run_parse.py"])

# 86
p("What is reported about a query whose syntax is right",
  "parse raises with an empty error list exactly if the query has a syntax without errors and something in it is objectionable; the message is the objection to the first such token in the text: in a literal the first escape that is not understood ('invalid escape sequence: ' and the escape) or no code point ('invalid codepoint: U+' and the number in upper case hexadecimal digits), contradicting flags (i or c with I or C before l with anything else), a number beyond the interpreter's digit limit ('invalid integer: ' and the digits), a range with a larger first number ('bad qualifier: min > max (3 > 2)', numbers without leading zeros). If nothing is objectionable the query is accepted. Settings of the parser have no influence on what is reported.",
  "every query, every setting and every interpreter limit", "all queries: which of several errors is reported must hold for every combination and position",
  [f"{PR}:QueryParser.parse", f"{PR}:ExpressionTreeBuilder.visitRegexp", f"{PR}:ExpressionTreeBuilder.processRepetitionRange", f"{PR}:ExpressionTreeBuilder.parseInt"])

# 87
p("Prediction is right, and cannot be confused by caches",
  "adaptivePredict, asked by a function of the generated parser while it parses a query, answers with the first alternative that can go on with all the remaining tokens, if there is one; whatever it answers is an alternative that exists, and nothing after the end of input matters. sync complains exactly when the next token can neither come next nor the rule end. So the generated parser with the prediction of the runtime library builds exactly the tree of the grammar, or reports an error exactly when there is none; with the shared caches, after any calls and with any interleaving of other threads.",
  "every query, decision, chain of calls and sequence of remaining tokens; every history and schedule", "all token sequences (unbounded lookahead), all nestings of calls, all schedules",
  ["src/fcsql/FCSParser.py", "src/fcsql/FCSParser.py:FCSParser.decisionsToDFA", f"{IN}:antlr_parse", f"{PR}:QueryParser.parse"])

# 88
p("The first syntax error is reported exactly where the query goes wrong",
  "The first error is reported at the token (or the end) at which the query stops being the beginning of some accepted query; so the text through the offending token, followed by whitespace, cannot be completed to a query antlr_parse accepts.",
  "every malformed query, every error strategy", "all token sequences, unbounded lengths, all completions",
  ["src/fcsql/FCSParser.py", f"{IN}:antlr_parse", f"{PR}:ErrorListener.syntaxError"])

# 89
p("The error records of a failed parse are determined, complete and in a known order",
  "With the error recovery of the ANTLR runtime, parsing ends for every query and what is reported is determined by the query alone (no settings, no Python runtime behaviour). Every record in errors is about a text the lexer does not recognise, or about a token the parser complained of; every unrecognised text has its record, in the order of the text; parser records exist exactly if antlr_parse rejects the query; and an unrecognised text is reported before the parser's complaint about any token after it. The exception shows the message of the first record.",
  "every query, every setting", "all token sequences, all recovery histories, all interleavings of lexer and parser errors",
  ["src/fcsql/FCSParser.py", f"{PR}:ErrorListener.syntaxError", f"{PR}:QueryParser.parse", "README.md"])

# 90
p("The forms of syntax error messages",
  "Every message of the parser is 'mismatched input X expecting L', 'extraneous input X expecting L', 'missing L at X' or 'no viable alternative at input X', where X shows the offending token (or '<EOF>'; in the last case some tokens up to it) in quotes with newline, tab and carriage return escaped, and L is a non-empty list of token types in a fixed order, in braces if longer than one, from which the types can be read back. antlr_parse raises SyntaxError exactly for rejected queries, with place and message of the first error.",
  "every query and every message", "all queries, all recovery histories",
  ["src/fcsql/FCSParser.py:FCSParser.literalNames", "src/fcsql/FCSParser.py:FCSParser.symbolicNames", f"{IN}:antlr_parse", f"{IN}:ExceptionThrowingErrorListener.syntaxError"])

# 91
p("The first syntax error message gives sound advice",
  "What the first message lists as expected is right: after the text before the offending token, any text of each listed type can be written and the result completed to an accepted query (if <EOF> is listed, the text before is accepted as it is), and the offending token is not of a listed type. If the token is said to be extraneous, the next token is of a listed type. If something is said to be missing, writing any text of a listed type before the offending token makes a text that can be completed. The same for errors[0] of a failed parse of a query in which all characters are recognised.",
  "every rejected query, every listed token type and every text of that type", "all queries and all completions: existence of a completion is not observable by a test of the message",
  ["src/fcsql/FCSParser.py", f"{PR}:ErrorListener.syntaxError", f"{PR}:QueryParser.parse", f"{IN}:antlr_parse"])

# 92
p("There are few error records, but they are not sorted",
  "A query of n characters leaves at most n + 1 records in errors (at most one for every unrecognised text, for every token and for the end), and there are queries of every length for which it is n + 1. The records need not be in the order of the text, two records can be about the same token, and parsing goes on after a mistake, so that later mistakes are recorded too.",
  "every query and every setting (the bound)", "all queries and recovery histories, unbounded lengths",
  ["src/fcsql/FCSParser.py", f"{PR}:ErrorListener.syntaxError", f"{PR}:QueryParser.parse"])

# 93
p("The lexer, run on the tables of FCSLexer.py, cuts every text as FCSLexer.g4 says",
  "The tokens handed out by FCSLexer(InputStream(text)) until EOF are, in order, the longest matches of the first matching rule: their types, offsets, texts, lines and columns are those of the pieces of the text; skipped white space leaves nothing; the error listeners are called once for every unrecognised stretch, in order and at its place, with exactly its text in the message; the end is one EOF token behind the last character. The lexer ends for every text.",
  "every text (any sequence of code points)", "all texts, unbounded length",
  ["src/fcsql/FCSLexer.py:serializedATN", "src/fcsql/FCSLexer.py:FCSLexer", f"{IN}:antlr_parse", f"{PR}:QueryParser.parse"])

# 94
p("The lexer's recursion is bounded, and lexers do not disturb each other",
  "However long a text is, the lexer has only a fixed number of recursive calls open and its loops run at most once for each character and once more. What earlier lexers have stored in the shared class attribute decisionsToDFA, and what lexers in other threads store there while this one is at work, does not change the tokens or the errors of any text.",
  "every sequence of texts, every content of the shared state that earlier lexers can leave, every interleaving", "all histories and interleavings, unbounded",
  ["src/fcsql/FCSLexer.py:FCSLexer.decisionsToDFA", "src/fcsql/FCSLexer.py:FCSLexer.__init__"])

# 95
p("QueryParser.parse as a whole: lexer, token buffer, parser, recovery, listener and tree builder together",
  "QueryParser.parse, in which the parser asks for tokens one at a time, the lexer runs only as far as asked, both report to the same listener in the order in which they get there, the parser predicts and recovers, and the tree builder is run if nothing was reported, ends for every query, and its outcome (tree or exception) and the content of errors are exactly those the other properties describe.",
  "every query, every setting of the parser, every Python runtime behaviour left open", "all queries of every length, with the interleaving of lexing, prediction, recovery and reporting that each of them causes",
  [f"{PR}:QueryParser.parse", f"{PR}:ErrorListener.syntaxError", "src/fcsql/FCSParser.py", "src/fcsql/FCSLexer.py"])

# 96
p("What antlr_parse prints and raises",
  "antlr_parse ends for every query. If it returns a tree, it has printed to sys.stderr exactly one line 'line L:C token recognition error at: ...' for every unrecognised text of the query, in order, with its line and column. If it raises SyntaxError, the last line printed is the message of the exception, which names line and column of a token up to which the query is the beginning of some query, and the lines before it are those of the first unrecognised texts, with all of those in front of that token.",
  "every query", "all queries of every length, and how far the lexer has got when the parser gives up",
  [f"{IN}:antlr_parse", f"{IN}:ExceptionThrowingErrorListener.syntaxError", "src/fcsql/FCSParser.py", "src/fcsql/FCSLexer.py"])

# 97
p("Threads that parse at the same time do not disturb each other",
  "In a process in which any number of threads call parse, with parser objects they may share and whose settings are not changed, and antlr_parse, as often as they like, every call has the outcome (node or exception; printed lines, tree or SyntaxError) it has in a process of its own, however the threads' accesses to the shared class attributes of lexer and parser are interleaved; a thread that gets its turn often enough comes to an end whatever the others do; errors of a parser object is at any time the complete list of one of the parse calls on it, or what was there before, the latter only until a thread that parses with it has finished; for an object only one thread parses with it is, whenever this thread looks, that of its last call.",
  "every number of threads, every sequence of calls of each, every interleaving of their accesses to shared state, every pattern of lost cache entries", "all schedules of all programs",
  ["src/fcsql/FCSLexer.py:FCSLexer.decisionsToDFA", "src/fcsql/FCSParser.py:FCSParser.decisionsToDFA", f"{PR}:QueryParser.parse", f"{PR}:QueryParser.errors", f"{IN}:antlr_parse"])

# 98
p("One comparison per literal, one node per operator and bracket, linear size",
  "In the tree of an accepted query the Expression nodes are, from left to right, those of the literals of the query: each has the qualifier, identifier and operator written before its literal (or the defaults), the literal's characters with escapes resolved and normalised as configured, and the flags written after it. There are as many ExpressionNot nodes as '!', as many groups as '(' and ')', as many operators between the operands of ExpressionAnd nodes as '&' and of ExpressionOr and QueryDisjunction nodes as '|', and as many QuerySegment nodes as '[' and words that stand alone. A query of k tokens has at most 2k+1 nodes; the generated parser calls its rule functions at most 4k+3 times in all, once for each context of the parse tree; and validating the tree reports at most two issues per literal.",
  "every accepted query, every configuration, every validator options", "all queries of every length and nesting",
  [f"{PR}:QueryVisitor", f"{PR}:QueryParser.parse", f"{VA}:FCSQLValidator", "src/fcsql/FCSParser.py"])

# 99
p("Debug logging changes nothing, and says what is the case",
  "With the logger of fcsql.parser at level DEBUG, parse has the same outcome and leaves the same errors as without; the tree builder builds the same nodes; a visitor whose visit_* attributes are methods, and which does not read the log, has the same result and effects (one with a callable that has no __name__ gets an AttributeError instead). For a query the grammar accepts, the log is the parse tree as text followed by the contexts of the tree as they are entered (with number of children and text) and left, from left to right, a first part of that if the builder raises, and otherwise ending with a stack that consists of the node parse returns. For any other query it shows, for every complaint of the parser in order, the query and below it a caret under the first character of the offending token (behind the query if that is its end), with the message, and the names of the token (at the end of the query those of 'within' and of white space), and finally all records of errors. For a tree visited by a QueryVisitorAdapter it names every node once, parents first, with the method that is called.",
  "every query, every setting of the parser, every tree, every visitor", "all queries, trees and visitors; a log statement is evaluated at every step of every run",
  [f"{PR}:ErrorListener.syntaxError", f"{PR}:ErrorListener._get_token_name", f"{PR}:ExpressionTreeBuilder", f"{PR}:QueryParser.parse", f"{PR}:QueryVisitor.visit"])

# 100
p("validate uses the validator that is registered for the version",
  "VALIDATORS may be changed by users of the library. In every history of assignments, removals and calls, fcsql.validate uses the validator last assigned to the version asked for, with a new validator object and a new parser object for each call, so that nothing else of the history matters; it raises ValueError, with the version in its message, exactly if there is none, before the query is looked at. If the query cannot be parsed the result is the same whatever the validator. If it can, a validator that reports issues through validation_error and validation_warning gets them returned in document order, errors first, then the warnings if warnings_as_errors, with position and fragment in the query, and without return_errors the result is True exactly if that list is empty; likewise for FCSQLValidator registered with its options. A validator that raises SpecificationValidationError itself makes validate return False even if a list is asked for.",
  "every history of changes of VALIDATORS and calls of validate, every validator, every query", "all histories, all validators users may write, all queries",
  [f"{VA}:VALIDATORS", f"{IN}:validate", f"{VA}:Validator.validate", f"{VA}:FCSQLValidator.__init__"])

# 101
p("The work a query causes is bounded by its size",
  "Splitting a text of n >= 1 characters into tokens looks at least n and at most 2 n times at a character, whatever the text is, and a single time if it is empty. Parsing a query of k tokens that is accepted asks the ANTLR runtime for at most k predictions, exactly one for each choice between alternatives in its parse tree and for each |, & (two inside brackets) and {; each looks at what is left of the query only, at most twice at each token and the end; so all of them together look at most 2 k (k + 1) times at a token. No query makes the work more than quadratic in these terms, however it nests.",
  "every text (characters); every query that antlr_parse accepts (predictions)", "an upper bound for inputs of every size; a test measures one size",
  ["src/fcsql/FCSLexer.py:FCSLexer", "src/fcsql/FCSParser.py:FCSParser", f"{IN}:antlr_parse"])

# 102
p("An exception from outside, at any moment, does no harm",
  "Whatever arrives during a call of parse from outside - RecursionError, MemoryError, KeyboardInterrupt from Ctrl-C, SystemExit - and at whatever moment: a node is returned only if it is the node the query has; a QueryParserException is the one the query deserves, or the one that says 'an unexpected exception occured while parsing'; a malformed query never yields a node. errors are then a beginning of the records the query would have produced, or, if something arrived before the try statement or while the call was being left, what they were before. An Exception that arrives inside the try block does not leave parse; a KeyboardInterrupt is never turned into another exception. Other calls on the same object, before and after, are not affected. antlr_parse returns the right tree, raises the right SyntaxError, or lets through what arrived, and has printed a beginning of the lines it would have printed. With any recursion limit, parse ends as without it or with the unexpected-exception error, also for malformed queries.",
  "every query, every moment, every kind of exception, every sequence of calls on an object", "every point in every run; a test can strike only a few points of a few runs",
  [f"{PR}:QueryParser.parse", f"{PR}:QueryParser.errors", f"{PR}:ExpressionTreeBuilder", f"{IN}:antlr_parse", "src/fcsql/FCSParser.py"])

# 103
p("A verdict is never wrongly positive when an exception arrives",
  "Whatever arrives from outside during can_parse or validate, and whenever: can_parse answers True, validate answers True or an empty list, only if it would have without it. If a RecursionError or MemoryError arrives while the query is parsed, can_parse answers False and validate False, or a list whose first record says 'an unexpected exception occured while parsing', followed by a beginning of the records of the syntax errors. KeyboardInterrupt never changes a verdict: it leaves the call, or came too late to matter. Exceptions that arrive inside the try statement of the parser do not leave can_parse, nor the parsing part of validate.",
  "every query, version, flags, registry, every moment, every kind of exception", "every point in every run",
  [f"{IN}:can_parse", f"{IN}:validate", f"{PR}:QueryParser.parse"])

# 104
p("How deep the parser's calls are nested, for every query",
  "For every query, well-formed or not, the functions of the parser are never nested deeper than 11 calls plus three for each '(' and '!' and two for each word (name, within, scope, flags) in the query - whatever recovery from errors makes them do; so at most 11 + 3 times the length of the query. A recursion limit that leaves this much room changes nothing about parse or antlr_parse: same tree, same exception, same errors. Without parentheses, negations and words eleven calls are enough, however long the query is. For a query that is accepted by the grammar the room needed is exactly the height of its parse tree less one: with that much parse ends as without a limit, with less it always raises the exception for unexpected exceptions, with a beginning of the errors. No limit is enough for every query of the language.",
  "every query (malformed ones included), every recursion limit, every configuration, every object", "all queries and all ways error recovery can go; a test measures one query",
  [f"{PR}:QueryParser.parse", f"{IN}:antlr_parse", "src/fcsql/FCSParser.py:FCSParser"])

# 105
p("How much the parser does, for every query",
  "For every query of k tokens, well-formed or not, parse and antlr_parse end after a number of steps that is linear in k: the parser asks the runtime for at most 22 k + 10 predictions, calls its rule functions at most 34 k + 34 times and executes at most 129 k + 118 of their statements, whatever errors there are and however recovery from them goes; all predictions together look at most 2 (k + 1) (22 k + 10) times at a token. With that many steps allowed parse gives the result, the exception and the errors it gives without a bound. For queries the grammar accepts the predictions are exactly those counted in C101.",
  "every query (malformed ones included), every bound on the number of steps, every configuration", "all queries and all ways error recovery can go; a test measures one query, and a slow one is not noticed",
  [f"{PR}:QueryParser.parse", f"{IN}:antlr_parse", "src/fcsql/FCSParser.py:FCSParser"])

# 106
p("What a process keeps between calls",
  "Lexers and parsers of a process store what they have computed in tables shared by all of them, for ever. The lexer's table has a bound that does not depend on the texts: at most 12160 edges are ever stored, whatever texts are lexed, one after the other and in any number of threads. The parser's tables have none: a query that begins with N opening brackets leaves at least N different entries there - whatever follows them, whatever was stored before, whatever other threads do, and however soon the parser is stopped; so for every B there is an accepted query, 2 B characters longer than any given one, after which B entries are kept. Nothing is taken out again. But nothing is stored twice: parsing a query again, whatever was parsed in between, stores nothing new in the parser's tables.",
  "every sequence of texts and queries, every content of the tables, every schedule of other threads, every number of brackets", "the memory of a process after all possible histories; a test observes one process for a short time",
  ["src/fcsql/FCSLexer.py:FCSLexer", "src/fcsql/FCSParser.py:FCSParser", f"{IN}:antlr_parse", f"{PR}:QueryParser.parse"])

# 107
p("The parse tree of any query, malformed ones included",
  "A client that uses the published parser classes directly - FCSParser(CommonTokenStream(FCSLexer(InputStream(text)))).query() - gets a parse tree for every text, within a number of steps linear in the number of its tokens. Every token of the text occurs in this tree exactly once, in order: nothing that error recovery skips, deletes or stops at is lost, nothing is doubled, and what the parser makes up is marked as such. The tree is not large: of k tokens at most 34 k + 35 contexts and 388 k + 358 nodes. For a text that antlr_parse accepts it is the tree antlr_parse returns, without a report; and if no error is reported, antlr_parse accepts the text with this tree, in which nothing is repaired. A tree that shows a repair (an error node, a token made up, a context with an exception) never comes without a report.",
  "every text", "all malformed texts, with every combination of repairs; tests look at a few",
  ["src/fcsql/FCSParser.py:FCSParser.query", f"{IN}:antlr_parse", f"{PR}:QueryParser.parse"])

# 108
p("Contexts look as their grammar rules say, in any parse tree",
  "A client that walks the parse tree of a text that may be malformed can rely on the grammar, context by context. Apart from error nodes (tokens that were deleted or skipped), every context that has no exception holds exactly what its rule in FCSParser.g4 asks for: contexts of the rules named there and tokens of the types named there, in order, where a token may have been made up (then it has the type that was missing) and where one of several alternative tokens may be missing; every context that has an exception holds the beginning of that. So for instance a query context without an exception has a main_query, possibly within and a within_part, and the end of input, in this order. The same holds for calls of any other rule function on a new parser. And errors are always to be seen in the tree: no error is reported exactly when the tree is a derivation tree of the grammar.",
  "every text, every rule function, every context of the tree", "all malformed texts, with every combination of repairs at every place; tests look at a few trees",
  ["src/fcsql/FCSParser.py:FCSParser", "src/fcsql/FCSParser.g4", f"{IN}:antlr_parse"])

out = os.path.join(os.path.dirname(os.path.abspath(__file__)), "..", "properties.jsonl")
with open(out, "w") as f:
    for x in P: f.write(json.dumps(x, ensure_ascii=False) + "\n")
print(len(P))
