/-
The parser: `src/fcsql/FCSParser.g4` / `FCSParser.py`, as EBNF data, and a parser that makes every
decision the way ANTLR's ALL(*) (`ParserATNSimulator.adaptivePredict`) does: take the lowest
numbered alternative for which the rest of the input can still be parsed in the full calling context.
-/
import Verif.Model.Lexer

set_option autoImplicit false

namespace Fcsql

/-- Parser rules (FCSParser.py `RULE_*`, FCSParser.py:134-156). -/
inductive Rule
  | query | main_query | query_disjunction | query_sequence | query_group | query_simple
  | quantifier | query_implicit | query_segment | within_part | within_part_simple | expression
  | expression_or | expression_and | expression_group | expression_not | expression_basic
  | attribute_ | qualifier | identifier | regexp | regexp_pattern | regexp_flag
  deriving DecidableEq, Repr

/-- EBNF expressions. -/
inductive G
  | eps
  | tok (t : TokType)
  | rule (r : Rule)
  | seq (a b : G)
  /-- `a | b`, `a` is the lower-numbered alternative -/
  | alt (a b : G)
  /-- `a*`, greedy: continuing is the lower-numbered alternative -/
  | star (a : G)
  deriving DecidableEq, Repr

namespace G
/-- `a?`: entering is the lower-numbered alternative. -/
def opt (a : G) : G := alt a eps
/-- `a+`: one unconditional iteration, then the loop decision. -/
def plus (a : G) : G := seq a (star a)
/-- `a1 | ... | an` -/
def alts : List G → G
  | [] => eps
  | [a] => a
  | a :: as => alt a (alts as)
/-- `a1 ... an` -/
def seqs : List G → G
  | [] => eps
  | [a] => a
  | a :: as => seq a (seqs as)
end G

open G Rule TokType in
/-- The grammar, rule by rule (line numbers of FCSParser.g4; the corresponding generated functions
are the methods of the same name in FCSParser.py). -/
def body : Rule → G
  -- FCSParser.g4:8-10
  | .query => seqs [rule main_query, opt (seqs [tok WITHIN, rule within_part]), tok TokType.EOF]
  -- FCSParser.g4:13-18
  | .main_query => alts [rule query_simple, rule query_group, rule query_sequence, rule query_disjunction]
  -- FCSParser.g4:21-24
  | .query_disjunction =>
      seqs [alts [rule query_simple, rule query_sequence, rule query_group],
            plus (seqs [tok OR, alts [rule query_simple, rule query_sequence, rule query_group]])]
  -- FCSParser.g4:27-29
  | .query_sequence => plus (alts [rule query_simple, rule query_group])
  -- FCSParser.g4:32-34
  | .query_group =>
      seqs [tok L_PAREN, alts [rule query_disjunction, rule query_sequence], tok R_PAREN,
            opt (rule quantifier)]
  -- FCSParser.g4:37-39
  | .query_simple => seqs [alts [rule query_implicit, rule query_segment], opt (rule quantifier)]
  -- FCSParser.g4:42-48
  | .quantifier =>
      alts [tok Q_ONE_OR_MORE, tok Q_ZERO_OR_MORE, tok Q_ZERO_OR_ONE,
        seqs [tok L_CURLY_BRACKET,
          alts [tok INTEGER,
                seqs [opt (tok INTEGER), tok Q_COMMA, tok INTEGER],
                seqs [tok INTEGER, tok Q_COMMA, opt (tok INTEGER)]],
          tok R_CURLY_BRACKET]]
  -- FCSParser.g4:51-53
  | .query_implicit => rule regexp
  -- FCSParser.g4:56-58
  | .query_segment => seqs [tok L_SQUARE_BRACKET, opt (rule expression), tok R_SQUARE_BRACKET]
  -- FCSParser.g4:61-63
  | .within_part => rule within_part_simple
  -- FCSParser.g4:66-68
  | .within_part_simple => tok SIMPLE_WITHIN_SCOPE
  -- FCSParser.g4:73-79
  | .expression => alts [rule expression_basic, rule expression_group, rule expression_or,
                         rule expression_and, rule expression_not]
  -- FCSParser.g4:82-85
  | .expression_or =>
      seqs [alts [rule expression_basic, rule expression_group, rule expression_and, rule expression_not],
            plus (seqs [tok OR, alts [rule expression_basic, rule expression_group,
                                      rule expression_and, rule expression_not]])]
  -- FCSParser.g4:92-95
  | .expression_and =>
      seqs [alts [rule expression_basic, rule expression_group, rule expression_not],
            plus (seqs [tok AND, alts [rule expression_basic, rule expression_group,
                                       rule expression_or, rule expression_not]])]
  -- FCSParser.g4:98-100
  | .expression_group =>
      seqs [tok L_PAREN, alts [rule expression_basic, rule expression_group, rule expression_or,
                               rule expression_and, rule expression_not], tok R_PAREN]
  -- FCSParser.g4:103-105
  | .expression_not =>
      seqs [tok NOT, alts [rule expression_basic, rule expression_group, rule expression_not,
                           rule expression_or, rule expression_and]]
  -- FCSParser.g4:108-110
  | .expression_basic =>
      seqs [rule attribute_, alts [tok OPERATOR_EQ, tok OPERATOR_NE], rule regexp]
  -- FCSParser.g4:113-115
  | .attribute_ => seqs [opt (seqs [rule qualifier, tok COLON]), rule identifier]
  -- FCSParser.g4:118-120
  | .qualifier => alts [tok IDENTIFIER, tok WITHIN, tok SIMPLE_WITHIN_SCOPE, tok REGEXP_FLAGS]
  -- FCSParser.g4:123-125
  | .identifier => alts [tok IDENTIFIER, tok WITHIN, tok SIMPLE_WITHIN_SCOPE, tok REGEXP_FLAGS]
  -- FCSParser.g4:128-130
  | .regexp => seqs [rule regexp_pattern, opt (seqs [tok FWD_SLASH, rule regexp_flag])]
  -- FCSParser.g4:133-135
  | .regexp_pattern => tok REGEXP
  -- FCSParser.g4:138-140
  | .regexp_flag => tok REGEXP_FLAGS

/-- ANTLR parse trees: `TerminalNode`s and rule contexts (`ParserRuleContext` with `children`). -/
inductive PTree
  | leaf (t : Tok)
  | node (r : Rule) (children : List PTree)
  deriving Repr

/-- A way to parse a prefix of the token stream: the decisions taken (`false` = lower alternative),
the parse trees, and the remaining tokens. -/
structure Succ where
  choices : List Bool
  forest : List PTree
  rest : List Tok
  deriving Repr

/-- All ways to parse a prefix of the tokens according to an EBNF expression, in the order of the
decisions taken.  `fuel` bounds the depth of the derivation; `parseFuel` is proved sufficient. -/
def run : Nat → G → List Tok → List Succ
  | 0, _, _ => []
  | _ + 1, .eps, ts => [⟨[], [], ts⟩]
  | _ + 1, .tok t, ts =>
    match ts with
    | [] => []
    | x :: xs => if x.type = t then [⟨[], [.leaf x], xs⟩] else []
  | fuel + 1, .rule r, ts =>
    (run fuel (body r) ts).map fun s => ⟨s.choices, [.node r s.forest], s.rest⟩
  | fuel + 1, .seq a b, ts =>
    (run fuel a ts).flatMap fun s =>
      (run fuel b s.rest).map fun s' => ⟨s.choices ++ s'.choices, s.forest ++ s'.forest, s'.rest⟩
  | fuel + 1, .alt a b, ts =>
    ((run fuel a ts).map fun s => { s with choices := false :: s.choices }) ++
    ((run fuel b ts).map fun s => { s with choices := true :: s.choices })
  | fuel + 1, .star a, ts =>
    ((run fuel (.seq a (.star a)) ts).map fun s => { s with choices := false :: s.choices }) ++
    [⟨[true], [], ts⟩]

/-- Fuel that is enough for a token stream of the given length (proved in `Proofs/Grammar.lean`). -/
def parseFuel (n : Nat) : Nat := 100 * (n + 1)

/-- `parser.query()` (FCSParser.py `query`, called at parser.py:1729): the decisions taken and the tree
of the first complete parse, `none` if there is none (then syntax errors are reported). -/
def parseTokens (ts : List Tok) : Option PTree :=
  match (run (parseFuel ts.length) (.rule .query) ts).find? (fun s => s.rest.isEmpty) with
  | some s => s.forest.head?
  | none => none

end Fcsql
