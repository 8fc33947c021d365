/-
The rule functions of `src/fcsql/FCSParser.py`, transcribed statement by statement by
`tools/gen_antlr.py` (state numbers, decision numbers, token sets and bit masks as in the source).
-/
import Verif.Model.GenParser

set_option autoImplicit false

namespace Fcsql

/-- The body of the `try` block of each rule function of FCSParser.py (lines given per rule). -/
def code : Rule → List Stmt
  -- FCSParser.py:223-250
  | .query =>
    [.call 46 .main_query, .sync 49, .ifLA (.eq 18) [.matchTok 47 18, .call 48 .within_part],
      .matchTok 51 (-1)]
  -- FCSParser.py:296-335
  | .main_query =>
    [.sync 57, .predict 1 [[.call 53 .query_simple], [.call 54 .query_group], [.call 55 .query_sequence],
      [.call 56 .query_disjunction]]]
  -- FCSParser.py:392-455
  | .query_disjunction =>
    [.sync 62, .predict 2 [[.call 59 .query_simple], [.call 60 .query_sequence], [.call 61 .query_group]],
      .sync 70, .whileLA [.matchTok 64 5, .sync 68, .predict 3 [[.call 65 .query_simple],
      [.call 66 .query_sequence], [.call 67 .query_group]]] 72 (.eq 5)]
  -- FCSParser.py:499-536
  | .query_sequence =>
    [.sync 76, .whileLA [.sync 76, .switchLA [([3, 23], [.call 74 .query_simple]), ([1],
      [.call 75 .query_group])]] 78 (.mask 8388618)]
  -- FCSParser.py:584-623
  | .query_group =>
    [.matchTok 80 1, .sync 83, .predict 7 [[.call 81 .query_disjunction], [.call 82 .query_sequence]],
      .matchTok 85 2, .sync 87, .ifLA (.mask 14848) [.call 86 .quantifier]]
  -- FCSParser.py:665-700
  | .query_simple =>
    [.sync 91, .switchLA [([23], [.call 89 .query_implicit]), ([3], [.call 90 .query_segment])], .sync 94,
      .ifLA (.mask 14848) [.call 93 .quantifier]]
  -- FCSParser.py:754-830
  | .quantifier =>
    [.sync 114, .switchLA [([11], [.matchTok 96 11]), ([12], [.matchTok 97 12]), ([13], [.matchTok 98 13]),
      ([9], [.matchTok 99 9, .sync 111, .predict 13 [[.matchTok 100 22], [.sync 102,
      .ifLA (.eq 22) [.matchTok 101 22], .matchTok 104 14, .matchTok 105 22], [.matchTok 106 22,
      .matchTok 107 14, .sync 109, .ifLA (.eq 22) [.matchTok 108 22]]], .matchTok 113 10])]]
  -- FCSParser.py:864-878
  | .query_implicit =>
    [.call 116 .regexp]
  -- FCSParser.py:918-943
  | .query_segment =>
    [.matchTok 118 3, .sync 120, .ifLA (.mask 3932290) [.call 119 .expression], .matchTok 122 4]
  -- FCSParser.py:977-991
  | .within_part =>
    [.call 124 .within_part_simple]
  -- FCSParser.py:1024-1038
  | .within_part_simple =>
    [.matchTok 126 19]
  -- FCSParser.py:1088-1133
  | .expression =>
    [.sync 133, .predict 16 [[.call 128 .expression_basic], [.call 129 .expression_group],
      [.call 130 .expression_or], [.call 131 .expression_and], [.call 132 .expression_not]]]
  -- FCSParser.py:1197-1271
  | .expression_or =>
    [.sync 139, .predict 17 [[.call 135 .expression_basic], [.call 136 .expression_group],
      [.call 137 .expression_and], [.call 138 .expression_not]], .sync 148, .whilePredict [.matchTok 141 5,
      .sync 146, .predict 18 [[.call 142 .expression_basic], [.call 143 .expression_group],
      [.call 144 .expression_and], [.call 145 .expression_not]]] 150 19]
  -- FCSParser.py:1335-1403
  | .expression_and =>
    [.sync 155, .switchLA [([18, 19, 20, 21], [.call 152 .expression_basic]), ([1],
      [.call 153 .expression_group]), ([7], [.call 154 .expression_not])], .sync 164,
      .whilePredict [.matchTok 157 6, .sync 162, .predict 21 [[.call 158 .expression_basic],
      [.call 159 .expression_group], [.call 160 .expression_or], [.call 161 .expression_not]]] 166 22]
  -- FCSParser.py:1459-1504
  | .expression_group =>
    [.matchTok 168 1, .sync 174, .predict 23 [[.call 169 .expression_basic], [.call 170 .expression_group],
      [.call 171 .expression_or], [.call 172 .expression_and], [.call 173 .expression_not]], .matchTok 176 2]
  -- FCSParser.py:1557-1600
  | .expression_not =>
    [.matchTok 178 7, .sync 184, .predict 24 [[.call 179 .expression_basic], [.call 180 .expression_group],
      [.call 181 .expression_not], [.call 182 .expression_or], [.call 183 .expression_and]]]
  -- FCSParser.py:1644-1668
  | .expression_basic =>
    [.call 186 .attribute_, .matchSet 187 (.or (.eq 15) (.eq 16)), .call 188 .regexp]
  -- FCSParser.py:1709-1733
  | .attribute_ =>
    [.sync 193, .predict 25 [[.call 190 .qualifier, .matchTok 191 17]], .call 195 .identifier]
  -- FCSParser.py:1775-1795
  | .qualifier =>
    [.matchSet 197 (.mask 3932160)]
  -- FCSParser.py:1837-1857
  | .identifier =>
    [.matchSet 199 (.mask 3932160)]
  -- FCSParser.py:1898-1923
  | .regexp =>
    [.call 201 .regexp_pattern, .sync 204, .ifLA (.eq 8) [.matchTok 202 8, .call 203 .regexp_flag]]
  -- FCSParser.py:1956-1970
  | .regexp_pattern =>
    [.matchTok 206 23]
  -- FCSParser.py:2003-2017
  | .regexp_flag =>
    [.matchTok 208 20]

end Fcsql
