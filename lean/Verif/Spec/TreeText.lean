/-
Specification of the text of a parse tree.
-/
import Verif.Model.Grammar

set_option autoImplicit false

namespace Fcsql

/-- The names of the grammar's rules (FCSParser.g4). -/
def ruleName : Rule → PyStr
  | .query => py!"query"
  | .main_query => py!"main_query"
  | .query_disjunction => py!"query_disjunction"
  | .query_sequence => py!"query_sequence"
  | .query_group => py!"query_group"
  | .query_simple => py!"query_simple"
  | .quantifier => py!"quantifier"
  | .query_implicit => py!"query_implicit"
  | .query_segment => py!"query_segment"
  | .within_part => py!"within_part"
  | .within_part_simple => py!"within_part_simple"
  | .expression => py!"expression"
  | .expression_or => py!"expression_or"
  | .expression_and => py!"expression_and"
  | .expression_group => py!"expression_group"
  | .expression_not => py!"expression_not"
  | .expression_basic => py!"expression_basic"
  | .attribute_ => py!"attribute"
  | .qualifier => py!"qualifier"
  | .identifier => py!"identifier"
  | .regexp => py!"regexp"
  | .regexp_pattern => py!"regexp_pattern"
  | .regexp_flag => py!"regexp_flag"

/-- How a character of a token is shown: tab, newline and carriage return as `\t`, `\n`, `\r`. -/
def shownChar (c : Nat) : PyStr :=
  if c = 9 then [92, 116] else if c = 10 then [92, 110] else if c = 13 then [92, 114] else [c]

/-- How the text of a token is shown. -/
def shown (w : PyStr) : PyStr := w.flatMap shownChar

mutual
/-- A parse tree as text: tokens as they are shown; a node as `(name child ... child)`. -/
def PTree.printed : PTree → PyStr
  | .leaf x => shown x.text
  | .node r ks => py!"(" ++ ruleName r ++ PTree.printedL ks ++ py!")"
/-- The children, with a space before each. -/
def PTree.printedL : List PTree → PyStr
  | [] => []
  | c :: cs => py!" " ++ PTree.printed c ++ PTree.printedL cs
end

mutual
/-- A parse tree without positions, its tokens as they are shown. -/
def PTree.seen : PTree → PTree
  | .leaf x => .leaf { type := x.type, text := shown x.text, start := 0, stop := 0 }
  | .node r ks => .node r (PTree.seenL ks)
/-- The trees. -/
def PTree.seenL : List PTree → List PTree
  | [] => []
  | c :: cs => PTree.seen c :: PTree.seenL cs
end

end Fcsql
