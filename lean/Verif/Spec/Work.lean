/-
How many predictions the contexts of a parse tree are worth.
-/
import Verif.Model.Grammar

set_option autoImplicit false

namespace Fcsql

/-- One prediction for the choice between the alternatives of a rule. -/
def choicesOf : Rule → Nat
  | .main_query | .query_disjunction | .query_group | .expression | .expression_or | .expression_group | .expression_not | .attribute_ => 1
  | _ => 0

/-- Further predictions for a token of a context: what comes after `|` and after `&` (in an expression also: whether there is one
more of them), and what is in the braces. -/
def choicesAt : Rule → TokType → Nat
  | .query_disjunction, .OR => 1
  | .expression_or, .OR => 2
  | .expression_and, .AND => 2
  | .quantifier, .L_CURLY_BRACKET => 1
  | _, _ => 0

mutual
/-- The predictions for a parse tree. -/
def PTree.choices : PTree → Nat
  | .leaf _ => 0
  | .node r f => choicesOf r + PTree.choicesL r f
/-- Those for the children of a context. -/
def PTree.choicesL (r : Rule) : List PTree → Nat
  | [] => 0
  | .leaf t :: f => choicesAt r t.type + PTree.choicesL r f
  | .node r' g :: f => PTree.choices (.node r' g) + PTree.choicesL r f
end

end Fcsql
