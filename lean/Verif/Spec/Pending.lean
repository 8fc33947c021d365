/-
Specification: how much room the functions of the generated parser need (for C104).
-/
import Verif.Spec.Depth
import Verif.Model.Lexer

set_option autoImplicit false

namespace Fcsql

/-- This many calls pending are enough for a query, whether it is of the language or not: eleven, three for each `(` and `!`, and two for
each token that may be a name and is not in its place. -/
def roomFor (q : PyStr) : Nat :=
  11 + 3 * (countTok .L_PAREN (lexTokens q) + countTok .NOT (lexTokens q)) +
    2 * (countTok .WITHIN (lexTokens q) + countTok .SIMPLE_WITHIN_SCOPE (lexTokens q) + countTok .REGEXP_FLAGS (lexTokens q) +
      countTok .IDENTIFIER (lexTokens q))

end Fcsql
