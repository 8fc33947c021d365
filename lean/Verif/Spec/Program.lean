/-
What `antlr_parse` prints.
-/
import Verif.Spec.Place
import Verif.Model.QueryParser
import Verif.Props.Exact

set_option autoImplicit false

namespace Fcsql

/-- The line printed about a text the lexer does not recognise. -/
def errorLine (q : PyStr) (p : Piece) : PyStr :=
  py!"line " ++ decStr (lineAt q p.start) ++ py!":" ++ decStr (columnAt q p.start) ++ py!" token recognition error at: '" ++
    errorDisplay p.text ++ py!"'"

end Fcsql
