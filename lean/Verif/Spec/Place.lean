/-
Lines of a text.
-/
import Verif.Model.Py

set_option autoImplicit false

namespace Fcsql

/-- The line of position `k`, counted from 1: line feeds before the position, plus one. -/
def lineAt (q : PyStr) (k : Nat) : Nat := 1 + (q.take k).count 10

end Fcsql
