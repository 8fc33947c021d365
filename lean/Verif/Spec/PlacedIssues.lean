/-
What `fcsql.validate` reports about queries put together from queries.
-/
import Verif.Spec.Shift
import Verif.Model.QueryParser

set_option autoImplicit false

namespace Fcsql

/-- A position moved by `k` characters. -/
def Position.shift (k : Int) : Position → Position
  | .none => .none
  | .offset n => .offset (n + k)
  | .loc l => .loc (l.shift k)

/-- The same report about a text that is `k` characters further on: same message, type and fragment. -/
def ErrorDetail.shift (k : Int) (d : ErrorDetail) : ErrorDetail := { d with position := d.position.shift k }

/-- Reports about texts written one after the other, `gap` characters apart, the first one at position `k`: each is moved
to the place of its text. -/
def placedDetails (gap : Nat) : Nat → List (PyStr × List ErrorDetail) → List ErrorDetail
  | _, [] => []
  | k, (q, ds) :: ps => ds.map (ErrorDetail.shift k) ++ placedDetails gap (k + q.length + gap) ps

/-- The report is an error (and not a warning). -/
def ErrorDetail.isError (d : ErrorDetail) : Bool := d.type = some py!"validation-error"

/-- Errors first, then the rest; otherwise in the same order. -/
def errorsFirst (ds : List ErrorDetail) : List ErrorDetail :=
  ds.filter ErrorDetail.isError ++ ds.filter fun d => !d.isError

end Fcsql
