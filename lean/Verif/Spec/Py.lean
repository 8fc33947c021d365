/-
What Python's string operations mean, character by character: a specification independent of `Model/Py`.
-/
import Verif.Model.Py

set_option autoImplicit false

namespace Fcsql

/-- The position an index stands for in a sequence of length `len`: negative ones count from the end. -/
def indexFrom (len : Nat) (i : Int) : Int := if i < 0 then i + len else i

/-- The part of a text from position `a` to position `b` (exclusive): its characters at those positions. -/
def substring (s : PyStr) (a b : Int) : PyStr :=
  (s.zipIdx.filter fun p => indexFrom s.length a ≤ (p.2 : Int) ∧ (p.2 : Int) < indexFrom s.length b).map Prod.fst

end Fcsql
