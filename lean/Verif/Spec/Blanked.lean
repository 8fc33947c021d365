/-
Specification: a query text in which everything the lexer does not recognise is blanked out.
-/
import Verif.Model.Lexer
import Verif.Spec.Layout

set_option autoImplicit false

namespace Fcsql

/-- Position `i` is in a text the lexer reports as not recognised. -/
def Unrecognised (q : PyStr) (i : Nat) : Prop := ∃ p ∈ lexErrors q, p.start ≤ i ∧ i < p.start + p.text.length

/-- `q'` is `q` with every character that is not recognised replaced by some whitespace character. -/
structure Blanked (q q' : PyStr) : Prop where
  length : q'.length = q.length
  blank : ∀ i, Unrecognised q i → ∃ c, q'[i]? = some c ∧ isWs c = true
  same : ∀ i, ¬ Unrecognised q i → q'[i]? = q[i]?

end Fcsql
