/-
What may become of a call of `parse` when an exception arrives from outside (for C102).
-/
import Verif.Model.Faults

set_option autoImplicit false

namespace Fcsql

/-- `QueryParserException("an unexpected exception occured while parsing")`. -/
def unexpected : ParserException := ⟨py!"an unexpected exception occured while parsing"⟩

/-- How a call that ends like this looks. -/
def ParseEnd.of : Except ParserException Node → ParseEnd
  | .ok n => .node n
  | .error e => .parserException e

/-- The end of a call that would have ended with `r`: a node only if that is the node; the exception, or one that says
that something unexpected occurred; or what has arrived leaves the call. -/
def ParseEnd.Fair (r : Except ParserException Node) : ParseEnd → Prop
  | .node n => r = .ok n
  | .parserException e => r = .error e ∨ e = unexpected
  | .strike _ => True

/-- Whatever arrives is of one kind. -/
def Faults.Only (k : Strike) (F : Faults) : Prop :=
  (∀ k', F.entry = some k' → k' = k) ∧ (∀ t ctx k' j, F.rules t ctx = some (k', j) → k' = k) ∧ (∀ k', F.after = some k' → k' = k) ∧
    (∀ i k', F.builder i = some k' → k' = k) ∧ (∀ k', F.handler = some k' → k' = k) ∧ ∀ k', F.leave = some k' → k' = k

/-- Nothing arrives before the `try` statement, in an `except` clause, and in the `finally` clause. -/
def Faults.Inside (F : Faults) : Prop := F.entry = .none ∧ F.handler = .none ∧ F.leave = .none

/-- How `antlr_parse` ends without exceptions from outside. -/
def AntlrEnd.of : Except PyStr PTree → AntlrEnd
  | .ok t => .tree t
  | .error msg => .syntaxError msg

end Fcsql
