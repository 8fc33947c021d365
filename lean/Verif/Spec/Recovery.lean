/-
What is assumed of the runtime library, and what a run of the generated parser with error recovery is.
-/
import Verif.Model.Recovery
import Verif.Spec.GenParser

set_option autoImplicit false

namespace Fcsql

variable {σ : Type}

/-- The runtime's predictor is right (as for queries without errors, Spec/GenParser.lean); and an alternative it chooses
can go on with the next token (or without any token to the end of the rule).  Nothing is assumed of the error strategy. -/
structure Strategy.Sound (S : Strategy σ) (A : Atn) : Prop where
  ideal : S.toPredictor.Ideal A
  starts : ∀ d ctx ts i, S.predict d ctx ts = some i →
    ∃ s t, A.decisions[d]? = some s ∧ 1 ≤ i ∧ (A.out s)[i - 1]? = some (.eps t) ∧ Expected A t (la ts)

/-- The function of rule `r`, called on the tokens `ts`, returns with these children of its context and these reports
(however large the bound on the number of steps). -/
def Returns (S : Strategy σ) (m : σ) (eof : Tok) (prog : Rule → List Stmt) (r : Rule) (ts : List Tok) (f : List PTree)
    (reports : List Tok) : Prop :=
  ∃ N, ∀ n, N ≤ n → callR S m eof prog n r ts = some (f, reports)

end Fcsql
