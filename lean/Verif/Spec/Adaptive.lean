/-
When the generated parser asks for a prediction.
-/
import Verif.Model.Adaptive

set_option autoImplicit false

namespace Fcsql

/-- The function of the rule with number `i` is running; it was called from the states `ctx` (innermost caller first), and
the outermost function is that of rule 0, `query` (parser.py:1718-1720, FCSParser.py:132). -/
inductive Calls (A : Atn) : Int → List Nat → Prop
  | root : Calls A 0 []
  | call {st start i t : Nat} {ctx : List Nat} : A.out st = [.rule start i t] → Calls A (A.ruleOf st) ctx → Calls A i (st :: ctx)

/-- The tokens before the end of input, and the end of input. -/
def EndsEof (ts : List Tok) : Prop := ∃ us e, ts = us ++ [e] ∧ e.type = .EOF ∧ ∀ x ∈ us, x.type ≠ .EOF

end Fcsql
