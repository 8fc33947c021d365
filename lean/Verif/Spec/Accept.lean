/-
Specification of acceptance: the checks made beyond lexing and grammar, on the token sequence alone.
-/
import Verif.Spec.Literal

set_option autoImplicit false

namespace Fcsql

/-- The local checks on a token sequence. -/
structure LocalChecks (rt : PyRuntime) (ts : List Tok) : Prop where
  /-- every string literal stands for some string -/
  literals : ∀ t ∈ ts, t.type = .REGEXP → ∃ v, LitValue t.text v
  /-- every `/flags` is a legal combination -/
  flags : ∀ s f, [s, f] <:+: ts → s.type = .FWD_SLASH → ∃ fs, FlagsNamed f.text fs ∧ fs.Legal
  /-- every integer is within the interpreter's digit limit -/
  ints : ∀ t ∈ ts, t.type = .INTEGER → rt.intMaxStrDigits = 0 ∨ t.text.length ≤ rt.intMaxStrDigits
  /-- every `n,m` has `n ≤ m` -/
  ranges : ∀ a c b, [a, c, b] <:+: ts → a.type = .INTEGER → c.type = .Q_COMMA → b.type = .INTEGER →
    decimalValue a.text ≤ decimalValue b.text

end Fcsql
