/-
What can be relied on in a process with several threads.
-/
import Verif.Model.Process
import Verif.Model.Recovery

set_option autoImplicit false

namespace Fcsql

/-- What is in `errors` of the `i`-th parser object because of a list of calls, after one more call: `parse` puts its records
there. -/
def errorsStep (rt : Runtime) (cfg : Nat → Config) (i : Nat) (es : Option (List ErrorDetail)) : ThreadCall → Option (List ErrorDetail)
  | .parse j q => if j = i then some (parseQuery rt (cfg i) q).2 else es
  | .antlr _ => es
  | .errors _ => es

/-- The records of the last `parse` call on the `i`-th parser object in a list of calls; `none` if there is no such call. -/
def errorsAfter (rt : Runtime) (cfg : Nat → Config) (i : Nat) (cs : List ThreadCall) : Option (List ErrorDetail) :=
  cs.foldl (errorsStep rt cfg i) none

/-- `parse` is called on the `i`-th object in this list. -/
def Parses (i : Nat) (cs : List ThreadCall) : Prop := ∃ q, ThreadCall.parse i q ∈ cs

/-- The records of one of the `parse` calls on the `i`-th object, by whichever thread. -/
def CallErrors (rt : Runtime) (cfg : Nat → Config) (calls : List (List ThreadCall)) (i : Nat) (es : List ErrorDetail) : Prop :=
  ∃ cs ∈ calls, ∃ q, ThreadCall.parse i q ∈ cs ∧ es = (parseQuery rt (cfg i) q).2

/-- No thread but the `j`-th calls `parse` on the `i`-th object. -/
def Alone (calls : List (List ThreadCall)) (j i : Nat) : Prop :=
  ∀ j' cs, calls[j']? = some cs → j' ≠ j → ¬ Parses i cs

/-- The right result of a call that thread `j` makes after the calls `before`: that of `parseQuery`; what `antlr_parse` does in
a process of its own; for `errors` (`errs`, before the threads began) the records of one of the `parse` calls on the object, or
what was there if this thread has not called `parse` on it; if no other thread does, the records of this thread's last call. -/
def RightResult (L A : Atn) (m : Nat) (rt : Runtime) (cfg : Nat → Config) (errs : Nat → List ErrorDetail) (calls : List (List ThreadCall))
    (j : Nat) (before : List ThreadCall) : ThreadCall → ThreadResult → Prop
  | .parse i q, .node o => o = (parseQuery rt (cfg i) q).1
  | .antlr q, .tree o => ∃ N, ∀ n, N ≤ n → antlrProgram L A m n q = some o
  | .errors i, .errors es =>
    (CallErrors rt cfg calls i es ∨ es = errs i ∧ ¬ Parses i before) ∧
    (Alone calls j i → es = (errorsAfter rt cfg i before).getD (errs i))
  | _, _ => False

end Fcsql
