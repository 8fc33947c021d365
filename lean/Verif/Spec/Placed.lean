/-
Where the parts of a query put together from queries are in its text.
-/
import Verif.Spec.Shift
import Verif.Model.Builder

set_option autoImplicit false

namespace Fcsql

/-- Trees of texts written one after the other, `gap` characters apart, the first one at position `k`: each is moved to the
place of its text. -/
def placed (gap : Nat) : Nat → List (PyStr × Node) → List Node
  | _, [] => []
  | k, (q, n) :: ps => n.shift k :: placed gap (k + q.length + gap) ps

/-- The range from the start of one range to the end of another one, if both are there. -/
def fromTo : Option Loc → Option Loc → Option Loc
  | some a, some b => some ⟨a.start, b.stop⟩
  | _, _ => none

/-- The range from the start of the first node to the end of the last one. -/
def hull (ns : List Node) : Option Loc := fromTo (ns.head?.bind Node.loc) (ns.getLast?.bind Node.loc)

/-- How an operand appears in a disjunction: a group is wrapped in a one-element sequence, at the same place. -/
def Node.operandAt (n : Node) : Node :=
  match n.kind with
  | .qgroup _ _ => .mk .sequence [n] n.loc
  | _ => n

/-- How a query appears inside parentheses: a single query is wrapped in a one-element sequence, at the same place. -/
def Node.contentAt (n : Node) : Node :=
  match n.kind with
  | .segment _ _ | .qgroup _ _ => .mk .sequence [n] n.loc
  | _ => n

/-- A place, if places are recorded. -/
def Config.at (cfg : Config) (a b : Int) : Option Loc := if cfg.enableSourceLocations then some ⟨a, b⟩ else none

end Fcsql
