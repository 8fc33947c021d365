/-
Expressions without parentheses: `|`-separated chunks of `&`-separated units, a unit being an atom preceded by some `!`.
A unit is written `(k, a)`: `k` times `!`, then the atom `a`.
-/
import Verif.Model.Node
import Verif.Spec.Layout

set_option autoImplicit false

namespace Fcsql

/-- The chunk is a single negated atom. -/
def LoneNegation {α : Type} (C : List (Nat × α)) : Prop := ∃ k a, C = [(k + 1, a)]

/-- The chunk has a negated atom after its first operand. -/
def LaterNegation {α : Type} (C : List (Nat × α)) : Prop := ∃ k a, (k + 1, a) ∈ C.tail

/-- No later chunk of the list takes part in an earlier negation:
after a chunk that is a single negated atom, no chunk has several operands;
after a chunk with a negation behind an `&`, there is no chunk. -/
def CalmRest {α : Type} : List (List (Nat × α)) → Prop
  | [] => True
  | C :: Cs => (LoneNegation C → ∀ C' ∈ Cs, C'.length = 1) ∧ (LaterNegation C → Cs = []) ∧ CalmRest Cs

/-- The same, where for the first chunk the last chunk does not matter. -/
def Calm {α : Type} : List (List (Nat × α)) → Prop
  | [] => True
  | C :: Cs => (LoneNegation C → ∀ C' ∈ Cs.dropLast, C'.length = 1) ∧ (LaterNegation C → Cs.length ≤ 1) ∧ CalmRest Cs

/-- `k` negations of a node. -/
def negated : Nat → Node → Node
  | 0, n => n
  | k + 1, n => .mk .not [negated k n] none

/-- The conjunction of nodes (of a single node: the node itself). -/
def conjunction : List Node → Node
  | [n] => n
  | ns => .mk .and ns none

/-- The disjunction of nodes (of a single node: the node itself). -/
def disjunctionOf : List Node → Node
  | [n] => n
  | ns => .mk .or ns none

/-- A unit: `k` times `!`, then an atom with its text and its node. -/
abbrev ExprUnit := Nat × PyStr × Node

/-- `!` before `&` before `|`. -/
def byPrecedence (Cs : List (List ExprUnit)) : Node :=
  disjunctionOf (Cs.map fun C => conjunction (C.map fun u => negated u.1 u.2.2))

/-- The text: `!`s and atom; units with `&` between them; chunks with `|` between them. -/
def chunksText (Cs : List (List ExprUnit)) : PyStr :=
  joinWith py!"|" (Cs.map fun C => joinWith py!"&" (C.map fun u => List.replicate u.1 33 ++ u.2.1))

end Fcsql
