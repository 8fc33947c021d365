/-
Specification of parents of nodes in a tree.
-/
import Verif.Spec.Tree

set_option autoImplicit false

namespace Fcsql

mutual
/-- All nodes of a tree in document order with their parents; `p` is the parent of the root. -/
def realParents (p : Option Node) : Node → List (Node × Option Node)
  | .mk k cs l => (.mk k cs l, p) :: realParentsL (some (.mk k cs l)) cs
/-- All nodes of a list of trees with their parents. -/
def realParentsL (p : Option Node) : List Node → List (Node × Option Node)
  | [] => []
  | c :: cs => realParents p c ++ realParentsL p cs
end

/-- The node classes for which `Validator` has a method under the name that is looked up. -/
def tracked (n : Node) : Prop :=
  n.kind.clazz ∈ [Clazz.Expression, .QueryDisjunction, .QuerySequence, .QueryWithWithin, .QuerySegment, .QueryGroup,
    .SimpleWithin]

instance (n : Node) : Decidable (tracked n) := by unfold tracked; infer_instance

mutual
/-- The tracked nodes of a tree in document order with their nearest tracked ancestors; `p` is the one of the root. -/
def trackedParents (p : Option Node) : Node → List (Node × Option Node)
  | .mk k cs l =>
    if tracked (.mk k cs l) then (.mk k cs l, p) :: trackedParentsL (some (.mk k cs l)) cs
    else trackedParentsL p cs
/-- The same for a list of trees. -/
def trackedParentsL (p : Option Node) : List Node → List (Node × Option Node)
  | [] => []
  | c :: cs => trackedParents p c ++ trackedParentsL p cs
end

end Fcsql
