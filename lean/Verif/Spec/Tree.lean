/-
Specifications about whole query trees: all nodes of a tree, and the shape of a tree.
-/
import Verif.Model.Node

set_option autoImplicit false

namespace Fcsql

mutual
/-- All nodes of a tree, parents before children, children left to right. -/
def Node.subnodes : Node → List Node
  | .mk k cs l => .mk k cs l :: Node.subnodesL cs
/-- All nodes of a list of trees. -/
def Node.subnodesL : List Node → List Node
  | [] => []
  | c :: cs => c.subnodes ++ Node.subnodesL cs
end

/-- Classes of nodes for constraints on layers: usable as operand inside brackets. -/
def Kind.isExpr : Kind → Prop
  | .expression .. => True
  | .group => True
  | .not => True
  | .and => True
  | .or => True
  | _ => False

/-- Queries over sequences of tokens. -/
def Kind.isQuery : Kind → Prop
  | .segment .. => True
  | .qgroup .. => True
  | .sequence => True
  | .disjunction => True
  | _ => False

/-- Segments and groups: the items of a sequence. -/
def Kind.isItem : Kind → Prop
  | .segment .. => True
  | .qgroup .. => True
  | _ => False

/-- What the children of a node of the given class may be. -/
def ShapeAt : Kind → List Kind → Prop
  | .expression .., cs => cs = []
  | .wildcard, cs => cs = []
  | .within _, cs => cs = []
  | .group, cs => ∃ c, cs = [c] ∧ c.isExpr
  | .not, cs => ∃ c, cs = [c] ∧ c.isExpr
  | .and, cs => 2 ≤ cs.length ∧ (∀ c ∈ cs, c.isExpr ∧ c ≠ .and) ∧ cs.head? ≠ some .or
  | .or, cs => 2 ≤ cs.length ∧ ∀ c ∈ cs, c.isExpr ∧ c ≠ .or
  | .segment .., cs => ∃ c, cs = [c] ∧ (c.isExpr ∨ c = .wildcard)
  | .qgroup .., cs => ∃ c, cs = [c] ∧ (c = .sequence ∨ c = .disjunction)
  | .sequence, cs => 1 ≤ cs.length ∧ ∀ c ∈ cs, c.isItem
  | .disjunction, cs => 2 ≤ cs.length ∧ ∀ c ∈ cs, c.isQuery ∧ c ≠ .disjunction
  | .withWithin, cs => ∃ m s, cs = [m, .within s] ∧ m.isQuery

/-- Shape of a whole tree. -/
structure WellShaped (n : Node) : Prop where
  root : n.kind.isQuery ∨ n.kind = .withWithin
  inner : ∀ m ∈ n.subnodes, ShapeAt m.kind (m.children.map Node.kind)

/-- Occurrence bounds: not negative, and the maximum is unbounded or at least the minimum. -/
def SaneBounds (mn mx : Int) : Prop := 0 ≤ mn ∧ (mx = -1 ∨ mn ≤ mx)

end Fcsql
