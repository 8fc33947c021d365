/-
Specification of parse tree objects: the plain tree, the tokens under a node, the contexts of a tree.
-/
import Verif.Model.Marked
import Verif.Spec.Contexts
import Verif.Spec.GenParser
import Verif.Model.QueryParser

set_option autoImplicit false

namespace Fcsql

namespace CTree

mutual
/-- The plain parse tree. -/
def plain : CTree → PTree
  | .leaf x _ => .leaf x
  | .node r _ _ _ ks => .node r (plainL ks)
/-- The plain parse trees. -/
def plainL : List CTree → List PTree
  | [] => []
  | c :: cs => plain c :: plainL cs
end

mutual
/-- The tokens under a node with their indices, left to right. -/
def marks : CTree → List (Tok × Nat)
  | .leaf x i => [(x, i)]
  | .node _ _ _ _ ks => marksL ks
/-- The tokens under the nodes. -/
def marksL : List CTree → List (Tok × Nat)
  | [] => []
  | c :: cs => marks c ++ marksL cs
end

mutual
/-- The nodes of a tree, parents before children, left to right. -/
def nodes : CTree → List CTree
  | .leaf x i => [.leaf x i]
  | .node r ch a b ks => .node r ch a b ks :: nodesL ks
/-- The nodes of trees. -/
def nodesL : List CTree → List CTree
  | [] => []
  | c :: cs => nodes c ++ nodesL cs
end

end CTree

/-- With this prediction the generated functions build the parse tree of every query that has one. -/
def Predictor.Parses (P : Predictor) : Prop :=
  ∀ q f, antlrParse q = .ok (.node .query f) → Ends P code .query (tokenStream q) (.ok f [])

/-- `parser.query()` returns this object (however large the bound on the number of steps). -/
def QueryReturns (P : Predictor) (toks : List Tok) (T : CTree) : Prop :=
  ∃ N, ∀ n, N ≤ n → queryM P n toks = some T

end Fcsql

namespace Fcsql

/-- Where a node is in a tree: the root at depth 1, children one below their parent. -/
inductive AtDepth (T : CTree) : Nat → CTree → Prop
  | root : AtDepth T 1 T
  | child {d : Nat} {p c : CTree} : AtDepth T d p → c ∈ p.children → AtDepth T (d + 1) c

/-- The intervals lie one after the other from `a` up to (not including) `e`, without gap and none of them empty. -/
def Tiles : Int → List (Int × Int) → Int → Prop
  | a, [], e => a = e
  | a, (x, y) :: l, e => x = a ∧ x ≤ y ∧ Tiles (y + 1) l e

end Fcsql
