/-
What is said in C107 about the parse tree of a query that may be malformed.
-/
import Verif.Model.ErrorTree

set_option autoImplicit false

namespace Fcsql

mutual
/-- The tokens in a tree, from left to right: those of terminal nodes and of error nodes, but not those that were made up, and not
`EOF`. -/
def ETree.tokens : ETree → List Tok
  | .leaf t => if t.type = .EOF then [] else [t]
  | .error t => if t.type = .EOF then [] else [t]
  | .missing _ => []
  | .node _ _ cs => ETree.tokensL cs
/-- The same for a list of children. -/
def ETree.tokensL : List ETree → List Tok
  | [] => []
  | t :: ts => t.tokens ++ ETree.tokensL ts
end

mutual
/-- Nothing in the tree shows an error: no error nodes, no context with an `exception`. -/
def ETree.sound : ETree → Bool
  | .leaf _ => true
  | .error _ => false
  | .missing _ => false
  | .node _ failed cs => !failed && ETree.soundL cs
/-- The same for a list of children. -/
def ETree.soundL : List ETree → Bool
  | [] => true
  | t :: ts => t.sound && ETree.soundL ts
end

mutual
/-- The tree of an accepted query (`antlr_parse`), as one of these trees. -/
def PTree.plain : PTree → ETree
  | .leaf t => .leaf t
  | .node r cs => .node r false (PTree.plainL cs)
/-- The same for a list of children. -/
def PTree.plainL : List PTree → List ETree
  | [] => []
  | t :: ts => t.plain :: PTree.plainL ts
end

mutual
/-- The nodes of a tree, of any kind. -/
def ETree.nodes : ETree → Nat
  | .leaf _ => 1
  | .error _ => 1
  | .missing _ => 1
  | .node _ _ cs => 1 + ETree.nodesL cs
/-- The same for a list of children. -/
def ETree.nodesL : List ETree → Nat
  | [] => 0
  | t :: ts => t.nodes + ETree.nodesL ts
end

mutual
/-- The contexts of a tree: how many. -/
def ETree.contexts : ETree → Nat
  | .leaf _ => 0
  | .error _ => 0
  | .missing _ => 0
  | .node _ _ cs => 1 + ETree.contextsL cs
/-- The same for a list of children. -/
def ETree.contextsL : List ETree → Nat
  | [] => 0
  | t :: ts => t.contexts + ETree.contextsL ts
end

end Fcsql
