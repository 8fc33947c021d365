/-
Specification: how deep trees are nested, and how deep the parentheses of a token sequence are.
-/
import Verif.Model.Builder

set_option autoImplicit false

namespace Fcsql

mutual
/-- The number of contexts on the longest path down a parse tree. -/
def PTree.height : PTree → Nat
  | .leaf _ => 0
  | .node _ cs => 1 + PTree.heightL cs
/-- The greatest height of some trees. -/
def PTree.heightL : List PTree → Nat
  | [] => 0
  | c :: cs => max c.height (PTree.heightL cs)
end

mutual
/-- The number of nodes on the longest path down a query tree. -/
def Node.height : Node → Nat
  | .mk _ cs _ => 1 + Node.heightL cs
/-- The greatest height of some trees. -/
def Node.heightL : List Node → Nat
  | [] => 0
  | c :: cs => max c.height (Node.heightL cs)
end

/-- How many tokens of a type there are. -/
def countTok (ty : TokType) (ts : List Tok) : Nat := (ts.filter fun t => t.type = ty).length

/-- How many `(` are open after these tokens. -/
def openParens (ts : List Tok) : Int := countTok .L_PAREN ts - countTok .R_PAREN ts

/-- The most `(` open at once. -/
def maxOpen : List Tok → Nat
  | [] => 0
  | t :: ts => if t.type = .L_PAREN then maxOpen ts + 1 else if t.type = .R_PAREN then maxOpen ts - 1 else maxOpen ts

end Fcsql
