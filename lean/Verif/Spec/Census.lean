/-
Specification: the comparisons of a query, read off its tokens one literal at a time; sums over the nodes of a tree and over tokens.
-/
import Verif.Spec.Literal
import Verif.Spec.Tree
import Mathlib.Data.List.Forall2

set_option autoImplicit false

namespace Fcsql

/-- A literal of a query: the tokens before it (nearest first), its token, the tokens after it. -/
structure Literal where
  before : List Tok
  tok : Tok
  after : List Tok

/-- The literals among some tokens, from left to right; `before` are the tokens passed already, nearest first. -/
def literalsFrom (before : List Tok) : List Tok → List Literal
  | [] => []
  | x :: xs =>
    if x.type = .REGEXP then ⟨before, x, xs⟩ :: literalsFrom (x :: before) xs
    else literalsFrom (x :: before) xs

/-- The literals of a query. -/
def literals (ts : List Tok) : List Literal := literalsFrom [] ts

/-- The qualifier written before an identifier: the token before the `:`. -/
def qualifierBefore : List Tok → Option PyStr
  | c :: q :: _ => if c.type = .COLON then some q.text else none
  | _ => none

/-- What a literal is compared with: qualifier, identifier and operator written before it, or else the defaults. -/
def comparedWith (cfg : Config) : List Tok → Option PyStr × PyStr × Operator
  | op :: i :: rest =>
    if op.type = .OPERATOR_EQ then (qualifierBefore rest, i.text, .EQUALS)
    else if op.type = .OPERATOR_NE then (qualifierBefore rest, i.text, .NOT_EQUALS)
    else (none, cfg.defaultIdentifier, cfg.defaultOperator)
  | _ => (none, cfg.defaultIdentifier, cfg.defaultOperator)

/-- The flags written after a literal: the token after the `/`. -/
def flagsAfter : List Tok → Option PyStr
  | s :: f :: _ => if s.type = .FWD_SLASH then some f.text else none
  | _ => none

/-- The `Expression` a literal stands for. -/
def Literal.Means (rt : PyRuntime) (cfg : Config) (l : Literal) (n : Node) : Prop :=
  ∃ raw fl, LitValue l.tok.text raw ∧
    (match flagsAfter l.after with
      | none => fl = none
      | some f => ∃ fs, FlagsNamed f fs ∧ fs.Legal ∧ fl = some fs) ∧
    n.kind = .expression (comparedWith cfg l.before).1 (comparedWith cfg l.before).2.1 (comparedWith cfg l.before).2.2
      (cfg.norm rt raw) fl

/-- The nodes of a class in a tree, from left to right, parents before children. -/
def Node.all (n : Node) (c : Clazz) : List Node := n.subnodes.filter fun m => m.kind.clazz = c

/-- How many operators join the children of the nodes of a class. -/
def Node.joints (n : Node) (c : Clazz) : Nat := ((n.all c).map fun m => m.children.length - 1).sum

mutual
/-- The number of contexts of a parse tree. -/
def PTree.contexts : PTree → Nat
  | .leaf _ => 0
  | .node _ cs => 1 + PTree.contextsL cs
/-- The number of contexts of some parse trees. -/
def PTree.contextsL : List PTree → Nat
  | [] => 0
  | c :: cs => c.contexts + PTree.contextsL cs
end

end Fcsql
