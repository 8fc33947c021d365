/-
`QueryVisitor` and `QueryVisitorAdapter` (parser.py:144-338).

A visitor is a Python object with arbitrary mutable state `σ`, raising exceptions of type `ε`; its
methods are looked up by name.  Mutations made before an exception persist.
-/
import Verif.Model.Node

set_option autoImplicit false

namespace Fcsql

/-- A method call on the visitor object: result or exception, and the new object state. -/
abbrev Act (R σ ε : Type) := σ → Except ε (Option R) × σ

/-- The overridable traversal hooks (parser.py:190-197): methods of the visitor object, which may change its state and
raise. -/
structure VisitorBase (R σ ε : Type) where
  /-- `defaultResult` (parser.py:190-191) -/
  defaultResult : Act R σ ε := fun s => (.ok none, s)
  /-- `aggregateResult` (parser.py:193-194) -/
  aggregate : Option R → Option R → Act R σ ε := fun _ next s => (.ok next, s)
  /-- `shouldVisitNextChild` (parser.py:196-197) -/
  shouldVisit : Node → Option R → σ → Except ε Bool × σ := fun _ _ s => (.ok true, s)

/-- A visitor: hooks and the `visit_*` methods it has, by name.  A method gets the node and, for every
child of the node, the action `child.accept(self)`; it may run them in any way (usually through
`visitChildrenLoop`). -/
structure Visitor (R σ ε : Type) extends VisitorBase R σ ε where
  method : PyStr → Option (Node → List (Act R σ ε) → Act R σ ε)

/-- The loop of `visitChildren` (parser.py:178-188) from an intermediate result. -/
def visitLoop {R σ ε : Type} (b : VisitorBase R σ ε) (node : Node) :
    Option R → List (Act R σ ε) → Act R σ ε
  | result, [], s => (.ok result, s)
  | result, a :: as, s =>
    match b.shouldVisit node result s with
    | (.error e, s) => (.error e, s)
    | (.ok false, s) => (.ok result, s)
    | (.ok true, s) =>
      match a s with
      | (.error e, s) => (.error e, s)
      | (.ok r, s) =>
        match b.aggregate result r s with
        | (.error e, s) => (.error e, s)
        | (.ok result, s) => visitLoop b node result as s

/-- `QueryVisitor.visitChildren(node)` (parser.py:177-188). -/
def visitChildrenLoop {R σ ε : Type} (b : VisitorBase R σ ε) (node : Node)
    (accepts : List (Act R σ ε)) : Act R σ ε := fun s =>
  match b.defaultResult s with
  | (.error e, s) => (.error e, s)
  | (.ok result, s) => visitLoop b node result accepts s

/-- `method_name = f"visit_{node.node_type}"` (parser.py:167). -/
def methodName (n : Node) : PyStr := py!"visit_" ++ n.nodeType.value

/-- `method = getattr(self, method_name, self.visitChildren)` (parser.py:168). -/
def dispatch {R σ ε : Type} (v : Visitor R σ ε) (node : Node) (accepts : List (Act R σ ε)) :
    Act R σ ε :=
  match v.method (methodName node) with
  | some m => m node accepts
  | none => visitChildrenLoop v.toVisitorBase node accepts

mutual
/-- `QueryVisitor.visit(node)` (parser.py:150-173), also `node.accept(visitor)` (parser.py:509-510). -/
def visitNode {R σ ε : Type} (v : Visitor R σ ε) : Node → Act R σ ε
  | .mk k cs l => dispatch v (.mk k cs l) (acceptAll v cs)
/-- The actions `child.accept(visitor)` of a list of children. -/
def acceptAll {R σ ε : Type} (v : Visitor R σ ε) : List Node → List (Act R σ ε)
  | [] => []
  | c :: cs => visitNode v c :: acceptAll v cs
end

/-- The names of the methods `QueryVisitorAdapter` defines (parser.py:208-337). -/
def adapterMethods : List PyStr :=
  [ py!"visit_Expression", py!"visit_ExpressionWildcard", py!"visit_ExpressionGroup",
    py!"visit_ExpressionNot", py!"visit_ExpressionAnd", py!"visit_ExpressionOr",
    py!"visit_QueryDisjunction", py!"visit_QuerySequence", py!"visit_QueryWithWithin",
    py!"visit_QuerySegment", py!"visit_QueryGroup", py!"visit_SimpleWithin" ]

/-- The method `QueryVisitorAdapter` documents for a node class (parser.py:208-337). -/
def documentedMethod : Clazz → PyStr
  | .QueryNode => []
  | .Expression => py!"visit_Expression"
  | .ExpressionWildcard => py!"visit_ExpressionWildcard"
  | .ExpressionGroup => py!"visit_ExpressionGroup"
  | .ExpressionNot => py!"visit_ExpressionNot"
  | .ExpressionAnd => py!"visit_ExpressionAnd"
  | .ExpressionOr => py!"visit_ExpressionOr"
  | .QueryDisjunction => py!"visit_QueryDisjunction"
  | .QuerySequence => py!"visit_QuerySequence"
  | .QueryWithWithin => py!"visit_QueryWithWithin"
  | .QuerySegment => py!"visit_QuerySegment"
  | .QueryGroup => py!"visit_QueryGroup"
  | .SimpleWithin => py!"visit_SimpleWithin"

/-- `QueryVisitorAdapter` (parser.py:200-337): every method calls `visitChildren`. -/
def adapter (R σ ε : Type) : Visitor R σ ε :=
  { method := fun name =>
      if name ∈ adapterMethods then some fun node acc => visitChildrenLoop {} node acc else none }

end Fcsql
