/-
Typed accessors and constructors of the node classes (parser.py:386-910) with their exceptions.
-/
import Verif.Model.Node

set_option autoImplicit false

namespace Fcsql

/-- `TypeError`, raised by the predicates for the argument `None`. -/
inductive TypeError | mk
  deriving DecidableEq, Repr

/-- `list(children or []) + [child]` (parser.py:414-420): the children a constructor stores.  A node object is
always true in a Boolean context (no node class defines `__bool__` or `__len__`). -/
def initChildren {ν : Type} (children : Option (List ν)) (child : Option ν) : List ν :=
  (match children with
    | none => []
    | some cs => cs) ++
  (match child with
    | none => []
    | some c => [c])

/-- `Expression(...)` (parser.py:519-561); no children, `location` is `None` (parser.py:425). -/
def mkExpression (qualifier : Option PyStr) (identifier : PyStr) (operator : Operator) (regex : PyStr)
    (flags : Option FlagSet) : Node :=
  .mk (mkExpressionKind qualifier identifier operator regex flags) (initChildren none none) none

/-- `ExpressionWildcard(children, child)` (parser.py:675-680). -/
def mkWildcard (children : Option (List Node)) (child : Option Node) : Node :=
  .mk .wildcard (initChildren children child) none

/-- `QueryWithWithin(query, within)` (parser.py:791-799). -/
def mkWithWithin (query : Node) (within : Option Node) : Node :=
  let children := match within with
    | some w => [query, w]
    | none => [query]
  .mk .withWithin (initChildren (some children) none) none

/-- `QuerySegment(expression, min, max)` (parser.py:821-834). -/
def mkSegment (expression : Node) (mn mx : Int) : Node := .mk (.segment mn mx) (initChildren none (some expression)) none

/-- `QueryGroup(child, min, max)` (parser.py:859-872). -/
def mkQueryGroup (child : Node) (mn mx : Int) : Node := .mk (.qgroup mn mx) (initChildren none (some child)) none

/-- `ExpressionGroup(child)` (parser.py:686-692). -/
def mkExprGroup (child : Node) : Node := .mk .group (initChildren none (some child)) none

/-- `ExpressionNot(child)` (parser.py:704-710). -/
def mkNot (child : Node) : Node := .mk .not (initChildren none (some child)) none

/-- `ExpressionAnd(children)` (parser.py:722-728). -/
def mkAnd (children : List Node) : Node := .mk .and (initChildren (some children) none) none

/-- `ExpressionOr(children)` (parser.py:743-749). -/
def mkOr (children : List Node) : Node := .mk .or (initChildren (some children) none) none

/-- `QueryDisjunction(children)` (parser.py:767-773). -/
def mkDisjunction (children : List Node) : Node := .mk .disjunction (initChildren (some children) none) none

/-- `QuerySequence(children)` (parser.py:779-785). -/
def mkSequence (children : List Node) : Node := .mk .sequence (initChildren (some children) none) none

/-- `SimpleWithin(scope)` (parser.py:900-904). -/
def mkSimpleWithin (scope : Scope) : Node := .mk (.within scope) (initChildren none none) none

namespace Node

/-- `self.children[0]`: `QueryWithWithin.get_query` (parser.py:801-807), `QuerySegment.get_expression`
(parser.py:836-842), `QueryGroup.get_content` (parser.py:874-880). -/
def firstOrRaise (n : Node) : Except IndexError Node :=
  match n.children with
  | [] => .error .mk
  | c :: _ => .ok c

/-- `QueryWithWithin.get_query` (parser.py:801-807). -/
def getQuery (n : Node) : Except IndexError Node := n.firstOrRaise

/-- `QueryWithWithin.get_within` (parser.py:809-815): `self.get_child(1)`. -/
def getWithin (n : Node) : Except IndexError (Option Node) := n.getChild 1

/-- `QuerySegment.get_expression` (parser.py:836-842). -/
def getExpression (n : Node) : Except IndexError Node := n.firstOrRaise

/-- `QueryGroup.get_content` (parser.py:874-880). -/
def getContent (n : Node) : Except IndexError Node := n.firstOrRaise

/-- `ExpressionAnd.operands`, `ExpressionOr.operands` (parser.py:730-737, 751-758). -/
def operands (n : Node) : List Node := n.children

/-- `has_node_type` (parser.py:428-442) with an argument that may be `None`. -/
def hasNodeTypeArg (n : Node) : Option NodeType → Except TypeError Bool
  | none => .error .mk
  | some t => .ok (n.hasNodeType t)

end Node

namespace ExprAttrs
/-- `has_layer_identifier` (parser.py:563-577) with an argument that may be `None`. -/
def hasLayerIdentifierArg (e : ExprAttrs) : Option PyStr → Except TypeError Bool
  | none => .error .mk
  | some i => .ok (e.hasLayerIdentifier i)
/-- `has_layer_qualifier` (parser.py:588-605) with an argument that may be `None`. -/
def hasLayerQualifierArg (e : ExprAttrs) : Option PyStr → Except TypeError Bool
  | none => .error .mk
  | some q => .ok (e.hasLayerQualifier q)
/-- `has_operator` (parser.py:607-621) with an argument that may be `None`. -/
def hasOperatorArg (e : ExprAttrs) : Option Operator → Except TypeError Bool
  | none => .error .mk
  | some o => .ok (e.hasOperator o)
/-- `has_regex_flag` (parser.py:631-647) with an argument that may be `None`. -/
def hasRegexFlagArg (e : ExprAttrs) : Option RegexFlag → Except TypeError Bool
  | none => .error .mk
  | some f => .ok (e.hasRegexFlag f)
end ExprAttrs

end Fcsql
