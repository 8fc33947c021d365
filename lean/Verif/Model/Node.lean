/-
Query nodes: the node classes of `src/fcsql/parser.py` (lines 51-138 and 344-910) and their API.

The Python class hierarchy is one constructor each of `Kind`; a node is a kind (its own attributes),
its children and its location.  Parent pointers are modelled separately in `Model/Heap.lean`.
-/
import Verif.Model.Py

set_option autoImplicit false

namespace Fcsql

/-- `Operator` (parser.py:85-94). -/
inductive Operator | EQUALS | NOT_EQUALS
  deriving DecidableEq, Repr

/-- `Operator.__str__` (parser.py:88-89). -/
def Operator.value : Operator → PyStr
  | .EQUALS => py!"Eq"
  | .NOT_EQUALS => py!"Ne"

/-- `RegexFlag` (parser.py:97-118). -/
inductive RegexFlag | CASE_INSENSITIVE | CASE_SENSITIVE | LITERAL_MATCHING | IGNORE_DIACRITICS
  deriving DecidableEq, Repr

/-- A Python `set` of `RegexFlag`s. -/
structure FlagSet where
  ci : Bool
  cs : Bool
  lit : Bool
  dia : Bool
  deriving DecidableEq, Repr

namespace FlagSet
/-- `set()` -/
def empty : FlagSet := ⟨false, false, false, false⟩
/-- `flag in flags` -/
def has (s : FlagSet) : RegexFlag → Bool
  | .CASE_INSENSITIVE => s.ci
  | .CASE_SENSITIVE => s.cs
  | .LITERAL_MATCHING => s.lit
  | .IGNORE_DIACRITICS => s.dia
/-- `flags.add(flag)` -/
def add (s : FlagSet) : RegexFlag → FlagSet
  | .CASE_INSENSITIVE => { s with ci := true }
  | .CASE_SENSITIVE => { s with cs := true }
  | .LITERAL_MATCHING => { s with lit := true }
  | .IGNORE_DIACRITICS => { s with dia := true }
/-- `not flags` -/
def isEmpty (s : FlagSet) : Bool := !(s.ci || s.cs || s.lit || s.dia)
end FlagSet

/-- `SimpleWithinScope` (parser.py:121-138). -/
inductive Scope | SENTENCE | UTTERANCE | PARAGRAPH | TURN | TEXT | SESSION
  deriving DecidableEq, Repr

/-- `SimpleWithinScope.__str__` (parser.py:124-125). -/
def Scope.value : Scope → PyStr
  | .SENTENCE => py!"Sentence"
  | .UTTERANCE => py!"Utterance"
  | .PARAGRAPH => py!"Paragraph"
  | .TURN => py!"Turn"
  | .TEXT => py!"Text"
  | .SESSION => py!"Session"

/-- `OCCURS_UNBOUNDED` (parser.py:45). -/
def OCCURS_UNBOUNDED : Int := -1

/-- `SourceLocation` (parser.py:344-380): start and stop offset, stop exclusive. -/
structure Loc where
  start : Int
  stop : Int
  deriving DecidableEq, Repr

/-- The node classes with their own attributes (parser.py:516-910). -/
inductive Kind
  /-- `Expression` (parser.py:516-666) -/
  | expression (qualifier : Option PyStr) (identifier : PyStr) (operator : Operator)
      (regex : PyStr) (flags : Option FlagSet)
  /-- `ExpressionWildcard` (parser.py:672-680) -/
  | wildcard
  /-- `ExpressionGroup` (parser.py:683-698) -/
  | group
  /-- `ExpressionNot` (parser.py:701-716) -/
  | not
  /-- `ExpressionAnd` (parser.py:719-737) -/
  | and
  /-- `ExpressionOr` (parser.py:740-758) -/
  | or
  /-- `QueryDisjunction` (parser.py:764-773) -/
  | disjunction
  /-- `QuerySequence` (parser.py:776-785) -/
  | sequence
  /-- `QueryWithWithin` (parser.py:788-815) -/
  | withWithin
  /-- `QuerySegment` (parser.py:818-853) -/
  | segment (min max : Int)
  /-- `QueryGroup` (parser.py:856-891) -/
  | qgroup (min max : Int)
  /-- `SimpleWithin` (parser.py:897-910) -/
  | within (scope : Scope)
  deriving DecidableEq, Repr

/-- A query node: class and attributes, `children`, `location`. -/
inductive Node
  | mk (kind : Kind) (children : List Node) (loc : Option Loc)
  deriving Repr

namespace Node
/-- class and attributes -/
def kind : Node → Kind | mk k _ _ => k
/-- `QueryNode.children` (parser.py:414-418) -/
def children : Node → List Node | mk _ cs _ => cs
/-- `QueryNode.location` (parser.py:425) -/
def loc : Node → Option Loc | mk _ _ l => l
end Node

/-- `QueryNodeType` (parser.py:51-82). -/
inductive NodeType
  | QUERY_SEGMENT | QUERY_GROUP | QUERY_SEQUENCE | QUERY_DISJUNCTION | QUERY_WITH_WITHIN
  | EXPRESSION | EXPRESSION_WILDCARD | EXPRESSION_GROUP | EXPRESSION_OR | EXPRESSION_AND
  | EXPRESSION_NOT | SIMPLE_WITHIN
  deriving DecidableEq, Repr

/-- `QueryNodeType.value` / `__str__` (parser.py:54-82). -/
def NodeType.value : NodeType → PyStr
  | .QUERY_SEGMENT => py!"QuerySegment"
  | .QUERY_GROUP => py!"QueryGroup"
  | .QUERY_SEQUENCE => py!"QuerySequence"
  | .QUERY_DISJUNCTION => py!"QueryDisjunction"
  | .QUERY_WITH_WITHIN => py!"QueryWithWithin"
  | .EXPRESSION => py!"Expression"
  | .EXPRESSION_WILDCARD => py!"Wildcard"
  | .EXPRESSION_GROUP => py!"Group"
  | .EXPRESSION_OR => py!"Or"
  | .EXPRESSION_AND => py!"And"
  | .EXPRESSION_NOT => py!"Not"
  | .SIMPLE_WITHIN => py!"SimpleWithin"

/-- `node_type` given by each constructor to `super().__init__`
(parser.py:537, 680, 692, 710, 728, 749, 773, 785, 799, 829, 867, 901).
`QueryGroup` passes `QUERY_SEGMENT` (parser.py:867). -/
def Kind.nodeType : Kind → NodeType
  | .expression .. => .EXPRESSION
  | .wildcard => .EXPRESSION_WILDCARD
  | .group => .EXPRESSION_GROUP
  | .not => .EXPRESSION_NOT
  | .and => .EXPRESSION_AND
  | .or => .EXPRESSION_OR
  | .disjunction => .QUERY_DISJUNCTION
  | .sequence => .QUERY_SEQUENCE
  | .withWithin => .QUERY_WITH_WITHIN
  | .segment .. => .QUERY_SEGMENT
  | .qgroup .. => .QUERY_SEGMENT
  | .within _ => .SIMPLE_WITHIN

/-- `QueryNode.node_type` -/
def Node.nodeType (n : Node) : NodeType := n.kind.nodeType

/-- The node classes, for `isinstance` tests. -/
inductive Clazz
  | QueryNode | Expression | ExpressionWildcard | ExpressionGroup | ExpressionNot | ExpressionAnd
  | ExpressionOr | QueryDisjunction | QuerySequence | QueryWithWithin | QuerySegment | QueryGroup
  | SimpleWithin
  deriving DecidableEq, Repr

/-- The class of a node. -/
def Kind.clazz : Kind → Clazz
  | .expression .. => .Expression
  | .wildcard => .ExpressionWildcard
  | .group => .ExpressionGroup
  | .not => .ExpressionNot
  | .and => .ExpressionAnd
  | .or => .ExpressionOr
  | .disjunction => .QueryDisjunction
  | .sequence => .QuerySequence
  | .withWithin => .QueryWithWithin
  | .segment .. => .QuerySegment
  | .qgroup .. => .QueryGroup
  | .within _ => .SimpleWithin

/-- `isinstance(node, clazz)`: all node classes derive directly from `QueryNode`. -/
def Node.isInstance (n : Node) (c : Clazz) : Bool := c = .QueryNode || n.kind.clazz = c

/-- `IndexError` (list index out of range). -/
inductive IndexError | mk
  deriving DecidableEq, Repr

namespace Node

/-- `QueryNode.child_count` (parser.py:444-451). -/
def childCount (n : Node) : Int := n.children.length

/-- The counting loop of `get_child` (parser.py:472-478), starting at `pos`. -/
def nthOfClass (c : Clazz) (idx : Int) : Int → List Node → Option Node
  | _, [] => none
  | pos, child :: rest =>
    if child.isInstance c then
      if pos = idx then some child else nthOfClass c idx (pos + 1) rest
    else nthOfClass c idx pos rest

/-- `QueryNode.get_child` (parser.py:453-478).  `self.children[idx]` (line 471) raises `IndexError`
when `idx` is the number of children, because line 468 tests `idx > self.child_count`. -/
def getChild (n : Node) (idx : Int) (clazz : Option Clazz := none) : Except IndexError (Option Node) :=
  if n.children.isEmpty || idx < 0 || idx > n.childCount then .ok none
  else
    match clazz with
    | none =>
      match n.children[idx.toNat]? with
      | some c => .ok (some c)
      | none => .error .mk
    | some c => .ok (nthOfClass c idx 0 n.children)

/-- `QueryNode.get_first_child` (parser.py:480-489). -/
def getFirstChild (n : Node) (clazz : Option Clazz := none) : Except IndexError (Option Node) :=
  n.getChild 0 clazz

/-- `QueryNode.get_last_child` (parser.py:491-500). -/
def getLastChild (n : Node) (clazz : Option Clazz := none) : Except IndexError (Option Node) :=
  n.getChild (n.childCount - 1) clazz

/-- `QueryNode.has_node_type` (parser.py:428-442); the argument is not `None`. -/
def hasNodeType (n : Node) (t : NodeType) : Bool := n.nodeType = t

end Node

/-- `Expression.__init__` (parser.py:519-561): normalisation of qualifier and flags. -/
def mkExpressionKind (qualifier : Option PyStr) (identifier : PyStr) (operator : Operator)
    (regex : PyStr) (flags : Option FlagSet) : Kind :=
  .expression
    (match qualifier with
      | none => none
      | some q => if q.isEmpty || isSpaceStr q then none else some q)
    identifier operator regex
    (match flags with
      | none => none
      | some f => if f.isEmpty then none else some f)

/-- The attributes of an `Expression`. -/
structure ExprAttrs where
  qualifier : Option PyStr
  identifier : PyStr
  operator : Operator
  regex : PyStr
  flags : Option FlagSet
  deriving DecidableEq, Repr

namespace ExprAttrs
/-- `has_layer_identifier` (parser.py:563-577) -/
def hasLayerIdentifier (e : ExprAttrs) (i : PyStr) : Bool := e.identifier = i
/-- `is_layer_qualifier_empty` (parser.py:579-586): `bool(self.qualifier)` -/
def isLayerQualifierEmpty (e : ExprAttrs) : Bool :=
  match e.qualifier with
  | none => false
  | some q => !q.isEmpty
/-- `has_layer_qualifier` (parser.py:588-605) -/
def hasLayerQualifier (e : ExprAttrs) (q : PyStr) : Bool :=
  if e.isLayerQualifierEmpty then false else e.qualifier = some q
/-- `has_operator` (parser.py:607-621) -/
def hasOperator (e : ExprAttrs) (o : Operator) : Bool := e.operator = o
/-- `is_regex_flags_empty` (parser.py:623-629): `bool(self.regex_flags)` -/
def isRegexFlagsEmpty (e : ExprAttrs) : Bool :=
  match e.flags with
  | none => false
  | some f => !f.isEmpty
/-- `has_regex_flag` (parser.py:631-647) -/
def hasRegexFlag (e : ExprAttrs) (f : RegexFlag) : Bool :=
  match e.flags with
  | none => false
  | some s => if s.isEmpty then false else s.has f
/-- The node class with these attributes. -/
def kind (e : ExprAttrs) : Kind :=
  .expression e.qualifier e.identifier e.operator e.regex e.flags
end ExprAttrs

/-- `@start:stop` suffix shared by all `__str__` methods (e.g. parser.py:505-506). -/
def locSuffix : Option Loc → PyStr
  | none => []
  | some l => py!"@" ++ intStr l.start ++ py!":" ++ intStr l.stop

/-- `str.translate` with the table of parser.py:654: newline, CR, tab become two characters. -/
def translateWs (s : PyStr) : PyStr :=
  s.flatMap fun c =>
    if c = 10 then py!"\\n" else if c = 13 then py!"\\r" else if c = 9 then py!"\\t" else [c]

/-- Occurrence bounds as shown by `QuerySegment.__str__`/`QueryGroup.__str__`
(parser.py:846-849, 884-887). -/
def occursStr (label : PyStr) (n : Int) : PyStr :=
  if n ≠ 1 then label ++ (if n = OCCURS_UNBOUNDED then py!"*" else intStr n) ++ py!" " else []

/-- flags suffix of `Expression.__str__` (parser.py:656-662) -/
def flagsStr : Option FlagSet → PyStr
  | none => []
  | some f =>
    if f.isEmpty then []
    else py!"/" ++ (if f.ci then py!"i" else []) ++ (if f.cs then py!"I" else []) ++
      (if f.lit then py!"l" else []) ++ (if f.dia then py!"d" else [])

mutual
/-- `__str__`: `QueryNode` (parser.py:502-507), `Expression` (649-666), `ExpressionGroup` (694-698),
`ExpressionNot` (712-716), `QuerySegment` (844-853), `QueryGroup` (882-891), `SimpleWithin` (906-910).
`str(None)` is `None`; a childless `QuerySegment`/`QueryGroup` (for which Python raises) does not occur. -/
def Node.str : Node → PyStr
  | .mk k cs l =>
    (match k with
      | .expression q i o r f =>
        py!"(" ++ k.nodeType.value ++ py!" " ++
          (match q with | some q => if q.isEmpty then [] else q ++ py!":" | none => []) ++
          i ++ py!" " ++ o.value ++ py!" \"" ++ translateWs r ++ py!"\"" ++ flagsStr f ++ py!")"
      | .group | .not =>
        py!"(" ++ k.nodeType.value ++ py!" " ++ ((Node.strs cs).head?.getD py!"None") ++ py!")"
      | .segment mn mx | .qgroup mn mx =>
        py!"(" ++ k.nodeType.value ++ py!" " ++ occursStr py!"@min=" mn ++ occursStr py!"@max=" mx ++
          ((Node.strs cs).head?.getD []) ++ py!")"
      | .within s => py!"(" ++ k.nodeType.value ++ py!" " ++ s.value ++ py!")"
      | _ =>
        let chs := joinStr py!" " (Node.strs cs)
        py!"(" ++ k.nodeType.value ++ (if chs.isEmpty then [] else py!" " ++ chs) ++ py!")") ++
    locSuffix l
/-- `map(str, children)` -/
def Node.strs : List Node → List PyStr
  | [] => []
  | c :: cs => Node.str c :: Node.strs cs
end

end Fcsql
