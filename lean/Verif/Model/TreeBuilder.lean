/-
`ExpressionTreeBuilder` as the object it is (parser.py:1028-1668): a subclass of the generated `FCSParserVisitor` whose
`visit*` methods are found by name, ask contexts through their generated accessors (also by name), and change
`self.stack`; changes made before an exception persist.  `Model/Builder.lean` describes the same computation as a function
on parse trees; `Props/TreeBuilder.lean` proves that they agree.

Log messages are in Model/Debug.lean.
-/
import Verif.Model.QueryParser
import Verif.Model.ContextData

set_option autoImplicit false

namespace Fcsql

section
variable {ν σ : Type}

/-- Statements on the builder object: they may raise, and change `self.stack` (and create node objects). -/
abbrev BM (ν σ α : Type) := ExceptT Exc (StateM (BState ν σ)) α

/-- `ctx.name()` for an accessor without parameter (FCSParser.py:182-1998): `AttributeError` if the context has no such
accessor.  Accessors with parameter return a list for this call; the builder calls none of them. -/
def ctxGet (ctx : PTree) (name : PyStr) : Except Exc (Option PTree) :=
  match ctx with
  | .leaf _ => .error .other
  | .node r ks =>
    match (ctxClass r).accessors.find? (fun a => a.name = name) with
    | some a => if a.many then .error .other else .ok (a.get 0 ks)
    | none => .error .other

/-- `ctx.children` -/
def ctxChildren : PTree → List PTree
  | .leaf _ => []
  | .node _ ks => ks

/-- A computation without effect on the builder object, in particular the static methods (parser.py:1507-1668). -/
def liftB {α : Type} (e : Except Exc α) : BM ν σ α := fun s => (e, s)

/-- `len(self.stack)` -/
def lenB : BM ν σ Nat := fun s => (.ok s.stack.length, s)

/-- `self.stack.append(x)` -/
def pushB (x : Item ν) : BM ν σ Unit := fun s => (.ok (), { s with stack := x :: s.stack })

/-- `self.stack.pop()`; `IndexError` on an empty deque. -/
def popB : BM ν σ (Item ν) := fun s =>
  match s.stack with
  | [] => (.error .other, s)
  | x :: xs => (.ok x, { s with stack := xs })

/-- The item as a child of a new node: `child.parent = self` (parser.py:422-423) raises `AttributeError` for strings,
operators and sets (the silent dropping of falsy ones is not modelled, as in `popNode`). -/
def itemNode : Item ν → BM ν σ ν
  | .node n => liftB (.ok n)
  | _ => liftB (.error .other)

/-- `node = K(children); if self.parser.enableSourceLocations: node.location = SourceLocation.fromContext(ctx);
self.stack.append(node)`, e.g. parser.py:1051-1054. -/
def appendNode (A : Alloc ν σ) (cfg : Config) (k : Kind) (children : List ν) (ctx : PTree) : BM ν σ Unit := fun s =>
  let r := A.new k children (locOf cfg (ctxChildren ctx)) s.heap
  (.ok (), { heap := r.2, stack := .node r.1 :: s.stack })

/-- `super().visitX(ctx)`: `return self.visitChildren(ctx)` (FCSParserVisitor.py:10-124). -/
def superVisit (ctx : PTree) (accepts : List (CAct Unit (BState ν σ) Exc)) : BM ν σ (Option Unit) :=
  CtxVisitor.visitChildren { method := fun _ => none } ctx accepts

/-- `while len(self.stack) > pos: items.insert(0, self.stack.pop())`, then all of them used as children
(parser.py:1087-1092 and the same in three more methods). -/
def popItems (pos : Nat) : Nat → List (Item ν) → BM ν σ (List (Item ν))
  | 0, items => liftB (.ok items)
  | fuel + 1, items => do
    if (← lenB) > pos then
      let x ← popB
      popItems pos fuel (x :: items)
    else liftB (.ok items)

/-- All items as children. -/
def itemNodes : List (Item ν) → BM ν σ (List ν)
  | [] => liftB (.ok [])
  | x :: xs => do
    let n ← itemNode x
    let ns ← itemNodes xs
    liftB (.ok (n :: ns))

/-- `visitQuery_disjunction`, `visitQuery_sequence`, `visitExpression_or`, `visitExpression_and` (parser.py:1073-1127,
1323-1377). -/
def collectM (A : Alloc ν σ) (cfg : Config) (k : Kind) (emptyMsg : PyStr) (ctx : PTree)
    (accepts : List (CAct Unit (BState ν σ) Exc)) : BM ν σ (Option Unit) := do
  let pos ← lenB
  let _ ← superVisit ctx accepts
  let len ← lenB
  if len > pos then
    let items ← popItems pos len []
    let children ← itemNodes items
    appendNode A cfg k children ctx
    return none
  else liftB (.error (.builder emptyMsg))

/-- `visitQuery` (parser.py:1036-1057). -/
def visitQueryM (A : Alloc ν σ) (cfg : Config) (ctx : PTree) (accepts : List (CAct Unit (BState ν σ) Exc)) :
    BM ν σ (Option Unit) := do
  let _ ← superVisit ctx accepts
  let w ← liftB (ctxGet ctx py!"within_part")
  if w.isSome then
    let within ← popB
    let query ← popB
    let children ← itemNodes [query, within]
    appendNode A cfg .withWithin children ctx
  return none

/-- `min = max = 1; q_ctx = ctx.quantifier(); ...processRepetition(q_ctx)` (parser.py:1141-1147, 1507-1521); the accessors
of `q_ctx` by name. -/
def repetitionM (rt : PyRuntime) (ctx : PTree) : Except Exc (Int × Int) := do
  match ← ctxGet ctx py!"quantifier" with
  | none => return (1, 1)
  | some q =>
    if (← ctxGet q py!"Q_ZERO_OR_MORE").isSome then return (0, OCCURS_UNBOUNDED)
    if (← ctxGet q py!"Q_ONE_OR_MORE").isSome then return (1, OCCURS_UNBOUNDED)
    if (← ctxGet q py!"Q_ZERO_OR_ONE").isSome then return (0, 1)
    if (← ctxGet q py!"L_CURLY_BRACKET").isSome then processRepetitionRange rt (ctxChildren q)
    else .error (.builder py!"unexpected symbol in repetition quantifier: ?")

/-- `visitQuery_group` and `visitQuery_simple` (parser.py:1129-1183); `k` is `QueryGroup` or `QuerySegment`. -/
def visitRepeatedM (A : Alloc ν σ) (rt : PyRuntime) (cfg : Config) (k : Int → Int → Kind) (ctx : PTree)
    (accepts : List (CAct Unit (BState ν σ) Exc)) : BM ν σ (Option Unit) := do
  let _ ← superVisit ctx accepts
  let (mn, mx) ← liftB (repetitionM rt ctx)
  let content ← popB
  let children ← itemNodes [content]
  appendNode A cfg (k mn mx) children ctx
  return none

/-- The end of `visitQuery_implicit` and `visitExpression_basic` (parser.py:1200-1218, 1263-1281).  The pops take whatever
is there; an item of another type than the one expected would only fail later (not modelled: treated as an exception,
unreachable). -/
def popExpressionM (A : Alloc ν σ) (cfg : Config) (ctx : PTree) : BM ν σ (Option Unit) := do
  let regexFlags ← popB
  let regexValue ← popB
  let qualifier ← popB
  let identifier ← popB
  let operator ← popB
  match regexFlags, regexValue, qualifier, identifier, operator with
  | .flags f, .str r, .str q, .str i, .op o =>
    appendNode A cfg (mkExpressionKind (some q) i o r (some f)) [] ctx
    return none
  | _, _, _, _, _ => liftB (.error .other)

/-- `visitQuery_implicit` (parser.py:1185-1218). -/
def visitQueryImplicitM (A : Alloc ν σ) (cfg : Config) (ctx : PTree) (accepts : List (CAct Unit (BState ν σ) Exc)) :
    BM ν σ (Option Unit) := do
  pushB (.op cfg.defaultOperator)
  pushB (.str cfg.defaultIdentifier)
  pushB (.str [])
  let _ ← superVisit ctx accepts
  popExpressionM A cfg ctx

/-- `visitQuery_segment` (parser.py:1220-1241). -/
def visitQuerySegmentM (A : Alloc ν σ) (cfg : Config) (ctx : PTree) (accepts : List (CAct Unit (BState ν σ) Exc)) :
    BM ν σ (Option Unit) := do
  if (ctxChildren ctx).length = 2 then
    appendNode A cfg .wildcard [] ctx
    return none
  else
    let _ ← superVisit ctx accepts
    return none

/-- `visitExpression_basic` (parser.py:1243-1281). -/
def visitExpressionBasicM (A : Alloc ν σ) (cfg : Config) (ctx : PTree) (accepts : List (CAct Unit (BState ν σ) Exc)) :
    BM ν σ (Option Unit) := do
  if (← liftB (ctxGet ctx py!"OPERATOR_EQ")).isSome then pushB (.op .EQUALS)
  else if (← liftB (ctxGet ctx py!"OPERATOR_NE")).isSome then pushB (.op .NOT_EQUALS)
  else liftB (.error .other)
  let _ ← superVisit ctx accepts
  popExpressionM A cfg ctx

/-- `visitExpression_not` / `visitExpression_group` (parser.py:1283-1321). -/
def visitUnaryM (A : Alloc ν σ) (cfg : Config) (k : Kind) (ctx : PTree) (accepts : List (CAct Unit (BState ν σ) Exc)) :
    BM ν σ (Option Unit) := do
  let _ ← superVisit ctx accepts
  let e ← popB
  let children ← itemNodes [e]
  appendNode A cfg k children ctx
  return none

/-- `visitAttribute` (parser.py:1379-1398). -/
def visitAttributeM (ctx : PTree) : BM ν σ (Option Unit) := do
  let q ← liftB (ctxGet ctx py!"qualifier")
  match ← liftB (ctxGet ctx py!"identifier") with
  | none => liftB (.error .other)
  | some i =>
    pushB (.str i.getText)
    pushB (.str (match q with | some q => q.getText | none => []))
    return none

/-- `visitRegexp` (parser.py:1400-1467). -/
def visitRegexpM (rt : PyRuntime) (cfg : Config) (ctx : PTree) : BM ν σ (Option Unit) := do
  match ← liftB (ctxGet ctx py!"regexp_pattern") with
  | none => liftB (.error .other)
  | some p =>
    let regex ← liftB (regexValue rt cfg p.getText)
    pushB (.str regex)
    match ← liftB (ctxGet ctx py!"regexp_flag") with
    | some f =>
      let flags ← liftB (regexFlags f.getText)
      pushB (.flags flags)
      return none
    | none =>
      pushB (.flags FlagSet.empty)
      return none

/-- `visitWithin_part_simple` (parser.py:1469-1502). -/
def visitWithinPartSimpleM (A : Alloc ν σ) (cfg : Config) (ctx : PTree) : BM ν σ (Option Unit) := do
  match (ctxChildren ctx).head? with
  | none => liftB (.error .other)
  | some c =>
    let scope ← liftB (scopeOf c.getText)
    appendNode A cfg (.within scope) [] ctx
    return none

/-- The `visit*` methods of `ExpressionTreeBuilder` by name: its own (parser.py:1036-1502), then those inherited from
`FCSParserVisitor` (FCSParserVisitor.py:10-124). -/
def treeBuilderMethod (A : Alloc ν σ) (rt : PyRuntime) (cfg : Config) (name : PyStr) :
    Option (PTree → List (CAct Unit (BState ν σ) Exc) → CAct Unit (BState ν σ) Exc) :=
  if name = py!"visitQuery" then some (visitQueryM A cfg)
  else if name = py!"visitMain_query" then some fun ctx acc => (do let _ ← superVisit ctx acc; return none : BM ν σ (Option Unit))
  else if name = py!"visitQuery_disjunction" then some (collectM A cfg .disjunction py!"visitQuery_disjunction is empty")
  else if name = py!"visitQuery_sequence" then some (collectM A cfg .sequence py!"visitQuery_sequence is empty")
  else if name = py!"visitQuery_group" then some (visitRepeatedM A rt cfg .qgroup)
  else if name = py!"visitQuery_simple" then some (visitRepeatedM A rt cfg .segment)
  else if name = py!"visitQuery_implicit" then some (visitQueryImplicitM A cfg)
  else if name = py!"visitQuery_segment" then some (visitQuerySegmentM A cfg)
  else if name = py!"visitExpression_basic" then some (visitExpressionBasicM A cfg)
  else if name = py!"visitExpression_not" then some (visitUnaryM A cfg .not)
  else if name = py!"visitExpression_group" then some (visitUnaryM A cfg .group)
  else if name = py!"visitExpression_or" then some (collectM A cfg .or py!"visitExpression_or is empty")
  else if name = py!"visitExpression_and" then some (collectM A cfg .and py!"visitExpression_and is empty")
  else if name = py!"visitAttribute" then some fun ctx _ => visitAttributeM ctx
  else if name = py!"visitRegexp" then some fun ctx _ => visitRegexpM rt cfg ctx
  else if name = py!"visitWithin_part_simple" then some fun ctx _ => visitWithinPartSimpleM A cfg ctx
  else if name ∈ visitorMethods then some superVisit
  else none

/-- An `ExpressionTreeBuilder` (parser.py:1028-1034); hooks of `ParseTreeVisitor` not overridden. -/
def treeBuilder (A : Alloc ν σ) (rt : PyRuntime) (cfg : Config) : CtxVisitor Unit (BState ν σ) Exc :=
  { method := treeBuilderMethod A rt cfg }

end

/-- `builder = ExpressionTreeBuilder(self); builder.visit(tree); return builder.stack.pop()` (parser.py:1736-1738) with
its exception handlers (parser.py:1748-1753), on trees of pure nodes. -/
def runBuilder (rt : PyRuntime) (cfg : Config) (t : PTree) : Except ParserException Node :=
  match acceptCtx ctxClass (treeBuilder pureAlloc rt cfg) t { heap := (), stack := [] } with
  | (.error e, _) => .error (wrapExc e)
  | (.ok _, s) =>
    match s.stack with
    | .node n :: _ => .ok n
    | _ => .error (wrapExc .other)

end Fcsql
