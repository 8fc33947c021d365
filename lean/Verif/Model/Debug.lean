/-
`QueryParser.parse` and `QueryVisitor.visit` with the logger at level DEBUG (parser.py:169-170, 971-981, 995-1013, the first
and last statements of the methods of `ExpressionTreeBuilder` in 1036-1503, 1732-1733, 1741-1743).

A log record is kept as its arguments, not as text; of `"visitX/enter: children=%s / cnt=%s / text=%s"` without the list of
children (contexts are shown with their addresses) and of `"symbol: ..."` without the index of the token.  What the handlers
of the logger do with the records is not modelled (an exception in a handler does not reach the caller of the logger).
-/
import Verif.Model.Program
import Verif.Model.Marked
import Verif.Model.Visitor

set_option autoImplicit false

namespace Fcsql

/-- A record of the log of `QueryParser.parse`. -/
inductive LogRec (ν : Type)
  /-- `"query: %s"` (parser.py:973) -/
  | query (line : PyStr)
  /-- `"       %s^- %s"` (parser.py:974) -/
  | caret (line : PyStr)
  /-- `"symbol: literal=... symbol=... @token-idx=..."` (parser.py:978-980) -/
  | symbol (literal symbolic : Option PyStr)
  /-- `"recognizer=..."` (parser.py:981) -/
  | recognizer
  /-- `"ANTLR parse tree: %s"` (parser.py:1733) -/
  | tree (text : PyStr)
  /-- `"visitX/enter: children=%s / cnt=%s / text=%s"`, e.g. parser.py:1038-1043 -/
  | enter (method : PyStr) (count : Nat) (text : PyStr)
  /-- `"visitX/exit: stack=%s"`, e.g. parser.py:1056 (the stack as it is then, top first) -/
  | exit (method : PyStr) (stack : List (Item ν))
  /-- `"ERROR: %s"` (parser.py:1743) -/
  | error (e : ErrorDetail)

/-! ### The listener -/

/-- `names[k]` for `k < len(names)`, `None` otherwise (parser.py:1008-1011); Python counts negative indices from the end.
`IndexError` (`k` below `-len(names)`) cannot happen for token types and is `None` here. -/
def nameAt (names : List PyStr) (k : Int) : Option PyStr :=
  if k < names.length then (if 0 ≤ k then names[k.toNat]? else names[(names.length + k).toNat]?) else none

/-- `ErrorListener._get_token_name(recognizer, symbol)` (parser.py:995-1013) for a token, the recognizer being the parser. -/
def tokenNames (t : RawTok) : Option PyStr × Option PyStr := (nameAt literalNames t.type, nameAt symbolicNames t.type)

/-- What `ErrorListener.syntaxError` logs (parser.py:966-981).  `pos` is the start of the token; `-1` does not occur. -/
def ListenerCall.logged {ν : Type} (q : PyStr) : ListenerCall → List (LogRec ν)
  | .lexer _ => []
  | .parser t msg =>
    [.query (py!"query: " ++ q), .caret (py!"       " ++ List.replicate t.start 32 ++ py!"^- " ++ msg),
     .symbol (tokenNames t).1 (tokenNames t).2, .recognizer]

/-! ### The tree builder -/

section
variable {ν σ : Type}

/-- Creating nodes does not write to the log. -/
def logAlloc (A : Alloc ν σ) : Alloc ν (σ × List (LogRec ν)) :=
  { new := fun k children loc h => ((A.new k children loc h.1).1, ((A.new k children loc h.1).2, h.2)) }

/-- `LOGGER.debug(...)`. -/
def writeLog (r : LogRec ν) (s : BState ν (σ × List (LogRec ν))) : BState ν (σ × List (LogRec ν)) :=
  { s with heap := (s.heap.1, s.heap.2 ++ [r]) }

/-- A method of the tree builder with its first and its last statement, e.g. parser.py:1037-1043, 1056 (there is no exit
record if the method raises). -/
def debugged (name : PyStr) (m : PTree → List (CAct Unit (BState ν (σ × List (LogRec ν))) Exc) → CAct Unit (BState ν (σ × List (LogRec ν))) Exc)
    (ctx : PTree) (accepts : List (CAct Unit (BState ν (σ × List (LogRec ν))) Exc)) : CAct Unit (BState ν (σ × List (LogRec ν))) Exc :=
  fun s =>
    match m ctx accepts (writeLog (.enter name (ctxChildren ctx).length ctx.getText) s) with
    | (.ok r, s) => (.ok r, writeLog (.exit name s.stack) s)
    | (.error e, s) => (.error e, s)

/-- An `ExpressionTreeBuilder` (parser.py:1028-1503) when DEBUG is enabled: its own methods write to the log, the inherited
ones do not. -/
def debugBuilder (A : Alloc ν σ) (rt : PyRuntime) (cfg : Config) : CtxVisitor Unit (BState ν (σ × List (LogRec ν))) Exc :=
  { method := fun name =>
      (treeBuilderMethod (logAlloc A) rt cfg name).map fun m => if name ∈ builderMethods then debugged name m else m }

end

/-- `builder = ExpressionTreeBuilder(self); builder.visit(tree); return builder.stack.pop()` (parser.py:1736-1738) with its
exception handlers (parser.py:1748-1753), and what is logged meanwhile. -/
def runBuilderD (rt : PyRuntime) (cfg : Config) (t : PTree) : Except ParserException Node × List (LogRec Node) :=
  match acceptCtx ctxClass (debugBuilder pureAlloc rt cfg) t { heap := ((), []), stack := [] } with
  | (.error e, s) => (.error (wrapExc e), s.heap.2)
  | (.ok _, s) =>
    match s.stack with
    | .node n :: _ => (.ok n, s.heap.2)
    | _ => (.error (wrapExc .other), s.heap.2)

/-! ### `QueryParser.parse` -/

mutual
/-- `tree.toStringTree(FCSParser.ruleNames)` (parser.py:1733; runtime library `Trees.toStringTree`). -/
def PTree.toStringTree : PTree → PyStr
  | .leaf x => CTree.escapeWs x.text
  | .node r ks =>
    if ks.isEmpty then CTree.escapeWs (parserRuleNames.getD (ctxClass r).ruleIndex [])
    else py!"(" ++ CTree.escapeWs (parserRuleNames.getD (ctxClass r).ruleIndex []) ++ py!" " ++ PTree.toStringTrees ks ++ py!")"
/-- The loop over the children: a space before all but the first. -/
def PTree.toStringTrees : List PTree → PyStr
  | [] => []
  | [c] => c.toStringTree
  | c :: cs => c.toStringTree ++ py!" " ++ PTree.toStringTrees cs
end

/-- `QueryParser.parse` after `parser.query()` (parser.py:1731-1756): the outcome, the new value of `self.errors`, and what
has been logged, by the listener too. -/
def parseOutcomeD (rt : PyRuntime) (cfg : Config) (q : PyStr) (f : List PTree) (calls : List ListenerCall) :
    (Except ParserException Node × List ErrorDetail) × List (LogRec Node) :=
  let errors := calls.map (ListenerCall.record q)
  let log := calls.flatMap (ListenerCall.logged q)
  if errors.isEmpty && (calls.filter ListenerCall.ofParser).length = 0 then
    let r := runBuilderD rt cfg (.node .query f)
    ((r.1, errors), log ++ .tree (PTree.node .query f).toStringTree :: r.2)
  else
    let first := match errors with
      | e :: _ => e.message
      | [] => py!"?"
    ((.error ⟨py!"unable to parse query: " ++ first⟩, errors), log ++ errors.map .error)

/-- `QueryParser.parse` (parser.py:1700-1756) when DEBUG is enabled. -/
def parseProgramD (L A : Atn) (m n : Nat) (rt : PyRuntime) (cfg : Config) (q : PyStr) :
    Option ((Except ParserException Node × List ErrorDetail) × List (LogRec Node)) :=
  match callP L m q A code n .query with
  | none => none
  | some (f, calls) => some (parseOutcomeD rt cfg q f calls)

/-! ### `QueryVisitor.visit` -/

/-- A visitor at work while DEBUG is enabled: `pyName` is `method.__name__` of the attribute with a name (`none`: it has no
such attribute, as e.g. an instance of `functools.partial`; methods have it); `noName` is the `AttributeError`; `write` is
what a record `"visiting '%s()': %s"` does to the world the visitor lives in. -/
structure Debugged (R σ ε : Type) extends Visitor R σ ε where
  pyName : PyStr → Option PyStr
  noName : ε
  write : PyStr → Node → σ → σ

/-- The statements of `QueryVisitor.visit` from the third on (parser.py:166-173): the record needs `method.__name__`, which
for `self.visitChildren` is `"visitChildren"`. -/
def dispatchD {R σ ε : Type} (v : Debugged R σ ε) (node : Node) (accepts : List (Act R σ ε)) : Act R σ ε := fun s =>
  match v.method (methodName node) with
  | some m =>
    match v.pyName (methodName node) with
    | none => (.error v.noName, s)
    | some name => m node accepts (v.write name node s)
  | none => visitChildrenLoop v.toVisitorBase node accepts (v.write py!"visitChildren" node s)

mutual
/-- `QueryVisitor.visit(node)` (parser.py:150-173), also `node.accept(visitor)` (parser.py:509-510). -/
def visitNodeD {R σ ε : Type} (v : Debugged R σ ε) : Node → Act R σ ε
  | .mk k cs l => dispatchD v (.mk k cs l) (acceptAllD v cs)
/-- The actions `child.accept(visitor)` of a list of children. -/
def acceptAllD {R σ ε : Type} (v : Debugged R σ ε) : List Node → List (Act R σ ε)
  | [] => []
  | c :: cs => visitNodeD v c :: acceptAllD v cs
end

end Fcsql
