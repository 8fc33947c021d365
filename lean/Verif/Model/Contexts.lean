/-
The parse trees `fcsql.antlr_parse` returns, as users see them: the accessor methods of the context classes
(`src/fcsql/FCSParser.py`), walking a tree with a listener (`FCSParserListener.py`) and with a visitor
(`FCSParserVisitor.py`).  The tables are in `Model/ContextData.lean`.
-/
import Verif.Model.Grammar

set_option autoImplicit false

namespace Fcsql

/-- What an accessor of a context class selects: children that are tokens of a type, or contexts of a rule. -/
inductive Sym
  | tok (t : TokType)
  | rule (r : Rule)
  deriving DecidableEq, Repr

/-- `isinstance(child, TerminalNode) and child.symbol.type == t`, or `isinstance(child, XContext)` (runtime library,
`ParserRuleContext.getTokens`, `getTypedRuleContexts`). -/
def Sym.selects : Sym → PTree → Bool
  | .tok t, .leaf x => x.type = t
  | .rule r, .node r' _ => r' = r
  | _, _ => false

/-- An accessor method of a context class: `many = false` for `def X(self): return self.getToken(FCSParser.X, 0)` (or
`getTypedRuleContext(FCSParser.XContext, 0)`, e.g. FCSParser.py:189-197), `many = true` for `def X(self, i:int=None)`
(e.g. FCSParser.py:345-349). -/
structure Accessor where
  name : PyStr
  sym : Sym
  many : Bool
  deriving Repr

/-- A context class: name, `getRuleIndex()`, accessors, and the methods called by `enterRule`, `exitRule` and `accept`
(e.g. FCSParser.py:203-217). -/
structure CtxClass where
  name : PyStr
  ruleIndex : Nat
  accessors : List Accessor
  enter : PyStr
  exit : PyStr
  accept : PyStr

/-- The loop of `getToken(t, i)` and `getChild(i, XContext)` over the children (runtime library): count down `i` at each
child selected, return the one where it is 0, `None` at the end. -/
def nthSelected (s : Sym) : Int → List PTree → Option PTree
  | _, [] => none
  | i, c :: cs =>
    if s.selects c then (if i = 0 then some c else nthSelected s (i - 1) cs) else nthSelected s i cs

/-- `ctx.X(i)` (for accessors without parameter: `ctx.X()`, with `i = 0`). -/
def Accessor.get (a : Accessor) (i : Int) (children : List PTree) : Option PTree := nthSelected a.sym i children

/-- `ctx.X()` of an accessor with parameter: the list of all children selected (runtime library `getTokens`,
`getTypedRuleContexts`). -/
def Accessor.getAll (a : Accessor) (children : List PTree) : List PTree := children.filter a.sym.selects

/-! ### Listeners -/

/-- A call of a listener method: exception or not, and the new state of the listener object. -/
abbrev LAct (σ ε : Type) := σ → Except ε Unit × σ

/-- A listener object with state `σ`: its methods by name (`none`: no such attribute), each called with a context, and
those inherited from the runtime's `ParseTreeListener`. -/
structure Listener (σ ε : Type) where
  method : PyStr → Option (PTree → LAct σ ε)
  enterEveryRule : PTree → LAct σ ε := fun _ s => (.ok (), s)
  exitEveryRule : PTree → LAct σ ε := fun _ s => (.ok (), s)
  visitTerminal : Tok → LAct σ ε := fun _ s => (.ok (), s)

/-- One call after the other; an exception ends it. -/
def LAct.andThen {σ ε : Type} (a b : LAct σ ε) : LAct σ ε := fun s =>
  match a s with
  | (.ok _, s) => b s
  | (.error e, s) => (.error e, s)

/-- `if hasattr(listener, name): listener.name(self)` (FCSParser.py:206-212 and the same for every rule). -/
def Listener.hook {σ ε : Type} (l : Listener σ ε) (name : PyStr) (ctx : PTree) : LAct σ ε :=
  match l.method name with
  | some m => m ctx
  | none => fun s => (.ok (), s)

mutual
/-- `ParseTreeWalker.walk(listener, tree)` (runtime library); trees of `antlr_parse` have no error nodes.  `cls` gives
the context classes. -/
def walkTree {σ ε : Type} (cls : Rule → CtxClass) (l : Listener σ ε) : PTree → LAct σ ε
  | .leaf x => l.visitTerminal x
  | .node r ks =>
    (l.enterEveryRule (.node r ks)).andThen <| (l.hook (cls r).enter (.node r ks)).andThen <|
      (walkTrees cls l ks).andThen <| (l.hook (cls r).exit (.node r ks)).andThen (l.exitEveryRule (.node r ks))
/-- The loop over the children. -/
def walkTrees {σ ε : Type} (cls : Rule → CtxClass) (l : Listener σ ε) : List PTree → LAct σ ε
  | [] => fun s => (.ok (), s)
  | c :: cs => (walkTree cls l c).andThen (walkTrees cls l cs)
end

/-! ### Visitors -/

/-- A call of a visitor method: result or exception, and the new state of the visitor object. -/
abbrev CAct (R σ ε : Type) := σ → Except ε (Option R) × σ

/-- A subclass of the runtime's `ParseTreeVisitor`: the `visitX` methods by name, each given the context and for every
child the action `child.accept(self)`; and the hooks of `ParseTreeVisitor`. -/
structure CtxVisitor (R σ ε : Type) where
  method : PyStr → Option (PTree → List (CAct R σ ε) → CAct R σ ε)
  visitTerminal : Tok → CAct R σ ε := fun _ s => (.ok none, s)
  defaultResult : Option R := none
  aggregate : Option R → Option R → Option R := fun _ next => next
  shouldVisit : PTree → Option R → Bool := fun _ _ => true

/-- The loop of `ParseTreeVisitor.visitChildren` (runtime library). -/
def CtxVisitor.loop {R σ ε : Type} (v : CtxVisitor R σ ε) (ctx : PTree) : Option R → List (CAct R σ ε) → CAct R σ ε
  | r, [], s => (.ok r, s)
  | r, a :: as, s =>
    if v.shouldVisit ctx r then
      match a s with
      | (.ok x, s) => v.loop ctx (v.aggregate r x) as s
      | (.error e, s) => (.error e, s)
    else (.ok r, s)

/-- `ParseTreeVisitor.visitChildren` (runtime library). -/
def CtxVisitor.visitChildren {R σ ε : Type} (v : CtxVisitor R σ ε) (ctx : PTree) (as : List (CAct R σ ε)) : CAct R σ ε :=
  v.loop ctx v.defaultResult as

mutual
/-- `tree.accept(visitor)` (FCSParser.py:214-218 and the same for every rule): the method if the visitor has it, else
`visitChildren`; also `visitor.visit(tree)`. -/
def acceptCtx {R σ ε : Type} (cls : Rule → CtxClass) (v : CtxVisitor R σ ε) : PTree → CAct R σ ε
  | .leaf x => v.visitTerminal x
  | .node r ks =>
    match v.method (cls r).accept with
    | some m => m (.node r ks) (acceptCtxs cls v ks)
    | none => v.visitChildren (.node r ks) (acceptCtxs cls v ks)
/-- The actions `child.accept(visitor)`. -/
def acceptCtxs {R σ ε : Type} (cls : Rule → CtxClass) (v : CtxVisitor R σ ε) : List PTree → List (CAct R σ ε)
  | [] => []
  | c :: cs => acceptCtx cls v c :: acceptCtxs cls v cs
end

end Fcsql
