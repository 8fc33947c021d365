/-
`QueryParser.parse` (parser.py:1700-1756) and `antlr_parse` (__init__.py:34-53) when an exception arrives from outside, at any
moment: Ctrl-C, a signal handler that raises, the recursion limit, no memory left.

Model/Program.lean, with such exceptions.  Before every statement of a rule function, at its end and in its
`except RecognitionException` clause, before and after every method of the tree builder, and in the statements of `parse` itself,
an exception may arrive; if it arrives while tokens are fetched or errors are reported, a first part of that has been done.
What arrives is not one of the exceptions that the code catches by name on the way: `RecognitionException` (generated functions,
e.g. FCSParser.py:245-248; lexer and error strategy of the runtime library), `ValueError` (parser.py:1559, 1653, 1665),
`ExpressionTreeBuilderException`, `QueryParserException` (parser.py:1748-1751).  Nothing else is caught in the generated functions, in
the tree builder, and in the library's code, so what arrives leaves them all.
-/
import Verif.Model.Program

set_option autoImplicit false

namespace Fcsql

/-- What arrives: a subclass of `Exception` (`RecursionError`, `MemoryError`), or not (`KeyboardInterrupt`, `SystemExit`). -/
inductive Strike
  | exception
  | base
  deriving DecidableEq, Repr

/-- When something arrives, in the rule functions: asked with the number of times it was asked before, and the states of the
pending calls of rule functions; and how many calls on the listener the statement has made then. -/
abbrev Strikes := Nat → List Nat → Option (Strike × Nat)

/-- How statements end, and how often `Strikes` was asked; or what has arrived, and what the listener had been called with. -/
inductive FOut
  | ok (forest : List PTree) (s : PState) (t : Nat)
  | raised (f : Failure) (s : PState) (t : Nat)
  | struck (k : Strike) (calls : List ListenerCall)

/-- Children added before those of a result. -/
def FOut.prepend (f : List PTree) : FOut → FOut
  | .ok f' s t => .ok (f ++ f') s t
  | .raised k s t => .raised k s t
  | .struck k cs => .struck k cs

/-- The listener's calls after a statement. -/
def PStep.heard : PStep → List ListenerCall
  | .go _ s => s.calls
  | .stop _ s => s.calls

/-- Something that is done before `next`, with the result `r`, and may be struck on the way. -/
def during {α : Type} (O : Strikes) (t : Nat) (ctx : List Nat) (before : List ListenerCall) (r : Option α) (calls : α → List ListenerCall)
    (next : α → Option FOut) : Option FOut :=
  match r with
  | none => none
  | some a =>
    match O t ctx with
    | some (k, j) => some (.struck k ((calls a).take (before.length + j)))
    | none => next a

/-- The statements after a statement. -/
def PStep.andThenF (step : PStep) (t : Nat) (next : PState → Nat → Option FOut) : Option FOut :=
  match step with
  | .go f s => (next s t).map (.prepend f)
  | .stop f s => some (.raised f s t)

section
variable (L : Atn) (m : Nat) (q : PyStr) (A : Atn) (O : Strikes)

/-- `execP` (Model/Program.lean) with exceptions from outside. -/
def execF (prog : Rule → List Stmt) : Nat → List Nat → List Stmt → PState → Nat → Option FOut
  | 0, _, _, _, _ => none
  | _ + 1, ctx, [], s, t => during O t ctx s.calls (some s) PState.calls fun s => some (.ok [] s (t + 1))
  | n + 1, ctx, c :: ss, s, t =>
    match c with
    | .sync st => during O t ctx s.calls (syncP L m q A ctx (s.at st)) PStep.heard fun e => e.andThenF (t + 1) (execF prog n ctx ss)
    | .matchTok st k =>
      during O t ctx s.calls (matchP L m q A ctx (fun j => j = k) (s.at st)) PStep.heard fun e => e.andThenF (t + 1) (execF prog n ctx ss)
    | .matchSet st b =>
      during O t ctx s.calls (matchP L m q A ctx b.eval (s.at st)) PStep.heard fun e => e.andThenF (t + 1) (execF prog n ctx ss)
    | .call st r =>
      during O t (st :: ctx) s.calls (some (s.at st)) PState.calls fun s0 =>
        match execF prog n (st :: ctx) (prog r) s0 (t + 1) with
        | none => none
        | some (.struck k cs) => some (.struck k cs)
        | some (.ok f s' t') => (execF prog n ctx ss (s'.at st) t').map (.prepend [.node r f])
        | some (.raised f s' t') =>
          during O t' (st :: ctx) s'.calls (caughtP L m q A (st :: ctx) f s') PState.calls fun s' =>
            (execF prog n ctx ss (s'.at st) (t' + 1)).map (.prepend [.node r []])
    | .predict d bs =>
      during O t ctx s.calls (predictP L m q A d ctx s) (fun r => r.2.calls) fun
        | ((none, k), s) => some (.raised (.noViable k) s (t + 1))
        | ((some a, _), s) => execF prog n ctx (branch bs a ++ ss) s (t + 1)
    | .switchLA cs =>
      during O t ctx s.calls (some s) PState.calls fun s =>
        match switchCase (la (s.toks q)) cs with
        | none => some (.raised (.noViable 0) s (t + 1))
        | some b => execF prog n ctx (b ++ ss) s (t + 1)
    | .ifLA b body =>
      during O t ctx s.calls (some s) PState.calls fun s =>
        execF prog n ctx ((if b.eval (la (s.toks q)) then body else []) ++ ss) s (t + 1)
    | .whileLA b st c =>
      during O t ctx s.calls (some s) PState.calls fun s =>
        execF prog n ctx (b ++ (.sync st :: .ifLA c [.whileLA b st c] :: ss)) s (t + 1)
    | .whilePredict b st d =>
      during O t ctx s.calls (some s) PState.calls fun s =>
        execF prog n ctx (b ++ (.sync st :: .loopPredict b st d :: ss)) s (t + 1)
    | .loopPredict b st d =>
      during O t ctx s.calls (predictP L m q A d ctx s) (fun r => r.2.calls) fun
        | ((none, k), s) => some (.raised (.noViable k) s (t + 1))
        | ((some a, _), s) =>
          if a = 2 ∨ a = 0 then execF prog n ctx ss s (t + 1)
          else if a = 1 then execF prog n ctx (.whilePredict b st d :: ss) s (t + 1)
          else some (.raised (.noViable 0) s (t + 1))

/-- A call of the function of rule `r`, as `callP` (Model/Program.lean), with exceptions from outside: the children of its context, or
what has arrived; and what the listener has been called with. -/
def callF (prog : Rule → List Stmt) (n : Nat) (r : Rule) : Option (Except Strike (List PTree) × List ListenerCall) :=
  match (during O 0 [] [] (PState.new.look L m q 0) PState.calls fun s =>
    match execF L m q A O prog n [] (prog r) s 1 with
    | none => none
    | some (.struck k cs) => some (.struck k cs)
    | some (.ok f s t) => some (.ok f s t)
    | some (.raised f s t) =>
      during O t [] s.calls (caughtP L m q A [] f s) PState.calls fun s => some (.ok [] s (t + 1))) with
  | none => none
  | some (.struck k cs) => some (.error k, cs)
  | some (.ok f s _) => some (.ok f, s.calls)
  | some (.raised _ s _) => some (.ok [], s.calls)

end

/-! ### The tree builder -/

/-- How often it was asked whether something arrives, and what has. -/
structure Struck where
  asked : Nat
  what : Option Strike
  deriving DecidableEq, Repr

section
variable {ν σ : Type}

/-- Nodes are created as ever. -/
def faultAlloc (A : Alloc ν σ) : Alloc ν (σ × Struck) :=
  { new := fun k children loc h => ((A.new k children loc h.1).1, ((A.new k children loc h.1).2, h.2)) }

/-- A moment at which something may arrive. -/
def moment (B : Nat → Option Strike) : BM ν (σ × Struck) Unit := fun s =>
  match B s.heap.2.asked with
  | some k => (.error .other, { s with heap := (s.heap.1, { asked := s.heap.2.asked + 1, what := some k }) })
  | none => (.ok (), { s with heap := (s.heap.1, { asked := s.heap.2.asked + 1, what := none }) })

/-- A method of the tree builder (parser.py:1036-1503), struck before it or after it (what it has done to the builder by then makes
no difference, as no one looks at the builder afterwards). -/
def exposed (B : Nat → Option Strike) (m : PTree → List (CAct Unit (BState ν (σ × Struck)) Exc) → CAct Unit (BState ν (σ × Struck)) Exc)
    (ctx : PTree) (accepts : List (CAct Unit (BState ν (σ × Struck)) Exc)) : CAct Unit (BState ν (σ × Struck)) Exc :=
  (do moment B; let r ← (m ctx accepts : BM ν (σ × Struck) (Option Unit)); moment B; return r : BM ν (σ × Struck) (Option Unit))

/-- An `ExpressionTreeBuilder` (parser.py:1028-1503) with exceptions from outside. -/
def faultBuilder (A : Alloc ν σ) (rt : PyRuntime) (cfg : Config) (B : Nat → Option Strike) : CtxVisitor Unit (BState ν (σ × Struck)) Exc :=
  { method := fun name => (treeBuilderMethod (faultAlloc A) rt cfg name).map (exposed B) }

end

/-! ### `QueryParser.parse` -/

/-- How the `try` block of `parse` ends: with a node, one of the exceptions of the code, or what has arrived. -/
inductive TryOut
  | node (n : Node)
  | builderException (msg : PyStr)
  | parserException (e : ParserException)
  | other
  | strike (k : Strike)

/-- How a call of `parse` ends: it returns a node, or raises `QueryParserException`, or what has arrived leaves it. -/
inductive ParseEnd
  | node (n : Node)
  | parserException (e : ParserException)
  | strike (k : Strike)

/-- When something arrives during a call of `parse`: before the `try` statement (parser.py:1714); in the rule functions
(parser.py:1729); after that (parser.py:1731, 1740-1747); in the tree builder (parser.py:1736-1739); in an `except` clause
(parser.py:1748-1753); in the `finally` clause, before its statement has been executed (parser.py:1754-1756). -/
structure Faults where
  entry : Option Strike
  rules : Strikes
  after : Option Strike
  builder : Nat → Option Strike
  handler : Option Strike
  leave : Option Strike

/-- Nothing arrives. -/
def Faults.none : Faults :=
  { entry := .none, rules := fun _ _ => .none, after := .none, builder := fun _ => .none, handler := .none, leave := .none }

/-- `builder = ExpressionTreeBuilder(self); builder.visit(tree); node = builder.stack.pop(); return node` (parser.py:1736-1739). -/
def runBuilderF (rt : PyRuntime) (cfg : Config) (B : Nat → Option Strike) (t : PTree) : TryOut :=
  match acceptCtx ctxClass (faultBuilder pureAlloc rt cfg B) t { heap := ((), { asked := 0, what := .none }), stack := [] } with
  | (.error e, s) =>
    match s.heap.2.what with
    | some k => .strike k
    | .none =>
      match e with
      | .builder msg => .builderException msg
      | .other => .other
  | (.ok _, s) =>
    match B s.heap.2.asked with
    | some k => .strike k
    | .none =>
      match s.stack with
      | .node n :: _ => .node n
      | _ => .other

/-- The `try` block (parser.py:1715-1747), and the errors of the listener. -/
def tryF (L A : Atn) (m n : Nat) (rt : PyRuntime) (cfg : Config) (F : Faults) (q : PyStr) : Option (TryOut × List ErrorDetail) :=
  match callF L m q A F.rules code n .query with
  | .none => .none
  | some (.error k, calls) => some (.strike k, calls.map (ListenerCall.record q))
  | some (.ok f, calls) =>
    let errors := calls.map (ListenerCall.record q)
    match F.after with
    | some k => some (.strike k, errors)
    | .none =>
      if errors.isEmpty && (calls.filter ListenerCall.ofParser).length = 0 then
        some (runBuilderF rt cfg F.builder (.node .query f), errors)
      else
        let first := match errors with
          | e :: _ => e.message
          | [] => py!"?"
        some (.parserException ⟨py!"unable to parse query: " ++ first⟩, errors)

/-- The `except` clauses (parser.py:1748-1753): none is for `BaseException`; what arrives in a clause leaves it. -/
def handlersF (h : Option Strike) : TryOut → ParseEnd
  | .node n => .node n
  | .strike .base => .strike .base
  | .builderException msg =>
    match h with
    | some k => .strike k
    | none => .parserException ⟨msg⟩
  | .parserException e =>
    match h with
    | some k => .strike k
    | none => .parserException e
  | .other | .strike .exception =>
    match h with
    | some k => .strike k
    | none => .parserException ⟨py!"an unexpected exception occured while parsing"⟩

/-- `QueryParser.parse` (parser.py:1700-1756) of an object whose `errors` are `old`: how it ends, and `errors` afterwards. -/
def parseF (L A : Atn) (m n : Nat) (rt : PyRuntime) (cfg : Config) (F : Faults) (old : List ErrorDetail) (q : PyStr) :
    Option (ParseEnd × List ErrorDetail) :=
  match F.entry with
  | some k => some (.strike k, old)
  | .none =>
    match tryF L A m n rt cfg F q with
    | .none => .none
    | some (r, errors) =>
      match F.leave with
      | some k => some (.strike k, old)
      | .none => some (handlersF F.handler r, errors)

/-- Calls of `parse` on one object, one after the other: how they end, and `errors` afterwards. -/
def parsesF (L A : Atn) (m n : Nat) (rt : PyRuntime) (cfg : Config) :
    List (PyStr × Faults) → List ErrorDetail → Option (List ParseEnd × List ErrorDetail)
  | [], old => some ([], old)
  | (q, F) :: cs, old =>
    match parseF L A m n rt cfg F old q with
    | none => none
    | some (e, es) =>
      match parsesF L A m n rt cfg cs es with
      | none => none
      | some (r, es) => some (e :: r, es)

/-! ### `antlr_parse` -/

/-- How a call of `antlr_parse` ends. -/
inductive AntlrEnd
  | tree (t : PTree)
  | syntaxError (msg : PyStr)
  | strike (k : Strike)

/-- `antlr_parse` (__init__.py:34-53): what is printed to `sys.stderr`, and how it ends.  The parser's listener raises
`SyntaxError` when it is called, so nothing that would arrive later does. -/
def antlrF (L A : Atn) (m n : Nat) (O : Strikes) (q : PyStr) : Option (List PyStr × AntlrEnd) :=
  match callF L m q A O code n .query with
  | none => none
  | some (r, calls) =>
    match antlrListeners calls with
    | (out, some e) => some (out, .syntaxError e)
    | (out, none) =>
      match r with
      | .ok f => some (out, .tree (.node .query f))
      | .error k => some (out, .strike k)

/-! ### The recursion limit -/

/-- `RecursionError` whenever more than `room` calls of rule functions are pending. -/
def recursionLimit (room : Nat) : Strikes := fun _ ctx => if room < ctx.length then some (.exception, 0) else none

end Fcsql
