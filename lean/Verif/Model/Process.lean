/-
A process with several threads that call `QueryParser.parse` (parser.py:1700-1756) and `antlr_parse` (__init__.py:34-53), in
any order and as often as they like, and read the attribute `errors` of parser objects they share.

What threads share: `FCSLexer.decisionsToDFA` (FCSLexer.py:109, passed to every `LexerATNSimulator` at FCSLexer.py:167),
`FCSParser.decisionsToDFA` (FCSParser.py:99, passed to every `ParserATNSimulator` at FCSParser.py:219-220), and the parser
objects.  Everything else in Model/Program.lean is local to a call.  A thread is a tree of actions (`Thread`): between two actions
on shared state any other thread may be at work.

The functions are those of Model/Program.lean and Model/LexerSim.lean, with the look-ups and stores of the library's
simulators (`LexerATNSimulator`, `ParserATNSimulator`; written after their published code, not part of /repo) added.

`DFAState` objects are known by their sets of configurations (`DFAState.__eq__`).  When two threads make the same state at the
same time, or the same `edges` list, an edge can be stored in an object that others do not see: a look-up may miss an edge
that was stored.  Here every look-up may miss (`Process.step`).

Not modelled: `sharedContextCache` (FCSLexer.py, FCSParser.py:101), which only makes equal contexts identical objects.
-/
import Verif.Model.Program
import Mathlib.Logic.Function.Basic

set_option autoImplicit false

namespace Fcsql

/-- The places in the shared `DFA`s: `dfa.s0` and the edges, of the lexer's `DFA`, and of the parser's `DFA` for decision `d`. -/
inductive Key
  | lexStart
  | lexEdge (cs : List LConf) (k : Int)
  | start (d : Nat)
  | edge (d : Nat) (S : AConfigSet) (k : Int)
  deriving DecidableEq

/-- What is stored there: states of the lexer, states of the parser (`DFAState.configs`). -/
@[reducible] def Key.Val : Key → Type
  | .lexStart => List LConf
  | .lexEdge _ _ => List LConf
  | .start _ => AConfigSet
  | .edge _ _ _ => AConfigSet

/-- An action on shared state: a look-up in a `DFA`; a store; `parser.errors = es` (parser.py:1756); reading `parser.errors`. -/
inductive Op
  | load (a : Key)
  | save (a : Key) (v : a.Val)
  | assign (i : Nat) (es : List ErrorDetail)
  | read (i : Nat)

/-- What an action answers. -/
@[reducible] def Op.Ans : Op → Type
  | .load a => Option a.Val
  | .save _ _ => Unit
  | .assign _ _ => Unit
  | .read _ => List ErrorDetail

/-- What a thread does: it has come to an end, or its next action on shared state, and how it goes on after the answer. -/
inductive Thread (α : Type)
  | ret (a : α)
  | op (o : Op) (k : o.Ans → Thread α)

/-- One thing after the other. -/
def Thread.bind {α β : Type} : Thread α → (α → Thread β) → Thread β
  | .ret a, f => f a
  | .op o k, f => .op o fun x => (k x).bind f

/-! ### The lexer -/

/-- The lexer's computations; `none` if a bound is not enough. -/
def LexM (α : Type) := Thread (Option α)

/-- One thing after the other. -/
def LexM.bind {α β : Type} (p : LexM α) (f : α → LexM β) : LexM β :=
  Thread.bind p fun
    | none => .ret none
    | some a => f a

instance : Monad LexM where
  pure a := Thread.ret (some a)
  bind := LexM.bind

/-- A bound is not enough. -/
def LexM.stuck {α : Type} : LexM α := Thread.ret none

/-- A computation without shared state. -/
def LexM.of {α : Type} (x : Option α) : LexM α := Thread.ret x

section
variable (L : Atn) (m : Nat) (q : PyStr)

/-- `LexerATNSimulator.match`: `dfa.s0` if it is there, else `computeStartState`, which is stored (`matchATN`). -/
def startT (mode : Nat) : LexM (List LConf) :=
  Thread.op (.load .lexStart) fun
    | some (cs : List LConf) => .ret (some cs)
    | none =>
      match L.lexStart m mode with
      | none => .ret none
      | some cs => .op (.save .lexStart cs) fun _ => .ret (some cs)

/-- `getExistingTargetState`, else `computeTargetState` with `addDFAEdge`. -/
def lexEdgeT (cs : List LConf) (k : Int) : LexM (List LConf) :=
  Thread.op (.load (.lexEdge cs k)) fun
    | some (cs' : List LConf) => .ret (some cs')
    | none =>
      match L.lexReach m cs k with
      | none => .ret none
      | some cs' => .op (.save (.lexEdge cs k) cs') fun _ => .ret (some cs')

/-- The configurations after a symbol; edges are kept for symbols from `MIN_DFA_EDGE` (0) to `MAX_DFA_EDGE` (127) only. -/
def reachT (cs : List LConf) (k : Int) : LexM (List LConf) :=
  if 0 ≤ k ∧ k ≤ 127 then lexEdgeT L m cs k else LexM.of (L.lexReach m cs k)

/-- As `lexExec` (Model/LexerSim.lean): `LexerATNSimulator.execATN`. -/
def lexExecT : Nat → List LConf → Option SimState → LexPos → LexM (Option SimState × LexPos)
  | 0, _, _, _ => .stuck
  | n + 1, cs, prev, p => do
    match ← reachT L m cs (inputLA q p.index) with
    | [] => pure (prev, p)
    | c :: cs' =>
      let p' := if inputLA q p.index = -1 then p else p.consume q
      let prev' := capture L p' (c :: cs') prev
      if (L.firstStop (c :: cs')).isSome && inputLA q p.index = -1 then pure (prev', p')
      else lexExecT n (c :: cs') prev' p'

/-- As `lexMatch`: `LexerATNSimulator.match`. -/
def lexMatchT (p : LexPos) : LexM MatchRes :=
  match L.modes with
  | [] => .stuck
  | mode :: _ => do
    let s0 ← startT L m mode
    match ← lexExecT L m q (q.length + 1) s0 (capture L p s0 none) p with
    | (some st, _) => pure (.accepted (L.predictionOf st.conf) (L.execActs st.conf.acts) st.pos)
    | (none, e) => pure (if inputLA q e.index = -1 && e.index == p.index then .accepted (-1) none e else .failed e)

/-- As `lexNextToken`: `Lexer.nextToken`. -/
def lexNextTokenT : Nat → LexObj → LexM (List LexReport × RawTok × LexObj)
  | 0, _ => .stuck
  | n + 1, lx =>
    if lx.hitEOF then
      pure ([], { type := -1, start := lx.pos.index, stop := (lx.pos.index : Int) - 1, line := lx.pos.line, column := lx.pos.column }, lx)
    else do
      match ← lexMatchT L m q lx.pos with
      | .failed e =>
        let report : LexReport :=
          { line := lx.pos.line, column := lx.pos.column, text := (q.drop lx.pos.index).take (e.index + 1 - lx.pos.index) }
        let p := if inputLA q e.index ≠ -1 then e.consume q else e
        let r ← lexNextTokenT n { pos := p, hitEOF := inputLA q p.index = -1 }
        pure (report :: r.1, r.2)
      | .accepted ttype set p =>
        let type := match set with | some t => t | none => ttype
        let lx' : LexObj := { pos := p, hitEOF := inputLA q p.index = -1 }
        if type = lexSkip then lexNextTokenT n lx'
        else
          pure ([], { type, start := lx.pos.index, stop := (p.index : Int) - 1, line := lx.pos.line, column := lx.pos.column }, lx')

end

/-! ### The parser -/

/-- How a part of the parser ends: with a value; because a bound is not enough; or because a listener has raised an exception
that nobody catches (`ExceptionThrowingErrorListener`, __init__.py:29-31), and then what the listeners had been called with. -/
inductive Out (α : Type)
  | val (a : α)
  | stuck
  | raised (calls : List ListenerCall)

/-- The parser's computations. -/
def ParM (α : Type) := Thread (Out α)

/-- One thing after the other. -/
def ParM.bind {α β : Type} (p : ParM α) (f : α → ParM β) : ParM β :=
  Thread.bind p fun
    | .val a => f a
    | .stuck => .ret .stuck
    | .raised cs => .ret (.raised cs)

instance : Monad ParM where
  pure a := Thread.ret (.val a)
  bind := ParM.bind

/-- A bound is not enough. -/
def ParM.stuck {α : Type} : ParM α := Thread.ret .stuck

/-- A listener raises. -/
def ParM.raise {α : Type} (calls : List ListenerCall) : ParM α := Thread.ret (.raised calls)

/-- The parser asks the lexer. -/
def LexM.toParM {α : Type} (p : LexM α) : ParM α :=
  Thread.bind p fun
    | some a => .ret (.val a)
    | none => .ret .stuck

section
variable (strict : Bool) (L : Atn) (m : Nat) (q : PyStr)

/-- As `PState.report` (`notifyErrorListeners`).  `strict`: the listeners of `antlr_parse`, which raise. -/
def reportT (t : RawTok) (msg : PyStr) (s : PState) : ParM PState :=
  if s.recovering then pure s
  else if strict then ParM.raise (s.report t msg).calls
  else pure (s.report t msg)

/-- As `PState.fetch`: `BufferedTokenStream.fetch(1)`. -/
def fetchT (s : PState) : ParM PState :=
  if s.fetchedEOF then pure s
  else do
    let (rs, t, lx) ← (lexNextTokenT L m q (q.length + 1) s.lexer).toParM
    pure { s with lexer := lx, fetchedEOF := t.type = -1, tokens := s.tokens ++ [t], last := t, calls := s.calls ++ rs.map .lexer }

/-- As `PState.fetchN`: `BufferedTokenStream.fetch(n)`. -/
def fetchNT : Nat → PState → ParM PState
  | 0, s => pure s
  | n + 1, s => do
    let s ← fetchT L m q s
    fetchNT n s

/-- As `PState.look`: `LA(k + 1)`. -/
def lookT (k : Nat) (s : PState) : ParM PState := fetchNT L m q (k + 1 - s.tokens.length) s

/-- As `PState.consume`: `Parser.consume`. -/
def consumeT (s : PState) : ParM PState := if s.current.type = -1 then pure s else lookT L m q 0 s.advance

/-- As `PState.matched`: `self.match` on success. -/
def matchedT (s : PState) : ParM PState := lookT L m q 0 s.advance.endError

/-- As `PState.until`: `consumeUntil`. -/
def untilT (set : Int → Bool) : Nat → PState → ParM PState
  | 0, _ => .stuck
  | n + 1, s =>
    if la (s.toks q) = -1 || set (la (s.toks q)) then pure s
    else do
      let s ← consumeT L m q s
      untilT set n s

variable (A : Atn)

/-- As `fullP`: `execATNWithFullContext`, which looks up and stores nothing. -/
def fullT : Nat → AConfigSet → Nat → PState → ParM ((Option Nat × Nat) × PState)
  | 0, _, _, _ => .stuck
  | n + 1, S, k, s => do
    let s ← lookT L m q k s
    match (s.toks q)[k]? with
    | none => pure ((none, k), s)
    | some x =>
      let reach := A.reachSet true S x.type.num
      if reach.isEmpty then pure ((A.finishedAlt S, k), s)
      else
        match reach.uniqueAlt with
        | some i => pure ((some i, k), s)
        | none =>
          match AConfigSet.resolves reach.conflictingAltSubsets with
          | some i => pure ((some i, k), s)
          | none => fullT n reach (k + 1) s

/-- `getExistingTargetState`, else `computeTargetState` with `addDFAEdge`. -/
def edgeT (d : Nat) (S : AConfigSet) (k : Int) : ParM AConfigSet :=
  Thread.op (.load (.edge d S k)) fun
    | some (S' : AConfigSet) => .ret (.val S')
    | none => .op (.save (.edge d S k) (A.reachSet false S k)) fun _ => .ret (.val (A.reachSet false S k))

/-- `dfa.s0` if it is there, else `computeStartState`, which is stored. -/
def startStateT (d : Nat) : ParM AConfigSet :=
  Thread.op (.load (.start d)) fun
    | some (S : AConfigSet) => .ret (.val S)
    | none => .op (.save (.start d) (A.startConfigs false d [])) fun _ => .ret (.val (A.startConfigs false d []))

/-- As `walkP`: `execATN`. -/
def walkT (d : Nat) (ctx : List Nat) : Nat → AConfigSet → Nat → PState → ParM ((Option Nat × Nat) × PState)
  | 0, _, _, _ => .stuck
  | n + 1, S, k, s => do
    let s ← lookT L m q k s
    match (s.toks q)[k]? with
    | none => fullT L m q A (q.length + 2) (A.startConfigs true d (A.returnStates ctx)) 0 s
    | some x => do
      let reach ← edgeT A d S x.type.num
      match A.sllVerdict reach with
      | .alt i => pure ((some i, k), s)
      | .fail => pure ((A.finishedAlt S, k), s)
      | .full => fullT L m q A (q.length + 2) (A.startConfigs true d (A.returnStates ctx)) 0 s
      | .more => walkT d ctx n reach (k + 1) s

/-- As `predictP`: `adaptivePredict`. -/
def predictT (d : Nat) (ctx : List Nat) (s : PState) : ParM ((Option Nat × Nat) × PState) := do
  let s0 ← startStateT A d
  walkT L m q A d ctx (q.length + 2) s0 0 s

/-- As `reportUnwantedP`: `reportUnwantedToken`. -/
def reportUnwantedT (ctx : List Nat) (s : PState) : ParM PState :=
  reportT strict s.current (py!"extraneous input " ++ tokenDisplay (s.current.tok q) ++ py!" expecting " ++
    showSet fun k => A.expectedTok k s.state ctx) s

/-- As `reportMissingP`: `reportMissingToken`. -/
def reportMissingT (ctx : List Nat) (s : PState) : ParM PState :=
  reportT strict s.current (py!"missing " ++ (showSet fun k => A.expectedTok k s.state ctx) ++ py!" at " ++
    tokenDisplay (s.current.tok q)) s

/-- As `reportFailureP`: `reportError`. -/
def reportFailureT (ctx : List Nat) (f : Failure) (s : PState) : ParM PState :=
  if s.recovering then pure s
  else
    match f with
    | .noViable k => do
      let s ← fetchNT L m q (q.length + 1) s
      reportT strict (s.ahead k)
        (py!"no viable alternative at input " ++ escapeWSAndQuote
          (if s.current.type = -1 then py!"<EOF>" else textUpTo k (s.toks q))) s
    | .mismatch =>
      reportT strict s.current (py!"mismatched input " ++ tokenDisplay (s.current.tok q) ++ py!" expecting " ++
        showSet fun k => A.expectedTok k s.state ctx) s

/-- As `recoverP`: `recover`. -/
def recoverT (ctx : List Nat) (s : PState) : ParM PState := do
  let s1 ← (if s.lastIndex = some s.index ∧ s.state ∈ s.lastStates then consumeT L m q s else pure s : ParM PState)
  untilT L m q (fun t => A.recoveryTok t ctx) (q.length + 2)
    { s1 with lastIndex := some s1.index, lastStates := s1.lastStates ++ [s1.state] }

/-- As `syncP`: `sync`. -/
def syncT (ctx : List Nat) (s : PState) : ParM PStep :=
  if s.recovering then pure (.go [] s)
  else
    let next := A.nextTokens s.state
    if Atn.hasTok next (la (s.toks q)) || Atn.hasEps next then pure (.go [] s)
    else if A.stateType s.state ∈ [3, 5, 4, 10] then do
      let s ← lookT L m q 1 s
      if A.expectedTok (la2 (s.toks q)) s.state ctx then do
        let s ← reportUnwantedT strict q A ctx s
        let s ← consumeT L m q s
        pure (.go [] s.endError)
      else pure (.stop .mismatch s)
    else if A.stateType s.state ∈ [11, 9] then do
      let s ← reportUnwantedT strict q A ctx s
      let s ← untilT L m q (fun t => A.expectedTok t s.state ctx || A.recoveryTok t ctx) (q.length + 2) s
      pure (.go [] s)
    else pure (.go [] s)

/-- As `inlineP`: `recoverInline`. -/
def inlineT (ctx : List Nat) (s : PState) : ParM PStep := do
  let s ← lookT L m q 1 s
  if A.expectedTok (la2 (s.toks q)) s.state ctx then do
    let s ← reportUnwantedT strict q A ctx s
    let s ← consumeT L m q s
    let s' ← matchedT L m q s
    pure (.go [.leaf (s.current.tok q)] s')
  else if A.nextInContext (la (s.toks q)) (A.firstTarget s.state) ctx then do
    let s ← reportMissingT strict q A ctx s
    pure (.go [] s)
  else pure (.stop .mismatch s)

/-- As `matchP`: `self.match(k)`, or the test of a token set. -/
def matchT (ctx : List Nat) (ok : Int → Bool) (s : PState) : ParM PStep :=
  match s.toks q with
  | [] => inlineT strict L m q A ctx s
  | x :: _ =>
    if ok x.type.num then do
      let s ← matchedT L m q s
      pure (.go [.leaf x] s)
    else inlineT strict L m q A ctx s

/-- As `caughtP`: `except RecognitionException as re`. -/
def caughtT (ctx : List Nat) (f : Failure) (s : PState) : ParM PState := do
  let s ← reportFailureT strict L m q A ctx f s
  recoverT L m q A ctx s

/-- As `PStep.andThen`: the statements after a statement. -/
def PStep.andThenT (step : PStep) (next : PState → ParM POut) : ParM POut :=
  match step with
  | .go f s => do
    let o ← next s
    pure (o.prepend f)
  | .stop f s => pure (.raised f s)

/-- As `execP`: the statements of the generated functions. -/
def execT (prog : Rule → List Stmt) : Nat → List Nat → List Stmt → PState → ParM POut
  | 0, _, _, _ => .stuck
  | _ + 1, _, [], s => pure (.ok [] s)
  | n + 1, ctx, c :: ss, s =>
    match c with
    | .sync st => do
      let e ← syncT strict L m q A ctx (s.at st)
      e.andThenT (execT prog n ctx ss)
    | .matchTok st k => do
      let e ← matchT strict L m q A ctx (fun j => j = k) (s.at st)
      e.andThenT (execT prog n ctx ss)
    | .matchSet st t => do
      let e ← matchT strict L m q A ctx t.eval (s.at st)
      e.andThenT (execT prog n ctx ss)
    | .call st r => do
      match ← execT prog n (st :: ctx) (prog r) (s.at st) with
      | .ok f s' => do
        let o ← execT prog n ctx ss (s'.at st)
        pure (o.prepend [.node r f])
      | .raised f s' => do
        let s' ← caughtT strict L m q A (st :: ctx) f s'
        let o ← execT prog n ctx ss (s'.at st)
        pure (o.prepend [.node r []])
    | .predict d bs => do
      match ← predictT L m q A d ctx s with
      | ((none, k), s) => pure (.raised (.noViable k) s)
      | ((some a, _), s) => execT prog n ctx (branch bs a ++ ss) s
    | .switchLA cs =>
      match switchCase (la (s.toks q)) cs with
      | none => pure (.raised (.noViable 0) s)
      | some b => execT prog n ctx (b ++ ss) s
    | .ifLA t b => execT prog n ctx ((if t.eval (la (s.toks q)) then b else []) ++ ss) s
    | .whileLA b st t => execT prog n ctx (b ++ (.sync st :: .ifLA t [.whileLA b st t] :: ss)) s
    | .whilePredict b st d => execT prog n ctx (b ++ (.sync st :: .loopPredict b st d :: ss)) s
    | .loopPredict b st d => do
      match ← predictT L m q A d ctx s with
      | ((none, k), s) => pure (.raised (.noViable k) s)
      | ((some a, _), s) =>
        if a = 2 ∨ a = 0 then execT prog n ctx ss s
        else if a = 1 then execT prog n ctx (.whilePredict b st d :: ss) s
        else pure (.raised (.noViable 0) s)

/-- As `callP`: `parser.query()`. -/
def callT (prog : Rule → List Stmt) (n : Nat) (r : Rule) : ParM (List PTree × List ListenerCall) := do
  let s ← lookT L m q 0 PState.new
  match ← execT strict L m q A prog n [] (prog r) s with
  | .ok f s => pure (f, s.calls)
  | .raised f s => do
    let s ← caughtT strict L m q A [] f s
    pure ([], s.calls)

end

/-! ### Threads -/

/-- What a thread does: `parsers[i].parse(q)`, `antlr_parse(q)`, or it reads `parsers[i].errors`. -/
inductive ThreadCall
  | parse (i : Nat) (q : PyStr)
  | antlr (q : PyStr)
  | errors (i : Nat)
  deriving DecidableEq

/-- What comes of it: a node or an exception; what was printed, and a tree or the message of an exception; a list of
records. -/
inductive ThreadResult
  | node (r : Except ParserException Node)
  | tree (r : List PyStr × Except PyStr PTree)
  | errors (es : List ErrorDetail)

section
variable (L A : Atn) (m n : Nat) (rt : PyRuntime) (cfg : Nat → Config)

/-- A call: `QueryParser.parse` (parser.py:1700-1756; the last thing it does is to assign `self.errors`), `antlr_parse`
(__init__.py:34-53), or `.errors` (parser.py:1697).  `cfg i` are the settings of the `i`-th parser object. -/
def ThreadCall.acts : ThreadCall → Thread (Option ThreadResult)
  | .parse i q => Thread.bind (callT false L m q A code n .query) fun
    | .val (f, calls) =>
      let r := parseOutcome rt (cfg i) q f calls
      .op (.assign i r.2) fun _ => .ret (some (.node r.1))
    | _ => .ret none
  | .antlr q => Thread.bind (callT true L m q A code n .query) fun
    | .val (f, calls) => .ret (some (.tree (antlrOutcome f calls)))
    | .raised calls => .ret (some (.tree (antlrOutcome [] calls)))
    | .stuck => .ret none
  | .errors i => .op (.read i) fun es => .ret (some (.errors es))

/-- A thread: one call after the other (exceptions are caught between them), and the list of what came of them. -/
def threadActs : List ThreadCall → Thread (Option (List ThreadResult))
  | [] => .ret (some [])
  | c :: cs => Thread.bind (c.acts L A m n rt cfg) fun
    | none => .ret none
    | some r => Thread.bind (threadActs cs) fun
      | none => .ret none
      | some rs => .ret (some (r :: rs))

/-- The shared state: what is stored in the `DFA`s, and the attribute `errors` of the parser objects. -/
structure Mem where
  stored : (a : Key) → Option a.Val
  errors : Nat → List ErrorDetail

/-- Nothing is stored when the modules are loaded; `errors` of the parser objects is as it was left before (empty for a new
parser, parser.py:1697). -/
def Mem.new (errs : Nat → List ErrorDetail) : Mem := { stored := fun _ => none, errors := errs }

/-- An action takes place; with `miss`, a look-up finds nothing. -/
def Op.run (miss : Bool) : (o : Op) → Mem → o.Ans × Mem
  | .load a, M => (if miss then none else M.stored a, M)
  | .save a v, M => ((), { M with stored := Function.update M.stored a (some v) })
  | .assign i es, M => ((), { M with errors := Function.update M.errors i es })
  | .read i, M => (M.errors i, M)

/-- The shared state, and where each thread is. -/
structure Process where
  mem : Mem
  threads : List (Thread (Option (List ThreadResult)))

/-- All threads are about to begin. -/
def Process.new (errs : Nat → List ErrorDetail) (calls : List (List ThreadCall)) : Process :=
  { mem := .new errs, threads := calls.map (threadActs L A m n rt cfg) }

/-- Thread `e.1` takes its next action; a look-up may miss (`e.2`). -/
def Process.step (P : Process) (e : Nat × Bool) : Process :=
  match P.threads[e.1]? with
  | some (.op o k) => let r := o.run e.2 P.mem; { mem := r.2, threads := P.threads.set e.1 (k r.1) }
  | _ => P

/-- A schedule: which thread takes the next action, any number of times in any order. -/
def Process.run (P : Process) (schedule : List (Nat × Bool)) : Process := schedule.foldl Process.step P

/-- What has come of the calls of thread `j`, if it has finished. -/
def Process.result (P : Process) (j : Nat) : Option (List ThreadResult) :=
  match P.threads[j]? with
  | some (.ret rs) => rs
  | _ => none

end

end Fcsql
