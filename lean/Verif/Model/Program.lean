/-
The whole program at work on a query: `QueryParser.parse` (parser.py:1700-1756) and `antlr_parse` (__init__.py:34-53) with
the lexer, the token stream that fetches tokens from it when they are asked for, the generated parser with prediction and
error strategy, the error listeners both of them call, and the tree builder.

The parts are those of Model/LexerSim.lean (lexer), Model/ParserCode.lean (generated functions), Model/Adaptive.lean
(prediction), Model/ErrorStrategy.lean (error strategy; there as if all tokens were known beforehand) and
Model/TreeBuilder.lean (tree builder).  What is added here: `antlr4.BufferedTokenStream` with `fetch`, `sync`, `LA`,
`consume`, `fill`, and the one order in which things happen.  The library is not in /repo (pyproject.toml:
antlr4-python3-runtime >= 4.13.2); this is written after its published code.

All functions answer `none` if a bound on the number of rounds is not enough.
-/
import Verif.Model.ErrorStrategy
import Verif.Model.LexerSim
import Verif.Model.TreeBuilder

set_option autoImplicit false

namespace Fcsql

/-- The token types (FCSParser.py:164-189) and `Token.EOF`. -/
def tokTypes : List TokType :=
  [.EOF, .L_PAREN, .R_PAREN, .L_SQUARE_BRACKET, .R_SQUARE_BRACKET, .OR, .AND, .NOT, .FWD_SLASH, .L_CURLY_BRACKET, .R_CURLY_BRACKET,
   .Q_ONE_OR_MORE, .Q_ZERO_OR_MORE, .Q_ZERO_OR_ONE, .Q_COMMA, .OPERATOR_EQ, .OPERATOR_NE, .COLON, .WITHIN, .SIMPLE_WITHIN_SCOPE,
   .REGEXP_FLAGS, .IDENTIFIER, .INTEGER, .REGEXP, .QUOTED_STRING, .Space]

/-- The token type with a number. -/
def TokType.ofNum (k : Int) : TokType := (tokTypes.find? fun t => t.num = k).getD .EOF

/-- A `CommonToken` as the parser and the tree builder look at it. -/
def RawTok.tok (q : PyStr) (t : RawTok) : Tok := { type := .ofNum t.type, text := t.text q, start := t.start, stop := t.stop }

/-- A call of `syntaxError` on the listener that lexer and parser share (parser.py:1722-1726). -/
inductive ListenerCall
  /-- `Lexer.notifyListeners`: `offendingSymbol` is `None` -/
  | lexer (r : LexReport)
  /-- `Parser.notifyErrorListeners`: the offending token (with its line and column) and the message -/
  | parser (t : RawTok) (msg : PyStr)
  deriving DecidableEq, Repr

/-- Lexer, token stream, parser and error strategy: the lexer; `fetchedEOF`; the tokens fetched, from the current one on; the
last token fetched; `index`; `recognizer.state`; `errorRecoveryMode`; `lastErrorIndex` (`none` is `-1`); `lastErrorStates`;
what the listener has been called with. -/
structure PState where
  lexer : LexObj
  fetchedEOF : Bool
  tokens : List RawTok
  last : RawTok
  index : Nat
  state : Nat
  recovering : Bool
  lastIndex : Option Nat
  lastStates : List Nat
  calls : List ListenerCall
  deriving DecidableEq, Repr

/-- `getCurrentToken()`.  (After `EOF` was matched it is the current token still.) -/
def PState.current (s : PState) : RawTok := s.tokens.headD s.last

/-- The token after `k` others from the current one on, or `EOF` (`NoViableAltException.offendingToken`). -/
def PState.ahead (k : Nat) (s : PState) : RawTok := (s.tokens.drop (min k (s.tokens.length - 1))).headD s.last

/-- The next token is the current one.  Simplified: a matched `EOF` is given up too (`index` would stay), as in
Model/ErrorStrategy.lean; nothing is matched after it. -/
def PState.advance (s : PState) : PState :=
  match s.tokens with
  | [] => s
  | _ :: ts => { s with tokens := ts, index := s.index + 1 }

/-- `beginErrorCondition` and `notifyErrorListeners`; nothing in error recovery mode. -/
def PState.report (t : RawTok) (msg : PyStr) (s : PState) : PState :=
  if s.recovering then s else { s with recovering := true, calls := s.calls ++ [.parser t msg] }

/-- `endErrorCondition` (called by `reportMatch`). -/
def PState.endError (s : PState) : PState := { s with recovering := false, lastIndex := none, lastStates := [] }

/-- `self.state = st`. -/
def PState.at (st : Nat) (s : PState) : PState := { s with state := st }

/-- A statement goes on, with children for the current context, or raises. -/
inductive PStep
  | go (forest : List PTree) (s : PState)
  | stop (f : Failure) (s : PState)

/-- How statements end.  Simplified as `ROut` (Model/Recovery.lean): the children of a context whose function caught an
exception, and error nodes, are left out (the tree is discarded when an error was reported, parser.py:1731-1740). -/
inductive POut
  | ok (forest : List PTree) (s : PState)
  | raised (f : Failure) (s : PState)

/-- Children added before those of a result. -/
def POut.prepend (f : List PTree) : POut → POut
  | .ok f' s => .ok (f ++ f') s
  | .raised k s => .raised k s

/-- The statements after a statement. -/
def PStep.andThen (step : PStep) (next : PState → Option POut) : Option POut :=
  match step with
  | .go f s => (next s).map (.prepend f)
  | .stop f s => some (.raised f s)

section
variable (L : Atn) (m : Nat) (q : PyStr)

/-- The tokens fetched, from the current one on. -/
def PState.toks (s : PState) : List Tok := s.tokens.map (RawTok.tok q)

/-- `BufferedTokenStream.fetch(1)`: one more token from the lexer, which may call the listener; nothing after `EOF`. -/
def PState.fetch (s : PState) : Option PState :=
  if s.fetchedEOF then some s
  else
    match lexNextToken L m q (q.length + 1) s.lexer with
    | none => none
    | some (rs, t, lx) =>
      some { s with lexer := lx, fetchedEOF := t.type = -1, tokens := s.tokens ++ [t], last := t, calls := s.calls ++ rs.map .lexer }

/-- `BufferedTokenStream.fetch(n)`. -/
def PState.fetchN : Nat → PState → Option PState
  | 0, s => some s
  | n + 1, s =>
    match s.fetch L m q with
    | none => none
    | some s => PState.fetchN n s

/-- `LA(k + 1)`, `LT(k + 1)`: `sync` makes sure that the token has been fetched. -/
def PState.look (k : Nat) (s : PState) : Option PState := s.fetchN L m q (k + 1 - s.tokens.length)

/-- `Parser.consume`: not past `EOF`. -/
def PState.consume (s : PState) : Option PState := if s.current.type = -1 then some s else s.advance.look L m q 0

/-- `self.match` on success: `reportMatch` and `consume`. -/
def PState.matched (s : PState) : Option PState := s.advance.endError.look L m q 0

/-- `consumeUntil`. -/
def PState.until (set : Int → Bool) : Nat → PState → Option PState
  | 0, _ => none
  | n + 1, s =>
    if la (s.toks q) = -1 || set (la (s.toks q)) then some s
    else
      match s.consume L m q with
      | none => none
      | some s => PState.until set n s

variable (A : Atn)

/-- `execATNWithFullContext`, as `llLoop` (Model/Adaptive.lean), with tokens fetched when they are looked at: `k` tokens have
been read; the answer, and the number of tokens read when it was given (`NoViableAltException.offendingToken` if there is
none). -/
def fullP : Nat → AConfigSet → Nat → PState → Option ((Option Nat × Nat) × PState)
  | 0, _, _, _ => none
  | n + 1, S, k, s =>
    match s.look L m q k with
    | none => none
    | some s =>
      match (s.toks q)[k]? with
      | none => some ((none, k), s)
      | some x =>
        let reach := A.reachSet true S x.type.num
        if reach.isEmpty then some ((A.finishedAlt S, k), s)
        else
          match reach.uniqueAlt with
          | some i => some ((some i, k), s)
          | none =>
            match AConfigSet.resolves reach.conflictingAltSubsets with
            | some i => some ((some i, k), s)
            | none => fullP n reach (k + 1) s

/-- `execATN`, as `Simulator.walk` (Model/Cache.lean), with tokens fetched when they are looked at. -/
def walkP (d : Nat) (ctx : List Nat) : Nat → AConfigSet → Nat → PState → Option ((Option Nat × Nat) × PState)
  | 0, _, _, _ => none
  | n + 1, S, k, s =>
    match s.look L m q k with
    | none => none
    | some s =>
      match (s.toks q)[k]? with
      | none => fullP L m q A (q.length + 2) (A.startConfigs true d (A.returnStates ctx)) 0 s
      | some x =>
        let reach := A.reachSet false S x.type.num
        match A.sllVerdict reach with
        | .alt i => some ((some i, k), s)
        | .fail => some ((A.finishedAlt S, k), s)
        | .full => fullP L m q A (q.length + 2) (A.startConfigs true d (A.returnStates ctx)) 0 s
        | .more => walkP d ctx n reach (k + 1) s

/-- `adaptivePredict`. -/
def predictP (d : Nat) (ctx : List Nat) (s : PState) : Option ((Option Nat × Nat) × PState) :=
  walkP L m q A d ctx (q.length + 2) (A.startConfigs false d []) 0 s

/-- `reportUnwantedToken`. -/
def reportUnwantedP (ctx : List Nat) (s : PState) : PState :=
  s.report s.current (py!"extraneous input " ++ tokenDisplay (s.current.tok q) ++ py!" expecting " ++
    showSet fun k => A.expectedTok k s.state ctx)

/-- `reportMissingToken`. -/
def reportMissingP (ctx : List Nat) (s : PState) : PState :=
  s.report s.current (py!"missing " ++ (showSet fun k => A.expectedTok k s.state ctx) ++ py!" at " ++
    tokenDisplay (s.current.tok q))

/-- `reportError`: `reportNoViableAlternative` (`getText` calls `fill`), `reportInputMismatch`. -/
def reportFailureP (ctx : List Nat) (f : Failure) (s : PState) : Option PState :=
  if s.recovering then some s
  else
    match f with
    | .noViable k =>
      match s.fetchN L m q (q.length + 1) with
      | none => none
      | some s =>
        some (s.report (s.ahead k)
          (py!"no viable alternative at input " ++ escapeWSAndQuote
            (if s.current.type = -1 then py!"<EOF>" else textUpTo k (s.toks q))))
    | .mismatch =>
      some (s.report s.current (py!"mismatched input " ++ tokenDisplay (s.current.tok q) ++ py!" expecting " ++
        showSet fun k => A.expectedTok k s.state ctx))

/-- `recover`. -/
def recoverP (ctx : List Nat) (s : PState) : Option PState :=
  match (if s.lastIndex = some s.index ∧ s.state ∈ s.lastStates then s.consume L m q else some s) with
  | none => none
  | some s1 =>
    PState.until L m q (fun t => A.recoveryTok t ctx) (q.length + 2)
      { s1 with lastIndex := some s1.index, lastStates := s1.lastStates ++ [s1.state] }

/-- `sync` with the current state. -/
def syncP (ctx : List Nat) (s : PState) : Option PStep :=
  if s.recovering then some (.go [] s)
  else
    let next := A.nextTokens s.state
    if Atn.hasTok next (la (s.toks q)) || Atn.hasEps next then some (.go [] s)
    else if A.stateType s.state ∈ [3, 5, 4, 10] then
      match s.look L m q 1 with
      | none => none
      | some s =>
        if A.expectedTok (la2 (s.toks q)) s.state ctx then
          match (reportUnwantedP q A ctx s).consume L m q with
          | none => none
          | some s => some (.go [] s.endError)
        else some (.stop .mismatch s)
    else if A.stateType s.state ∈ [11, 9] then
      let s := reportUnwantedP q A ctx s
      match s.until L m q (fun t => A.expectedTok t s.state ctx || A.recoveryTok t ctx) (q.length + 2) with
      | none => none
      | some s => some (.go [] s)
    else some (.go [] s)

/-- `recoverInline`: `singleTokenDeletion`, `singleTokenInsertion`, or `InputMismatchException`. -/
def inlineP (ctx : List Nat) (s : PState) : Option PStep :=
  match s.look L m q 1 with
  | none => none
  | some s =>
    if A.expectedTok (la2 (s.toks q)) s.state ctx then
      match (reportUnwantedP q A ctx s).consume L m q with
      | none => none
      | some s =>
        match s.matched L m q with
        | none => none
        | some s' => some (.go [.leaf (s.current.tok q)] s')
    else if A.nextInContext (la (s.toks q)) (A.firstTarget s.state) ctx then some (.go [] (reportMissingP q A ctx s))
    else some (.stop .mismatch s)

/-- `self.match(k)`, or the test of a token set. -/
def matchP (ctx : List Nat) (ok : Int → Bool) (s : PState) : Option PStep :=
  match s.toks q with
  | [] => inlineP L m q A ctx s
  | x :: _ =>
    if ok x.type.num then
      match s.matched L m q with
      | none => none
      | some s => some (.go [.leaf x] s)
    else inlineP L m q A ctx s

/-- `except RecognitionException as re`: `reportError`, `recover`. -/
def caughtP (ctx : List Nat) (f : Failure) (s : PState) : Option PState :=
  match reportFailureP L m q A ctx f s with
  | none => none
  | some s => recoverP L m q A ctx s

/-- Run the statements of the generated functions in a context, as `exec` (Model/GenParser.lean) and `execE`
(Model/ErrorStrategy.lean). -/
def execP (prog : Rule → List Stmt) : Nat → List Nat → List Stmt → PState → Option POut
  | 0, _, _, _ => none
  | _ + 1, _, [], s => some (.ok [] s)
  | n + 1, ctx, c :: ss, s =>
    match c with
    | .sync st => (syncP L m q A ctx (s.at st)).bind fun e => e.andThen (execP prog n ctx ss)
    | .matchTok st k => (matchP L m q A ctx (fun j => j = k) (s.at st)).bind fun e => e.andThen (execP prog n ctx ss)
    | .matchSet st t => (matchP L m q A ctx t.eval (s.at st)).bind fun e => e.andThen (execP prog n ctx ss)
    | .call st r =>
      match execP prog n (st :: ctx) (prog r) (s.at st) with
      | none => none
      | some (.ok f s') => (execP prog n ctx ss (s'.at st)).map (.prepend [.node r f])
      | some (.raised f s') =>
        match caughtP L m q A (st :: ctx) f s' with
        | none => none
        | some s' => (execP prog n ctx ss (s'.at st)).map (.prepend [.node r []])
    | .predict d bs =>
      match predictP L m q A d ctx s with
      | none => none
      | some ((none, k), s) => some (.raised (.noViable k) s)
      | some ((some a, _), s) => execP prog n ctx (branch bs a ++ ss) s
    | .switchLA cs =>
      match switchCase (la (s.toks q)) cs with
      | none => some (.raised (.noViable 0) s)
      | some b => execP prog n ctx (b ++ ss) s
    | .ifLA t b => execP prog n ctx ((if t.eval (la (s.toks q)) then b else []) ++ ss) s
    | .whileLA b st t => execP prog n ctx (b ++ (.sync st :: .ifLA t [.whileLA b st t] :: ss)) s
    | .whilePredict b st d => execP prog n ctx (b ++ (.sync st :: .loopPredict b st d :: ss)) s
    | .loopPredict b st d =>
      match predictP L m q A d ctx s with
      | none => none
      | some ((none, k), s) => some (.raised (.noViable k) s)
      | some ((some a, _), s) =>
        if a = 2 ∨ a = 0 then execP prog n ctx ss s
        else if a = 1 then execP prog n ctx (.whilePredict b st d :: ss) s
        else some (.raised (.noViable 0) s)

/-- `FCSLexer(InputStream(query))`, `CommonTokenStream(lexer)`, `FCSParser(stream)` (parser.py:1716-1719,
__init__.py:47-50): nothing has been read. -/
def PState.new : PState :=
  { lexer := { pos := { index := 0, line := 1, column := 0 }, hitEOF := false }, fetchedEOF := false, tokens := [],
    last := { type := -1, start := 0, stop := -1, line := 1, column := 0 }, index := 0, state := 0, recovering := false,
    lastIndex := none, lastStates := [], calls := [] }

/-- A call of the function of rule `r`, e.g. `parser.query()` (FCSParser.py:222-252: `enterRule` looks at the first token), with
at most `n` steps: the children of its context, and what the listener has been called with. -/
def callP (prog : Rule → List Stmt) (n : Nat) (r : Rule) : Option (List PTree × List ListenerCall) :=
  match PState.new.look L m q 0 with
  | none => none
  | some s =>
    match execP L m q A prog n [] (prog r) s with
    | none => none
    | some (.ok f s) => some (f, s.calls)
    | some (.raised f s) =>
      match caughtP L m q A [] f s with
      | none => none
      | some s => some ([], s.calls)

end

/-! ### `QueryParser.parse` -/

/-- `Lexer.notifyListeners`: the message. -/
def LexReport.message (r : LexReport) : PyStr := py!"token recognition error at: '" ++ errorDisplay r.text ++ py!"'"

/-- `ErrorListener.syntaxError` (parser.py:956-993): the record it appends. -/
def ListenerCall.record (q : PyStr) : ListenerCall → ErrorDetail
  | .lexer r => { message := r.message, type := some py!"syntax-error", position := .offset r.column, fragment := none }
  | .parser t msg =>
    { message := msg, type := some py!"syntax-error",
      position := match locFromToken (t.tok q) with
        | some l => .loc l
        | none => .none
      fragment := some (slicePrefix q (t.start + (t.text q).length)) }

/-- A call by the parser; `Parser._syntaxErrors` counts them. -/
def ListenerCall.ofParser : ListenerCall → Bool
  | .lexer _ => false
  | .parser _ _ => true

/-- `QueryParser.parse` after `parser.query()` (parser.py:1731-1756): the outcome, and the new value of `self.errors`. -/
def parseOutcome (rt : PyRuntime) (cfg : Config) (q : PyStr) (f : List PTree) (calls : List ListenerCall) :
    Except ParserException Node × List ErrorDetail :=
  let errors := calls.map (ListenerCall.record q)
  if errors.isEmpty && (calls.filter ListenerCall.ofParser).length = 0 then (runBuilder rt cfg (.node .query f), errors)
  else
    let first := match errors with
      | e :: _ => e.message
      | [] => py!"?"
    (.error ⟨py!"unable to parse query: " ++ first⟩, errors)

/-- `QueryParser.parse` (parser.py:1700-1756): the outcome, and the new value of `self.errors`.  `L` and `A` are the networks
of lexer and parser. -/
def parseProgram (L A : Atn) (m n : Nat) (rt : PyRuntime) (cfg : Config) (q : PyStr) :
    Option (Except ParserException Node × List ErrorDetail) :=
  match callP L m q A code n .query with
  | none => none
  | some (f, calls) => some (parseOutcome rt cfg q f calls)

/-! ### `antlr_parse` -/

/-- `ConsoleErrorListener.syntaxError`: the line it prints to `sys.stderr`. -/
def consoleLine (line column : Nat) (msg : PyStr) : PyStr := py!"line " ++ decStr line ++ py!":" ++ decStr column ++ py!" " ++ msg

/-- The listeners of `antlr_parse` (__init__.py:47-51): the lexer has the console listener every recognizer starts with, the
parser has it and `ExceptionThrowingErrorListener`, which raises `SyntaxError` (__init__.py:29-31) and so ends the parse (no
rule function catches it).  Called as the listener was in a run that goes on: the lines printed, and the message of the
exception. -/
def antlrListeners : List ListenerCall → List PyStr × Option PyStr
  | [] => ([], none)
  | .lexer r :: cs => let o := antlrListeners cs; (consoleLine r.line r.column r.message :: o.1, o.2)
  | .parser t msg :: _ => ([consoleLine t.line t.column msg], some (syntaxErrorMsg t.line t.column msg))

/-- `antlr_parse` after `parser.query()` (__init__.py:52-53). -/
def antlrOutcome (f : List PTree) (calls : List ListenerCall) : List PyStr × Except PyStr PTree :=
  match antlrListeners calls with
  | (out, none) => (out, .ok (.node .query f))
  | (out, some e) => (out, .error e)

/-- `antlr_parse` (__init__.py:34-53): what it prints to `sys.stderr`, and the tree or the message of the `SyntaxError`. -/
def antlrProgram (L A : Atn) (m n : Nat) (q : PyStr) : Option (List PyStr × Except PyStr PTree) :=
  match callP L m q A code n .query with
  | none => none
  | some (f, calls) => some (antlrOutcome f calls)

end Fcsql
