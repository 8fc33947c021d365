/-
The error strategy of the runtime library, as a program: `antlr4.error.ErrorStrategy.DefaultErrorStrategy` (`self._errHandler`
in FCSParser.py, e.g. lines 230-252), the exceptions it reports, the texts of its messages, and how far the token stream has
been read when it reports them (which decides where the errors of the lexer appear among those of the parser, both being
sent to the same listener: parser.py:1716-1726).  The library is not in /repo (pyproject.toml: antlr4-python3-runtime >=
4.13.2); this is written after its published code.  The messages quoted in README.md:117 and
tests/validation/test_validation.py:57 come out (Props/Messages.lean).
-/
import Verif.Model.Adaptive
import Verif.Model.AntlrParse
import Verif.Model.ParserAtnData
import Verif.Model.QueryParser
import Verif.Model.Recovery

set_option autoImplicit false

namespace Fcsql

/-! ### Sets of token types -/

namespace Atn

/-- `atn.nextTokens(s)`: token types, and `none` for `Token.EPSILON`. -/
def nextTokens (A : Atn) (s : Nat) : List (Option (List (Int × Int))) := A.lookSet (A.states.length + 1) s [] []

/-- A token type is in such a set. -/
def hasTok (l : List (Option (List (Int × Int)))) (k : Int) : Bool := l.any fun
  | none => false
  | some l => l.any fun p => p.1 ≤ k && k ≤ p.2

/-- `Token.EPSILON in` such a set. -/
def hasEps (l : List (Option (List (Int × Int)))) : Bool := l.any fun
  | none => true
  | some _ => false

/-- `atn.states[i].transitions[0].followState` for an invoking state; the root has none. -/
def followState (A : Atn) (i : Nat) : Option Nat :=
  match A.out i with
  | .rule _ _ t :: _ => some t
  | _ => none

/-- `atn.getExpectedTokens(s, ctx)`: what may come next, also after the end of the rule. -/
def expectedTok (A : Atn) (k : Int) : Nat → List Nat → Bool
  | s, [] => hasTok (A.nextTokens s) k || (hasEps (A.nextTokens s) && k = -1)
  | s, i :: ctx => hasTok (A.nextTokens s) k || (hasEps (A.nextTokens s) &&
      match A.followState i with
      | some f => A.expectedTok k f ctx
      | none => false)

/-- `atn.nextTokens(s, ctx)`: the same by one search that knows the context; at its end `EOF` may come. -/
def nextInContext (A : Atn) (k : Int) (s : Nat) (ctx : List Nat) : Bool :=
  let l := A.lookSet ((A.states.length + 1) * (ctx.length + 1)) s (A.returnStates ctx) []
  hasTok l k || (hasEps l && k = -1)

/-- `getErrorRecoverySet`: what may follow any of the rules being executed. -/
def recoveryTok (A : Atn) (k : Int) (ctx : List Nat) : Bool := ctx.any fun i =>
  match A.followState i with
  | some f => hasTok (A.nextTokens f) k
  | none => false

/-- `atn.states[s].stateType`. -/
def stateType (A : Atn) (s : Nat) : Nat :=
  match A.states[s]? with
  | some st => st.type
  | none => 0

/-- `atn.states[s].transitions[0].target`. -/
def firstTarget (A : Atn) (s : Nat) : Nat :=
  match A.out s with
  | .eps t :: _ => t
  | .atom _ t :: _ => t
  | .set _ t :: _ => t
  | .notSet _ t :: _ => t
  | .rule start _ _ :: _ => start
  | .action _ t :: _ => t
  | [] => 0

/-- `execATNWithFullContext`: the last token it looks at, counted from the first. -/
def llLook (A : Atn) : AConfigSet → List Tok → Nat
  | _, [] => 0
  | S, x :: xs =>
    let reach := A.reachSet true S x.type.num
    if reach.isEmpty then 0
    else
      match reach.uniqueAlt with
      | some _ => 0
      | none =>
        match AConfigSet.resolves reach.conflictingAltSubsets with
        | some _ => 0
        | none => A.llLook reach xs + 1

/-- `execATN`: the last token it looks at. -/
def sllLook (A : Atn) (d : Nat) (ctx : List Nat) (ts : List Tok) : List Tok → AConfigSet → Nat → Nat
  | [], _, n => n
  | x :: xs, S, n =>
    let reach := A.reachSet false S x.type.num
    match A.sllVerdict reach with
    | .full => max n (A.llLook (A.startConfigs true d (A.returnStates ctx)) ts)
    | .more => A.sllLook d ctx ts xs reach (n + 1)
    | _ => n

/-- `adaptivePredict`: the last token it looks at, counted from the current one. -/
def looksAt (A : Atn) (d : Nat) (ctx : List Nat) (ts : List Tok) : Nat := A.sllLook d ctx ts ts (A.startConfigs false d []) 0

end Atn

/-! ### Texts -/

/-- `FCSParser.literalNames` (FCSParser.py:103-105). -/
def literalNames : List PyStr :=
  [py!"<INVALID>", py!"'('", py!"')'", py!"'['", py!"']'", py!"'|'", py!"'&'", py!"'!'", py!"'/'", py!"'{'", py!"'}'", py!"'+'",
   py!"'*'", py!"'?'", py!"','", py!"'='", py!"'!='", py!"':'", py!"'within'"]

/-- `FCSParser.symbolicNames` (FCSParser.py:107-113). -/
def symbolicNames : List PyStr :=
  [py!"<INVALID>", py!"L_PAREN", py!"R_PAREN", py!"L_SQUARE_BRACKET", py!"R_SQUARE_BRACKET", py!"OR", py!"AND", py!"NOT",
   py!"FWD_SLASH", py!"L_CURLY_BRACKET", py!"R_CURLY_BRACKET", py!"Q_ONE_OR_MORE", py!"Q_ZERO_OR_MORE", py!"Q_ZERO_OR_ONE",
   py!"Q_COMMA", py!"OPERATOR_EQ", py!"OPERATOR_NE", py!"COLON", py!"WITHIN", py!"SIMPLE_WITHIN_SCOPE", py!"REGEXP_FLAGS",
   py!"IDENTIFIER", py!"INTEGER", py!"REGEXP", py!"QUOTED_STRING", py!"Space"]

/-- `IntervalSet.elementName` (`Token.EPSILON` is removed before). -/
def elementName (k : Int) : PyStr :=
  if k = -1 then py!"<EOF>"
  else
    match literalNames[k.toNat]? with
    | some s => if s = py!"<INVALID>" then symbolicNames.getD k.toNat py!"<UNKNOWN>" else s
    | none => symbolicNames.getD k.toNat py!"<UNKNOWN>"

/-- The token types, in order: `EOF`, and 1 to 25 (FCSParser.py:164-189). -/
def typeNumbers : List Int := -1 :: (List.range 25).map fun (i : Nat) => ((i : Int) + 1)

/-- `IntervalSet.toString`: the elements in order; braces if there is more than one. -/
def showSet (has : Int → Bool) : PyStr :=
  match (typeNumbers.filter has).map elementName with
  | [] => py!"{}"
  | [s] => s
  | l => py!"{" ++ joinStr py!", " l ++ py!"}"

/-- `escapeWSAndQuote`. -/
def escapeWSAndQuote (s : PyStr) : PyStr := py!"'" ++ errorDisplay s ++ py!"'"

/-- `getTokenErrorDisplay`. -/
def tokenDisplay (t : Tok) : PyStr := escapeWSAndQuote t.text

/-- `tokens.getText(start, stop)` from the first of these tokens to the one after `k` others: up to `EOF`. -/
def textUpTo : Nat → List Tok → PyStr
  | _, [] => []
  | 0, x :: _ => if x.type = .EOF then [] else x.text
  | k + 1, x :: xs => if x.type = .EOF then [] else x.text ++ textUpTo k xs

/-! ### State -/

/-- A call of `notifyErrorListeners`: offending token and message; and how many tokens (with `EOF`) have not been read from
the lexer by then. -/
structure Report where
  token : Tok
  message : PyStr
  unread : Nat
  deriving DecidableEq, Repr

/-- What the strategy did about an unexpected token.  Not in the program; kept for the proofs. -/
inductive Choice
  | sync (a : SyncAct)
  | inline (a : InlineAct)
  | skipped (k : Nat)
  deriving DecidableEq, Repr

/-- The parser and its strategy: the tokens from the current one on; how many tokens have not been read from the lexer;
`recognizer.state`; `errorRecoveryMode`; `lastErrorIndex` (given by the number of tokens from there on) and
`lastErrorStates`; the errors reported so far. -/
structure EState where
  rest : List Tok
  unread : Nat
  state : Nat
  recovering : Bool
  lastIndex : Option Nat
  lastStates : List Nat
  reports : List Report
  log : List Choice
  deriving DecidableEq, Repr

/-- `LA(k + 1)`: tokens are read from the lexer when they are asked for. -/
def EState.look (k : Nat) (s : EState) : EState := { s with unread := min s.unread (s.rest.length - 1 - k) }

/-- `Parser.consume`, several times (it does not move past `EOF`); the new current token is read. -/
def EState.skip (k : Nat) (s : EState) : EState := { s with rest := skipTo k s.rest }.look 0

/-- `beginErrorCondition` and `notifyErrorListeners`; nothing in error recovery mode. -/
def EState.report (t : Tok) (msg : PyStr) (s : EState) : EState :=
  if s.recovering then s else { s with recovering := true, reports := s.reports ++ [⟨t, msg, s.unread⟩] }

/-- `endErrorCondition` (called by `reportMatch`). -/
def EState.endError (s : EState) : EState := { s with recovering := false, lastIndex := none, lastStates := [] }

/-- `self.match` on success: `reportMatch` and `consume`.  Simplified: `EOF` is consumed too (nothing is read after it). -/
def EState.matched (xs : List Tok) (s : EState) : EState := { s with rest := xs }.endError.look 0

/-- A note for the proofs. -/
def EState.note (d : Choice) (s : EState) : EState := { s with log := s.log ++ [d] }

/-- `getCurrentToken()`. -/
def EState.current (eof : Tok) (s : EState) : Tok := s.rest.headD eof

/-- `LA(2)`; at `EOF` it is `EOF` again. -/
def la2 : List Tok → Int
  | _ :: y :: _ => y.type.num
  | ts => la ts

/-- `NoViableAltException` with the offending token counted from the current one, and `InputMismatchException`. -/
inductive Failure
  | noViable (k : Nat)
  | mismatch
  deriving DecidableEq, Repr

/-- A statement goes on, or raises. -/
inductive EStep
  | go (s : EState)
  | stop (f : Failure) (s : EState)

section
variable (A : Atn) (eof : Tok)

/-- `reportUnwantedToken`. -/
def reportUnwanted (ctx : List Nat) (s : EState) : EState :=
  s.report (s.current eof) (py!"extraneous input " ++ tokenDisplay (s.current eof) ++ py!" expecting " ++
    showSet fun k => A.expectedTok k s.state ctx)

/-- `reportMissingToken`. -/
def reportMissing (ctx : List Nat) (s : EState) : EState :=
  s.report (s.current eof) (py!"missing " ++ (showSet fun k => A.expectedTok k s.state ctx) ++ py!" at " ++
    tokenDisplay (s.current eof))

/-- `reportError`: `reportNoViableAlternative` (which reads all tokens, for `getText`), `reportInputMismatch`. -/
def reportFailure (ctx : List Nat) (f : Failure) (s : EState) : EState :=
  if s.recovering then s
  else
    match f with
    | .noViable k =>
      EState.report ((skipTo k s.rest).headD eof)
        (py!"no viable alternative at input " ++ escapeWSAndQuote
          (if (s.current eof).type = .EOF then py!"<EOF>" else textUpTo k s.rest)) { s with unread := 0 }
    | .mismatch =>
      s.report (s.current eof) (py!"mismatched input " ++ tokenDisplay (s.current eof) ++ py!" expecting " ++
        showSet fun k => A.expectedTok k s.state ctx)

/-- `consumeUntil`: how many tokens. -/
def untilTok (set : Int → Bool) (ts : List Tok) : Nat := (ts.takeWhile fun x => x.type ≠ .EOF && !set x.type.num).length

/-- `recover`. -/
def recover (ctx : List Nat) (s : EState) : EState :=
  let k := if s.lastIndex = some s.rest.length ∧ s.state ∈ s.lastStates then 1 else 0
  let s1 := s.skip k
  let s2 := { s1 with lastIndex := some s1.rest.length, lastStates := s1.lastStates ++ [s1.state] }
  let j := untilTok (fun t => A.recoveryTok t ctx) s2.rest
  (s2.skip j).note (.skipped (k + j))

/-- `singleTokenDeletion` succeeds. -/
def canDelete (ctx : List Nat) (s : EState) : Bool := A.expectedTok (la2 s.rest) s.state ctx

/-- `singleTokenInsertion` succeeds. -/
def canInsert (ctx : List Nat) (s : EState) : Bool := A.nextInContext (la s.rest) (A.firstTarget s.state) ctx

/-- `sync` with the current state.  For other types of states (there are none in the generated code) it does nothing. -/
def syncE (ctx : List Nat) (s : EState) : EStep :=
  if s.recovering then .go s
  else
    let next := A.nextTokens s.state
    if Atn.hasTok next (la s.rest) || Atn.hasEps next then .go s
    else if A.stateType s.state ∈ [3, 5, 4, 10] then
      let s := s.look 1
      if canDelete A ctx s then .go (((reportUnwanted A eof ctx s).skip 1).endError.note (.sync .delete))
      else .stop .mismatch (s.note (.sync .raise))
    else if A.stateType s.state ∈ [11, 9] then
      let s' := reportUnwanted A eof ctx s
      let j := untilTok (fun t => A.expectedTok t s'.state ctx || A.recoveryTok t ctx) s'.rest
      .go ((s'.skip j).note (.sync (.skip j)))
    else .go s

/-- `recoverInline`. -/
def inlineE (ctx : List Nat) (s : EState) : EStep :=
  let s := s.look 1
  if canDelete A ctx s then .go ((((reportUnwanted A eof ctx s).skip 1).matched (s.rest.drop 2)).note (.inline .delete))
  else if canInsert A ctx s then .go ((reportMissing A eof ctx s).note (.inline .insert))
  else .stop .mismatch (s.note (.inline .raise))

/-- `self.match(k)`, or the test of a token set. -/
def matchE (ctx : List Nat) (ok : Int → Bool) (s : EState) : EStep :=
  match s.rest with
  | [] => inlineE A eof ctx s
  | x :: xs => if ok x.type.num then .go (s.matched xs) else inlineE A eof ctx s

/-- `except RecognitionException as re`: `reportError`, `recover`. -/
def caughtE (ctx : List Nat) (f : Failure) (s : EState) : EState := recover A ctx (reportFailure A eof ctx f s)

/-- How statements end (as `ROut`; the tree is left out: it is discarded when an error was reported, parser.py:1731-1740). -/
inductive EOut
  | ok (s : EState)
  | raised (f : Failure) (s : EState)
  | timeout (s : EState)

/-- The statements after a statement. -/
def EStep.andThen (step : EStep) (next : EState → EOut) : EOut :=
  match step with
  | .go s => next s
  | .stop f s => .raised f s

/-- `self.state = st`. -/
def EState.at (st : Nat) (s : EState) : EState := { s with state := st }

/-- Run statements in a context, as `exec` (Model/GenParser.lean), with the error strategy. -/
def execE (prog : Rule → List Stmt) : Nat → List Nat → List Stmt → EState → EOut
  | 0, _, _, s => .timeout s
  | _ + 1, _, [], s => .ok s
  | n + 1, ctx, c :: ss, s =>
    match c with
    | .sync st => (syncE A eof ctx (s.at st)).andThen (execE prog n ctx ss)
    | .matchTok st k => (matchE A eof ctx (fun j => j = k) (s.at st)).andThen (execE prog n ctx ss)
    | .matchSet st t => (matchE A eof ctx t.eval (s.at st)).andThen (execE prog n ctx ss)
    | .call st r =>
      match execE prog n (st :: ctx) (prog r) (s.at st) with
      | .ok s' => execE prog n ctx ss (s'.at st)
      | .raised f s' => execE prog n ctx ss ((caughtE A eof (st :: ctx) f s').at st)
      | .timeout s' => .timeout s'
    | .predict d bs =>
      match A.simulator.predictor.predict d ctx s.rest with
      | none => .raised (.noViable (A.offending d ctx s.rest)) (s.look (A.looksAt d ctx s.rest))
      | some a => execE prog n ctx (branch bs a ++ ss) (s.look (A.looksAt d ctx s.rest))
    | .switchLA cs =>
      match switchCase (la s.rest) cs with
      | none => .raised (.noViable 0) s
      | some b => execE prog n ctx (b ++ ss) s
    | .ifLA t b => execE prog n ctx ((if t.eval (la s.rest) then b else []) ++ ss) s
    | .whileLA b st t => execE prog n ctx (b ++ (.sync st :: .ifLA t [.whileLA b st t] :: ss)) s
    | .whilePredict b st d => execE prog n ctx (b ++ (.sync st :: .loopPredict b st d :: ss)) s
    | .loopPredict b st d =>
      match A.simulator.predictor.predict d ctx s.rest with
      | none => .raised (.noViable (A.offending d ctx s.rest)) (s.look (A.looksAt d ctx s.rest))
      | some a =>
        if a = 2 ∨ a = 0 then execE prog n ctx ss (s.look (A.looksAt d ctx s.rest))
        else if a = 1 then execE prog n ctx (.whilePredict b st d :: ss) (s.look (A.looksAt d ctx s.rest))
        else .raised (.noViable 0) (s.look (A.looksAt d ctx s.rest))

/-- A new parser on a token stream, after `enterRule` has looked at the first token. -/
def EState.new (ts : List Tok) : EState :=
  { rest := ts, unread := ts.length - 1, state := 0, recovering := false, lastIndex := none, lastStates := [], reports := [], log := [] }

/-- A call of the function of rule `r`: the errors reported, and the number of tokens never read. -/
def callE (prog : Rule → List Stmt) (n : Nat) (r : Rule) (ts : List Tok) : Option (List Report × Nat) :=
  match execE A eof prog n [] (prog r) (EState.new ts) with
  | .ok s => some (s.reports, s.unread)
  | .raised f s => some ((caughtE A eof [] f s).reports, (caughtE A eof [] f s).unread)
  | .timeout _ => none

end

/-! ### The listener -/

/-- The errors of the lexer by the time all but the last `k` tokens (with `EOF`) were read. -/
def lexErrorsBy (q : PyStr) (k : Nat) : List Piece :=
  let rec go : Nat → List Piece → List Piece
    | _, [] => []
    | 0, _ => []
    | n + 1, p :: ps =>
      match p.kind with
      | .err => p :: go (n + 1) ps
      | .skip => go (n + 1) ps
      | .tok _ => go n ps
  go ((tokenStream q).length - k) (lexPieces q)

/-- What `ErrorListener.syntaxError` (parser.py:956-993) is called with, in order: a parser error comes after the errors of
the lexer found by then; the number of lexer errors recorded so far is given. -/
def listenerErrors (q : PyStr) : Nat → List Report → Nat → List RawErr
  | done, [], k => ((lexErrorsBy q k).drop done).map .lexer
  | done, r :: rs, k =>
    ((lexErrorsBy q r.unread).drop done).map .lexer ++ .parser r.token r.message ::
      listenerErrors q (max done (lexErrorsBy q r.unread).length) rs k

/-! ### `antlr_parse` -/

/-- `antlr_parse` (__init__.py:34-53), with at most `n` steps of the generated parser: the message of the `SyntaxError` it
raises at the first report of the parser, or nothing if there is none (then it returns the tree: Model/AntlrParse.lean). -/
def antlrSyntaxError (n : Nat) (q : PyStr) : Option (Option PyStr) :=
  match callE parserAtn (eofTok q) code n .query (tokenStream q) with
  | none => none
  | some ([], _) => some none
  | some (r :: _, _) => some (some (syntaxErrorMsg (placeOf q r.token).1 (placeOf q r.token).2 r.message))

end Fcsql
