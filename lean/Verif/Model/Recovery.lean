/-
The generated rule functions on arbitrary (also malformed) input: with the `try`/`except RecognitionException` of every
rule function (e.g. FCSParser.py:222-252) and the calls of the error strategy (`self._errHandler`: `sync`, `recoverInline`,
`reportMatch`, `reportError`, `recover`).

`antlr4.error.DefaultErrorStrategy` is part of the runtime library, not of /repo.  What is modelled of it: the
error-recovery mode (while it is on, `sync` does nothing and errors are not reported; a report switches it on, a matched
token switches it off); that an unexpected token is either deleted, or a missing one imagined, or an exception is raised;
that an exception is caught by the rule function, which reports it, lets the strategy skip tokens, and returns to its
caller as usual; that `EOF` is never skipped; and the failsafe of `recover` (a recovery at the same token in a state seen
before skips at least one token, so only so many recoveries in a row skip nothing).  Which of these is chosen, and how
many tokens are skipped, is left completely open (it may depend on anything, including all that happened before).
-/
import Verif.Model.GenParser

set_option autoImplicit false

namespace Fcsql

/-- What `sync` does about a token that is not expected: delete it, skip tokens, or raise. -/
inductive SyncAct
  | delete
  | skip (k : Nat)
  | raise
  deriving DecidableEq, Repr

/-- What `recoverInline` does when a token does not match: delete it (the next one matches), imagine the missing one, or
raise. -/
inductive InlineAct
  | delete
  | insert
  | raise
  deriving DecidableEq, Repr

/-- The runtime library: its predictor, and the choices of its error strategy, which has a memory of type `σ`. -/
structure Strategy (σ : Type) extends Predictor where
  onSync : σ → Nat → List Nat → List Tok → SyncAct × σ
  onMismatch : σ → Nat → List Nat → List Tok → InlineAct × σ
  /-- when prediction fails: the offending token, counted from the current one -/
  onNoViable : σ → Nat → List Nat → List Tok → Nat × σ
  /-- how many tokens `recover` skips -/
  onRecover : σ → List Nat → List Tok → Nat × σ
  /-- how often in a row `recover` may skip nothing (`lastErrorIndex`, `lastErrorStates`: at most once for every state of
  the network) -/
  patience : Nat

/-- The state of the parser: remaining tokens, `inErrorRecoveryMode`, the offending tokens of the errors reported so far
(calls of `notifyErrorListeners`), how often `recover` was called since tokens were last consumed, and the memory of the
strategy. -/
structure RState (σ : Type) where
  rest : List Tok
  stuck : Nat
  recovering : Bool
  reports : List Tok
  mem : σ

/-- Skip tokens; `Parser.consume` does not move past the last one (`EOF`). -/
def skipTo (k : Nat) (ts : List Tok) : List Tok := ts.drop (min k (ts.length - 1))

section
variable {σ : Type}

/-- Move to the tokens `ts`. -/
def RState.to (s : RState σ) (ts : List Tok) : RState σ :=
  { s with rest := ts, stuck := if ts.length < s.rest.length then 0 else s.stuck }

/-- `reportError`, `reportUnwantedToken`, `reportMissingToken`: nothing in error-recovery mode, else one report about the
`k`-th token from here, and the mode is on.  After the last token, the current token is `EOF` again. -/
def reportAt (eof : Tok) (k : Nat) (s : RState σ) : RState σ :=
  if s.recovering then s
  else { s with recovering := true, reports := s.reports ++ [(skipTo k s.rest).headD eof] }

/-- A statement either goes on, with children for the current context, or raises, with the offending token counted from
the current one. -/
inductive Step (σ : Type)
  | go (forest : List PTree) (s : RState σ)
  | stop (k : Nat) (s : RState σ)

/-- `self._errHandler.sync(self)` in state `st`. -/
def syncStep (S : Strategy σ) (eof : Tok) (st : Nat) (ctx : List Nat) (s : RState σ) : Step σ :=
  if s.recovering || S.sync st ctx s.rest then .go [] s
  else
    match S.onSync s.mem st ctx s.rest, s.rest with
    | (.delete, m), _ :: y :: ts => .go [] { (reportAt eof 0 s).to (y :: ts) with recovering := false, mem := m }
    | (.delete, m), _ => .stop 0 { s with mem := m }
    | (.skip k, m), ts => .go [] { (reportAt eof 0 s).to (skipTo k ts) with mem := m }
    | (.raise, m), _ => .stop 0 { s with mem := m }

/-- `self._errHandler.recoverInline(self)` in state `st`; `ok` says which token types match there.  A token is deleted only
if the one after it matches (`singleTokenDeletion`). -/
def inlineStep (S : Strategy σ) (eof : Tok) (st : Nat) (ctx : List Nat) (ok : Int → Bool) (s : RState σ) : Step σ :=
  match S.onMismatch s.mem st ctx s.rest, s.rest with
  | (.delete, m), _ :: y :: ts =>
    if ok y.type.num then .go [.leaf y] { (reportAt eof 0 s).to ts with recovering := false, mem := m }
    else .stop 0 { s with mem := m }
  | (.delete, m), _ => .stop 0 { s with mem := m }
  | (.insert, m), _ => .go [] { reportAt eof 0 s with mem := m }
  | (.raise, m), _ => .stop 0 { s with mem := m }

/-- `self.match(k)`, or the test of a token set with `reportMatch` and `consume`; `ok` says which token types match. -/
def matchStep (S : Strategy σ) (eof : Tok) (st : Nat) (ctx : List Nat) (ok : Int → Bool) (s : RState σ) : Step σ :=
  match s.rest with
  | [] => inlineStep S eof st ctx ok s
  | x :: xs => if ok x.type.num then .go [.leaf x] { s.to xs with recovering := false } else inlineStep S eof st ctx ok s

/-- The end of a rule function after an exception: `self._errHandler.reportError(self, re)`,
`self._errHandler.recover(self, re)`. -/
def caught (S : Strategy σ) (eof : Tok) (ctx : List Nat) (k : Nat) (s : RState σ) : RState σ :=
  let s1 := reportAt eof k s
  let r := S.onRecover s1.mem ctx s1.rest
  let j := if S.patience ≤ s1.stuck then max 1 r.1 else r.1
  RState.to { s1 with stuck := s1.stuck + 1, mem := r.2 } (skipTo j s1.rest)

/-- How statements end: normally, by an exception, or the bound on the number of steps was hit.  Simplified: the children
of a context whose function caught an exception, and error nodes, are left out (the tree is discarded when an error was
reported, parser.py:1731-1740). -/
inductive ROut (σ : Type)
  | ok (forest : List PTree) (s : RState σ)
  | raised (k : Nat) (s : RState σ)
  | timeout

/-- Children added before those of a result. -/
def ROut.prepend (f : List PTree) : ROut σ → ROut σ
  | .ok f' s => .ok (f ++ f') s
  | .raised k s => .raised k s
  | .timeout => .timeout

/-- The statements after a statement. -/
def Step.andThen (step : Step σ) (next : RState σ → ROut σ) : ROut σ :=
  match step with
  | .go f s => (next s).prepend f
  | .stop k s => .raised k s

/-- Run statements in a context, as `exec` (Model/GenParser.lean), with error recovery. -/
def execR (S : Strategy σ) (eof : Tok) (prog : Rule → List Stmt) : Nat → List Nat → List Stmt → RState σ → ROut σ
  | 0, _, _, _ => .timeout
  | _ + 1, _, [], s => .ok [] s
  | n + 1, ctx, c :: ss, s =>
    match c with
    | .sync st => (syncStep S eof st ctx s).andThen (execR S eof prog n ctx ss)
    | .matchTok st k => (matchStep S eof st ctx (fun j => j = k) s).andThen (execR S eof prog n ctx ss)
    | .matchSet st t => (matchStep S eof st ctx t.eval s).andThen (execR S eof prog n ctx ss)
    | .call st r =>
      match execR S eof prog n (st :: ctx) (prog r) s with
      | .ok f s' => (execR S eof prog n ctx ss s').prepend [.node r f]
      | .raised k s' => (execR S eof prog n ctx ss (caught S eof (st :: ctx) k s')).prepend [.node r []]
      | .timeout => .timeout
    | .predict d bs =>
      match S.predict d ctx s.rest with
      | none => .raised (S.onNoViable s.mem d ctx s.rest).1 { s with mem := (S.onNoViable s.mem d ctx s.rest).2 }
      | some a => execR S eof prog n ctx (branch bs a ++ ss) s
    | .switchLA cs =>
      match switchCase (la s.rest) cs with
      | none => .raised 0 s
      | some b => execR S eof prog n ctx (b ++ ss) s
    | .ifLA t b => execR S eof prog n ctx ((if t.eval (la s.rest) then b else []) ++ ss) s
    | .whileLA b st t => execR S eof prog n ctx (b ++ (.sync st :: .ifLA t [.whileLA b st t] :: ss)) s
    | .whilePredict b st d => execR S eof prog n ctx (b ++ (.sync st :: .loopPredict b st d :: ss)) s
    | .loopPredict b st d =>
      match S.predict d ctx s.rest with
      | none => .raised (S.onNoViable s.mem d ctx s.rest).1 { s with mem := (S.onNoViable s.mem d ctx s.rest).2 }
      | some a =>
        if a = 2 ∨ a = 0 then execR S eof prog n ctx ss s
        else if a = 1 then execR S eof prog n ctx (.whilePredict b st d :: ss) s
        else .raised 0 s

/-- A call of the function of rule `r` (which catches exceptions) on the tokens `ts`, with at most `n` steps: the children
of its context, and the offending tokens of the errors reported. -/
def callR (S : Strategy σ) (m : σ) (eof : Tok) (prog : Rule → List Stmt) (n : Nat) (r : Rule) (ts : List Tok) :
    Option (List PTree × List Tok) :=
  match execR S eof prog n [] (prog r) { rest := ts, stuck := 0, recovering := false, reports := [], mem := m } with
  | .ok f s => some (f, s.reports)
  | .raised k s => some ([], (caught S eof [] k s).reports)
  | .timeout => none

end

end Fcsql
