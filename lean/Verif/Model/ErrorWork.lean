/-
What the generated functions do during a run in which syntax errors are recovered from, statement by statement.
-/
import Verif.Model.ErrorStrategy
import Verif.Model.Work

set_option autoImplicit false

namespace Fcsql

/-- A statement that is executed: the statement, the calling context and the tokens that are left. -/
structure Executed where
  stmt : Stmt
  ctx : List Nat
  rest : List Tok

/-- The statements after a statement; none if it raises. -/
def EStep.acts (step : EStep) (next : EState → List Executed) : List Executed :=
  match step with
  | .go s => next s
  | .stop _ _ => []

section
variable (A : Atn) (eof : Tok)

/-- The statements that are executed during a run of the generated functions (FCSParser.py:200-1900) with the error strategy,
in order; follows `execE` (Model/ErrorStrategy.lean) statement by statement. -/
def execActs (prog : Rule → List Stmt) : Nat → List Nat → List Stmt → EState → List Executed
  | 0, _, _, _ => []
  | _ + 1, _, [], _ => []
  | n + 1, ctx, c :: ss, s =>
    ⟨c, ctx, s.rest⟩ ::
    match c with
    | .sync st => (syncE A eof ctx (s.at st)).acts (execActs prog n ctx ss)
    | .matchTok st k => (matchE A eof ctx (fun j => j = k) (s.at st)).acts (execActs prog n ctx ss)
    | .matchSet st t => (matchE A eof ctx t.eval (s.at st)).acts (execActs prog n ctx ss)
    | .call st r =>
      execActs prog n (st :: ctx) (prog r) (s.at st) ++
      match execE A eof prog n (st :: ctx) (prog r) (s.at st) with
      | .ok s' => execActs prog n ctx ss (s'.at st)
      | .raised f s' => execActs prog n ctx ss ((caughtE A eof (st :: ctx) f s').at st)
      | .timeout _ => []
    | .predict d bs =>
      match A.simulator.predictor.predict d ctx s.rest with
      | none => []
      | some a => execActs prog n ctx (branch bs a ++ ss) (s.look (A.looksAt d ctx s.rest))
    | .switchLA cs =>
      match switchCase (la s.rest) cs with
      | none => []
      | some b => execActs prog n ctx (b ++ ss) s
    | .ifLA t b => execActs prog n ctx ((if t.eval (la s.rest) then b else []) ++ ss) s
    | .whileLA b st t => execActs prog n ctx (b ++ (.sync st :: .ifLA t [.whileLA b st t] :: ss)) s
    | .whilePredict b st d => execActs prog n ctx (b ++ (.sync st :: .loopPredict b st d :: ss)) s
    | .loopPredict b st d =>
      match A.simulator.predictor.predict d ctx s.rest with
      | none => []
      | some a =>
        if a = 2 ∨ a = 0 then execActs prog n ctx ss (s.look (A.looksAt d ctx s.rest))
        else if a = 1 then execActs prog n ctx (.whilePredict b st d :: ss) (s.look (A.looksAt d ctx s.rest))
        else []

/-- The statements during a call of the function of rule `r` (as `callE`). -/
def callActs (prog : Rule → List Stmt) (n : Nat) (r : Rule) (ts : List Tok) : List Executed :=
  execActs A eof prog n [] (prog r) (EState.new ts)

end

/-- The call of `adaptivePredict` a statement makes. -/
def Executed.asked (d : Executed) : Option Asked :=
  match d.stmt with
  | .predict k _ => some ⟨k, d.ctx, d.rest⟩
  | .loopPredict _ _ k => some ⟨k, d.ctx, d.rest⟩
  | _ => none

/-- The call of a rule function it makes. -/
def Executed.called (d : Executed) : Option Rule :=
  match d.stmt with
  | .call _ r => some r
  | _ => none

end Fcsql
