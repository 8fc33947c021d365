/-
How often the runtime's lexer looks at a character, which predictions the generated functions ask for, and how often those
look at a token.
-/
import Verif.Model.LexerSim
import Verif.Model.Adaptive

set_option autoImplicit false

namespace Fcsql

/-- The number of rounds of the loop of `LexerATNSimulator.execATN` (`lexExec`): one for each look at `InputStream.LA(1)`,
also for the last one, in which no configuration is left. -/
def lexExecRounds (A : Atn) (m : Nat) (q : PyStr) : Nat → List LConf → LexPos → Nat
  | 0, _, _ => 0
  | n + 1, cs, p =>
    match A.lexReach m cs (inputLA q p.index) with
    | none => 1
    | some [] => 1
    | some (c :: cs') =>
      let p' := if inputLA q p.index = -1 then p else p.consume q
      if (A.firstStop (c :: cs')).isSome && inputLA q p.index = -1 then 1
      else 1 + lexExecRounds A m q n (c :: cs') p'

/-- The rounds of `LexerATNSimulator.match` (`lexMatch`). -/
def lexMatchRounds (A : Atn) (m : Nat) (q : PyStr) (p : LexPos) : Nat :=
  match A.modes with
  | [] => 0
  | mode :: _ =>
    match A.lexStart m mode with
    | none => 0
    | some s0 => lexExecRounds A m q (q.length + 1) s0 p

/-- The rounds of `Lexer.nextToken` (`lexNextToken`): all calls of `match` until a token is handed out. -/
def lexNextRounds (A : Atn) (m : Nat) (q : PyStr) : Nat → LexObj → Nat
  | 0, _ => 0
  | n + 1, lx =>
    if lx.hitEOF then 0
    else
      lexMatchRounds A m q lx.pos +
      match lexMatch A m q lx.pos with
      | none => 0
      | some (.failed e) =>
        let p := if inputLA q e.index ≠ -1 then e.consume q else e
        lexNextRounds A m q n { pos := p, hitEOF := inputLA q p.index = -1 }
      | some (.accepted ttype set p) =>
        let type := match set with | some t => t | none => ttype
        let lx' : LexObj := { pos := p, hitEOF := inputLA q p.index = -1 }
        if type = lexSkip then lexNextRounds A m q n lx' else 0

/-- The rounds of `CommonTokenStream.fill` (`lexFill`). -/
def lexFillRounds (A : Atn) (m : Nat) (q : PyStr) : Nat → LexObj → Nat
  | 0, _ => 0
  | n + 1, lx =>
    lexNextRounds A m q (q.length + 1) lx +
    match lexNextToken A m q (q.length + 1) lx with
    | none => 0
    | some (_, t, lx') => if t.type = -1 then 0 else lexFillRounds A m q n lx'

/-- The rounds of a new lexer on a text (`FCSLexer(InputStream(q))`, __init__.py:47-48, parser.py:1716-1717), until its tokens
are used up. -/
def runLexerRounds (A : Atn) (m : Nat) (q : PyStr) : Nat :=
  lexFillRounds A m q (q.length + 1) { pos := { index := 0, line := 1, column := 0 }, hitEOF := false }

/-! ### Predictions -/

/-- A call of `adaptivePredict`: the decision, the calling context and the tokens that are left. -/
structure Asked where
  decision : Nat
  ctx : List Nat
  rest : List Tok

/-- The calls of `adaptivePredict` during a run of the generated functions (FCSParser.py:200-1900), in order; follows `exec`
(Model/GenParser.lean) statement by statement. -/
def execAsked (P : Predictor) (prog : Rule → List Stmt) : Nat → List Nat → List Stmt → List Tok → List Asked
  | 0, _, _, _ => []
  | _ + 1, _, [], _ => []
  | n + 1, ctx, s :: ss, ts =>
    match s with
    | .sync st => if P.sync st ctx ts then execAsked P prog n ctx ss ts else []
    | .matchTok _ k =>
      match ts with
      | [] => []
      | x :: xs => if x.type.num = k then execAsked P prog n ctx ss xs else []
    | .matchSet _ t =>
      match ts with
      | [] => []
      | x :: xs => if t.eval x.type.num then execAsked P prog n ctx ss xs else []
    | .call st r =>
      let d := execAsked P prog n (st :: ctx) (prog r) ts
      match exec P prog n (st :: ctx) (prog r) ts with
      | .ok _ ts' => d ++ execAsked P prog n ctx ss ts'
      | .error => d
      | .timeout => d
    | .predict d bs =>
      ⟨d, ctx, ts⟩ ::
      match P.predict d ctx ts with
      | none => []
      | some a => execAsked P prog n ctx (branch bs a ++ ss) ts
    | .switchLA cs =>
      match switchCase (la ts) cs with
      | none => []
      | some b => execAsked P prog n ctx (b ++ ss) ts
    | .ifLA t b => execAsked P prog n ctx ((if t.eval (la ts) then b else []) ++ ss) ts
    | .whileLA b st t => execAsked P prog n ctx (b ++ (.sync st :: .ifLA t [.whileLA b st t] :: ss)) ts
    | .whilePredict b st d => execAsked P prog n ctx (b ++ (.sync st :: .loopPredict b st d :: ss)) ts
    | .loopPredict b st d =>
      ⟨d, ctx, ts⟩ ::
      match P.predict d ctx ts with
      | none => []
      | some a =>
        if a = 2 ∨ a = 0 then execAsked P prog n ctx ss ts
        else if a = 1 then execAsked P prog n ctx (.whilePredict b st d :: ss) ts
        else []

/-- The rounds of the loop of `execATNWithFullContext` (`Atn.llLoop`): one for each look at `input.LA(1)`. -/
def Atn.llRounds (A : Atn) : AConfigSet → List Tok → Nat
  | _, [] => 0
  | S, x :: xs =>
    let reach := A.reachSet true S x.type.num
    if reach.isEmpty then 1
    else
      match reach.uniqueAlt with
      | some _ => 1
      | none =>
        match AConfigSet.resolves reach.conflictingAltSubsets with
        | some _ => 1
        | none => 1 + A.llRounds reach xs

/-- The rounds of the loop of `ParserATNSimulator.execATN` before the tokens `look`, and those of the second look with full
context, where it is needed; follows `walkDfa` (Model/Cache.lean), and it does not matter whether a state is in the cache. -/
def Atn.sllRounds (A : Atn) (d : Nat) (ctx : List Nat) (ts : List Tok) : List Tok → AConfigSet → Nat
  | [], _ => A.llRounds (A.startConfigs true d (A.returnStates ctx)) ts
  | x :: xs, S =>
    match A.sllVerdict (A.reachSet false S x.type.num) with
    | .full => 1 + A.llRounds (A.startConfigs true d (A.returnStates ctx)) ts
    | .more => 1 + A.sllRounds d ctx ts xs (A.reachSet false S x.type.num)
    | .fail => 1
    | .alt _ => 1

/-- The rounds of a call of `adaptivePredict`. -/
def Atn.rounds (A : Atn) (a : Asked) : Nat := A.sllRounds a.decision a.ctx a.rest a.rest (A.startConfigs false a.decision [])

end Fcsql
