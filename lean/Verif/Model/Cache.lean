/-
The state shared by all parsers of a process: `FCSParser.decisionsToDFA` (FCSParser.py:99, 176) and
`FCSLexer.decisionsToDFA` (FCSLexer.py:109, 167) are class attributes in which the simulators of the runtime library
store what they have computed, and look it up later, whichever query, parser object or thread it was computed for.

`ParserATNSimulator.adaptivePredict` (runtime library): the network is simulated on the next tokens without calling
context; every set of configurations is a `DFAState`, every step an edge of a `DFA`, and both are stored.  A state may say
that one alternative is left, that none is left, or that alternatives are in conflict; in the last case the simulation is
repeated with the calling context, which stores nothing.  The simulations themselves are parameters here (`Simulator`).

Not modelled: `sharedContextCache` (FCSParser.py:101), which only makes equal contexts identical objects.
-/
import Verif.Model.GenParser
import Verif.Model.ParserCode
import Verif.Model.QueryParser

set_option autoImplicit false

namespace Fcsql

/-- Stored results of a function. -/
abbrev Memo (α β : Type) := List (α × β)

/-- What a `DFAState` says: go on, `prediction`, `requiresFullContext`, or it is `ATNSimulator.ERROR`. -/
inductive Verdict
  | more
  | alt (i : Nat)
  | full
  | fail
  deriving DecidableEq, Repr

/-- The computing parts of the runtime's prediction; `τ` are the sets of configurations. -/
structure Simulator (τ : Type) where
  /-- `computeStartState`, without context -/
  start : Nat → τ
  /-- `computeTargetState`, without context -/
  target : τ → Int → τ
  /-- the fields of the `DFAState`, set by `computeTargetState` -/
  verdict : τ → Verdict
  /-- `getSynValidOrSemInvalidAltThatFinishedDecisionEntryRule`: what is answered when the next token leads nowhere -/
  finished : τ → List Nat → Option Nat
  /-- `execATNWithFullContext` -/
  fullContext : Nat → List Nat → List Tok → Option Nat
  /-- `DefaultErrorStrategy.sync` passes -/
  sync : Nat → List Nat → List Tok → Bool

/-- What is stored for decision `d`: the start state (`dfa.s0`), and the target of an edge. -/
def Simulator.stored {τ : Type} (sim : Simulator τ) : Nat × Option (τ × Int) → τ
  | (d, none) => sim.start d
  | (_, some (s, k)) => sim.target s k

/-- One step of the lexer's simulation (`LexerATNSimulator.computeTargetState`), as in `scan` (Model/Lexer.lean). -/
def lexTarget : List (TokType × Rx) × Nat → List (TokType × Rx)
  | (rs, c) => (rs.map fun p => (p.1, p.2.deriv c)).filter fun p => !p.2.isVoid

/-- The shared state, and how often it was accessed. -/
structure Caches (τ : Type) where
  dfas : Memo (Nat × Option (τ × Int)) τ
  lexDfa : Memo (List (TokType × Rx) × Nat) (List (TokType × Rx))
  clock : Nat

/-- Nothing is stored when the modules are loaded. -/
def Caches.empty (τ : Type) : Caches τ := { dfas := [], lexDfa := [], clock := 0 }

/-- What other threads do to the shared state between two steps that touch it. -/
abbrev Others (τ : Type) := Nat → Caches τ → Caches τ

/-- One of the stored things: an edge or start state of the parser, or an edge of the lexer. -/
inductive Entry (τ : Type)
  | parser (a : Nat × Option (τ × Int))
  | lexer (a : List (TokType × Rx) × Nat)

/-- Store the computed value. -/
def Entry.store {τ : Type} (sim : Simulator τ) : Entry τ → Caches τ → Caches τ
  | .parser a, c => { c with dfas := (a, sim.stored a) :: c.dfas }
  | .lexer a, c => { c with lexDfa := (a, lexTarget a) :: c.lexDfa }

/-- The other threads are parsing queries too: in between they have stored some more entries. -/
def othersStore {τ : Type} (sim : Simulator τ) (schedule : Nat → List (Entry τ)) : Others τ :=
  fun n c => (schedule n).foldl (fun c e => e.store sim c) c

section
variable {τ : Type} [DecidableEq τ]

/-- Look up in the parser's DFAs; if nothing is there, compute and store.  Other threads may act before the look-up and
between the look-up and the store. -/
def getDfa (sim : Simulator τ) (env : Others τ) (a : Nat × Option (τ × Int)) (c : Caches τ) : τ × Caches τ :=
  let c := { env c.clock c with clock := c.clock + 1 }
  match c.dfas.find? fun p => p.1 = a with
  | some p => (p.2, c)
  | none =>
    let c := { env c.clock c with clock := c.clock + 1 }
    (sim.stored a, { c with dfas := (a, sim.stored a) :: c.dfas })

/-- The same for the lexer's DFA; edges are only stored for characters up to `MAX_DFA_EDGE` (127). -/
def getLexDfa (env : Others τ) (a : List (TokType × Rx) × Nat) (c : Caches τ) : List (TokType × Rx) × Caches τ :=
  let c := { env c.clock c with clock := c.clock + 1 }
  if a.2 ≤ 127 then
    match c.lexDfa.find? fun p => p.1 = a with
    | some p => (p.2, c)
    | none =>
      let c := { env c.clock c with clock := c.clock + 1 }
      (lexTarget a, { c with lexDfa := (a, lexTarget a) :: c.lexDfa })
  else (lexTarget a, c)

/-- The loop of `execATN`: in state `s`, before the tokens `look`; `ts` are all tokens from the decision on.
Simplified: if there is still no verdict after `EOF`, the context is used (in the runtime there always is one). -/
def walkDfa (sim : Simulator τ) (env : Others τ) (d : Nat) (ctx : List Nat) (ts : List Tok) :
    List Tok → τ → Caches τ → Option Nat × Caches τ
  | [], _, c => (sim.fullContext d ctx ts, c)
  | x :: xs, s, c =>
    let r := getDfa sim env (d, some (s, x.type.num)) c
    match sim.verdict r.1 with
    | .alt i => (some i, r.2)
    | .fail => (sim.finished s ctx, r.2)
    | .full => (sim.fullContext d ctx ts, r.2)
    | .more => walkDfa sim env d ctx ts xs r.1 r.2

/-- `adaptivePredict`. -/
def predictC (sim : Simulator τ) (env : Others τ) (d : Nat) (ctx : List Nat) (ts : List Tok) (c : Caches τ) : Option Nat × Caches τ :=
  let r := getDfa sim env (d, none) c
  walkDfa sim env d ctx ts ts r.1 r.2

/-- The generated functions, as `exec` (Model/GenParser.lean), with the shared state. -/
def execC (sim : Simulator τ) (env : Others τ) (prog : Rule → List Stmt) : Nat → List Nat → List Stmt → List Tok → Caches τ →
    Res × Caches τ
  | 0, _, _, _, c => (.timeout, c)
  | _ + 1, _, [], ts, c => (.ok [] ts, c)
  | n + 1, ctx, s :: ss, ts, c =>
    match s with
    | .sync st => if sim.sync st ctx ts then execC sim env prog n ctx ss ts c else (.error, c)
    | .matchTok _ k =>
      match ts with
      | [] => (.error, c)
      | x :: xs =>
        if x.type.num = k then let r := execC sim env prog n ctx ss xs c; (r.1.prepend [.leaf x], r.2) else (.error, c)
    | .matchSet _ t =>
      match ts with
      | [] => (.error, c)
      | x :: xs =>
        if t.eval x.type.num then let r := execC sim env prog n ctx ss xs c; (r.1.prepend [.leaf x], r.2) else (.error, c)
    | .call st r =>
      match execC sim env prog n (st :: ctx) (prog r) ts c with
      | (.ok f ts', c) => let r' := execC sim env prog n ctx ss ts' c; (r'.1.prepend [.node r f], r'.2)
      | (.error, c) => (.error, c)
      | (.timeout, c) => (.timeout, c)
    | .predict d bs =>
      match predictC sim env d ctx ts c with
      | (none, c) => (.error, c)
      | (some a, c) => execC sim env prog n ctx (branch bs a ++ ss) ts c
    | .switchLA cs =>
      match switchCase (la ts) cs with
      | none => (.error, c)
      | some b => execC sim env prog n ctx (b ++ ss) ts c
    | .ifLA t b => execC sim env prog n ctx ((if t.eval (la ts) then b else []) ++ ss) ts c
    | .whileLA b st t => execC sim env prog n ctx (b ++ (.sync st :: .ifLA t [.whileLA b st t] :: ss)) ts c
    | .whilePredict b st d => execC sim env prog n ctx (b ++ (.sync st :: .loopPredict b st d :: ss)) ts c
    | .loopPredict b st d =>
      match predictC sim env d ctx ts c with
      | (none, c) => (.error, c)
      | (some a, c) =>
        if a = 2 ∨ a = 0 then execC sim env prog n ctx ss ts c
        else if a = 1 then execC sim env prog n ctx (.whilePredict b st d :: ss) ts c
        else (.error, c)

/-- `LexerATNSimulator.execATN`, as `scan` (Model/Lexer.lean), with the shared state. -/
def scanC (env : Others τ) : List (TokType × Rx) → Nat → Option (TokType × Nat) → PyStr → Caches τ → Scan × Caches τ
  | _, n, best, [], c => ({ best, consumed := n }, c)
  | rs, n, best, ch :: cs, c =>
    let r := getLexDfa env (rs, ch) c
    if r.1.isEmpty then ({ best, consumed := n }, r.2)
    else scanC env r.1 (n + 1) (updateBest best (firstAccept r.1) (n + 1)) cs r.2

/-- As `nextPiece`. -/
def nextPieceC (env : Others τ) (cs : PyStr) (c : Caches τ) : (PieceKind × Nat) × Caches τ :=
  let r := scanC env lexRules 0 none cs c
  match r.1.best with
  | some (t, n) => ((if t = TokType.Space then .skip else .tok t, n), r.2)
  | none => ((.err, min (r.1.consumed + 1) cs.length), r.2)

/-- As `lexLoop`. -/
def lexLoopC (env : Others τ) : Nat → PyStr → Nat → Nat → Caches τ → List Piece × Caches τ
  | 0, _, _, _, c => ([], c)
  | _ + 1, [], _, _, c => ([], c)
  | fuel + 1, ch :: cs, pos, col, c =>
    let r := nextPieceC env (ch :: cs) c
    let w := (ch :: cs).take r.1.2
    let r' := lexLoopC env fuel ((ch :: cs).drop r.1.2) (pos + r.1.2) (advanceColumn col w) r.2
    ({ kind := r.1.1, text := w, start := pos, column := col } :: r'.1, r'.2)

/-- Lexer and parser on a query, with the shared state and at most `n` steps of the generated functions: the pieces, and
how the parser ends.  Simplified: all tokens are fetched before the first one is parsed; what error recovery stores after
a reported error is left to the other threads (`Others`). -/
def parseC (sim : Simulator τ) (env : Others τ) (n : Nat) (q : PyStr) (c : Caches τ) : (List Piece × Res) × Caches τ :=
  let r := lexLoopC env q.length q 0 0 c
  let r' := execC sim env code n [] (code .query) (r.1.filterMap Piece.tok? ++ [eofTok q]) r.2
  ((r.1, r'.1), r'.2)

/-- `antlr_parse(q)` (__init__.py:34-53): `none` while it runs; the tree, or the exception. -/
def antlrParseC (sim : Simulator τ) (env : Others τ) (n : Nat) (q : PyStr) (c : Caches τ) : Option (Except Unit PTree) × Caches τ :=
  let r := parseC sim env n q c
  (match r.1.2 with
    | .ok f _ => some (.ok (.node .query f))
    | .error => some (.error ())
    | .timeout => none, r.2)

/-- `QueryParser.parse(q)` (parser.py:1700-1756): `none` while it runs; the node, or the exception. -/
def queryParseC (sim : Simulator τ) (env : Others τ) (rt : PyRuntime) (cfg : Config) (n : Nat) (q : PyStr) (c : Caches τ) :
    Option (Except Unit Node) × Caches τ :=
  let r := parseC sim env n q c
  (match r.1.2 with
    | .timeout => none
    | .error => some (.error ())
    | .ok f _ =>
      if r.1.1.any fun p => p.kind = .err then some (.error ())
      else
        match build rt cfg (.node .query f) with
        | .ok node => some (.ok node)
        | .error _ => some (.error ()), r.2)

/-- A call of one of the two entry points. -/
inductive ParseCall
  | antlr (q : PyStr)
  | parse (cfg : Config) (q : PyStr)

/-- What a call returns. -/
inductive ParseResult
  | tree (t : PTree)
  | node (n : Node)
  | raised

/-- The result of `antlr_parse`. -/
def ParseResult.ofTree {ε : Type} : Except ε PTree → ParseResult
  | .ok t => .tree t
  | .error _ => .raised

/-- The result of `QueryParser.parse`. -/
def ParseResult.ofNode {ε : Type} : Except ε Node → ParseResult
  | .ok n => .node n
  | .error _ => .raised

/-- One call after the other, all with the same shared state. -/
def sessionC (sim : Simulator τ) (env : Others τ) (rt : PyRuntime) (n : Nat) : List ParseCall → Caches τ → List (Option ParseResult) × Caches τ
  | [], c => ([], c)
  | .antlr q :: ks, c =>
    let r := antlrParseC sim env n q c
    let r' := sessionC sim env rt n ks r.2
    (r.1.map .ofTree :: r'.1, r'.2)
  | .parse cfg q :: ks, c =>
    let r := queryParseC sim env rt cfg n q c
    let r' := sessionC sim env rt n ks r.2
    (r.1.map .ofNode :: r'.1, r'.2)

end

/-- `execATN` without caches: the walk through the states, as `walkDfa` (FCSParser.py:176, with `decisionsToDFA` left out). -/
def Simulator.walk {τ : Type} (sim : Simulator τ) (d : Nat) (ctx : List Nat) (ts : List Tok) : List Tok → τ → Option Nat
  | [], _ => sim.fullContext d ctx ts
  | x :: xs, s =>
    match sim.verdict (sim.target s x.type.num) with
    | .alt i => some i
    | .fail => sim.finished s ctx
    | .full => sim.fullContext d ctx ts
    | .more => sim.walk d ctx ts xs (sim.target s x.type.num)

/-- The predictor without caches, as FCSParser.py:176 and `self._errHandler` provide it. -/
def Simulator.predictor {τ : Type} (sim : Simulator τ) : Predictor where
  predict d ctx ts := sim.walk d ctx ts ts (sim.start d)
  sync := sim.sync

end Fcsql
