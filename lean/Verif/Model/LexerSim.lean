/-
The lexer of the runtime library, as a program: `antlr4.Lexer` (the base class of `FCSLexer`, FCSLexer.py:105) with
`antlr4.atn.LexerATNSimulator` (created at FCSLexer.py:167), running on the network decoded from FCSLexer.py:11-103, and
`antlr4.CommonTokenStream` (__init__.py:49, parser.py:1718) on top.  The library is not in /repo (pyproject.toml:
antlr4-python3-runtime >= 4.13.2); this is written after its published algorithm, function by function, for networks without
predicates, non-greedy loops, modes and actions other than `skip` (FCSLexer.py has none).

Every function that loops or recurses takes a bound on the number of rounds and answers `none` if it is not enough: `m` is
the bound for the recursion of `closure`; a loop over the text gets one round for each character and one more.
-/
import Verif.Model.LexerAtnData
import Verif.Model.Lexer
import Verif.Model.Adaptive

set_option autoImplicit false

namespace Fcsql

/-- `LexerATNConfig`: `state`, `alt`, `context` (return states, innermost first; contexts are never merged in the lexer,
because two configurations are the same only if everything is), `lexerActionExecutor` (indices of its actions; `[]` is
`None`).  Left out: `passedThroughNonGreedyDecision`, which is always false here. -/
structure LConf where
  state : Nat
  alt : Nat
  ctx : List Nat
  acts : List Nat
  deriving DecidableEq, Repr

/-- `Lexer.MAX_CHAR_VALUE`. -/
def maxChar : Int := 0x10FFFF

/-- `OrderedATNConfigSet.add`: appended unless it is there. -/
def LConf.addTo (c : LConf) (cs : List LConf) : List LConf := if cs.contains c then cs else cs ++ [c]

namespace Atn

/-- `ATNState.epsilonOnlyTransitions`: true if there are transitions, and all are epsilon transitions. -/
def epsilonOnly (A : Atn) (s : Nat) : Bool := !(A.out s).isEmpty && (A.out s).all isEps

/-- `Transition.matches(symbol, Lexer.MIN_CHAR_VALUE, Lexer.MAX_CHAR_VALUE)`, and the target
(`LexerATNSimulator.getReachableTarget`). -/
def charTarget (k : Int) : Trans → Option Nat
  | .atom l t => if l = k then some t else none
  | .set l t => if l.any fun p => p.1 ≤ k && k ≤ p.2 then some t else none
  | .notSet l t => if 0 ≤ k && k ≤ maxChar && !(l.any fun p => p.1 ≤ k && k ≤ p.2) then some t else none
  | _ => none

/-- `LexerATNSimulator.getEpsilonTarget`: actions count only in the rule the token is of; at the end of input (`eof`)
transitions on `EOF` are followed too. -/
def lexEpsTarget (eof : Bool) (c : LConf) : Trans → Option LConf
  | .rule start _ f => some { c with state := start, ctx := f :: c.ctx }
  | .action a t =>
    if c.ctx.isEmpty then some { c with state := t, acts := c.acts ++ [a] } else some { c with state := t }
  | .eps t => some { c with state := t }
  | t => if eof then (charTarget (-1) t).map fun t' => { c with state := t' } else none

/-- `LexerATNSimulator.closure`. -/
def lexClosure (A : Atn) (eof : Bool) : Nat → LConf → List LConf → Option (List LConf)
  | 0, _, _ => none
  | n + 1, c, cs =>
    if A.isStop c.state then
      match c.ctx with
      | [] => some (c.addTo cs)
      | r :: ctx => A.lexClosure eof n { c with state := r, ctx := ctx } cs
    else
      (A.out c.state).foldlM (fun cs t =>
        match lexEpsTarget eof c t with
        | none => some cs
        | some c' => A.lexClosure eof n c' cs) (if A.epsilonOnly c.state then cs else c.addTo cs)

/-- The state a transition leads to. -/
def target : Trans → Nat
  | .eps t => t
  | .atom _ t => t
  | .set _ t => t
  | .notSet _ t => t
  | .rule s _ _ => s
  | .action _ t => t

/-- `LexerATNSimulator.computeStartState`: `for i in range(0, len(p.transitions))`, alternative `i + 1`. -/
def lexStart (A : Atn) (n : Nat) (p : Nat) : Option (List LConf) :=
  (A.out p).zipIdx.foldlM (fun cs ti => A.lexClosure false n { state := target ti.1, alt := ti.2 + 1, ctx := [], acts := [] } cs) []

/-- `LexerATNSimulator.getReachableConfigSet`, with `computeTargetState`: the configurations after the symbol `k` (`-1` is
`Token.EOF`); the empty set is `ATNSimulator.ERROR`.  Left out: skipping configurations that passed through a non-greedy
decision, and `fixOffsetBeforeMatch`, which changes nothing for `skip`. -/
def lexReach (A : Atn) (n : Nat) (cs : List LConf) (k : Int) : Option (List LConf) :=
  cs.foldlM (fun reach c =>
    (A.out c.state).foldlM (fun reach t =>
      match charTarget k t with
      | none => some reach
      | some t' => A.lexClosure (k == -1) n { c with state := t' } reach) reach) []

/-- The first configuration in the stop state of a rule (`addDFAState`: `firstConfigWithRuleStopState`). -/
def firstStop (A : Atn) (cs : List LConf) : Option LConf := cs.find? fun c => A.isStop c.state

end Atn

/-- Where the lexer is in the text: `InputStream.index`, `LexerATNSimulator.line` and `.column`. -/
structure LexPos where
  index : Nat
  line : Nat
  column : Nat
  deriving DecidableEq, Repr

/-- `InputStream.LA(1)`. -/
def inputLA (q : PyStr) (i : Nat) : Int :=
  match q[i]? with
  | some c => (c : Int)
  | none => -1

/-- `LexerATNSimulator.consume`. -/
def LexPos.consume (q : PyStr) (p : LexPos) : LexPos :=
  if inputLA q p.index = 10 then { index := p.index + 1, line := p.line + 1, column := 0 }
  else { p with index := p.index + 1, column := p.column + 1 }

/-- `SimState` (`captureSimState`): where a token could end, and the accepting configuration. -/
structure SimState where
  pos : LexPos
  conf : LConf
  deriving DecidableEq, Repr

/-- `captureSimState`, if the set of configurations is accepting. -/
def capture (A : Atn) (p : LexPos) (cs : List LConf) (prev : Option SimState) : Option SimState :=
  match A.firstStop cs with
  | some c => some { pos := p, conf := c }
  | none => prev

/-- The loop of `LexerATNSimulator.execATN`, in the set `cs`: the last accepting state seen, and where the loop ended.
(`n` bounds the rounds, `m` the depth of `closure`.) -/
def lexExec (A : Atn) (m : Nat) (q : PyStr) : Nat → List LConf → Option SimState → LexPos → Option (Option SimState × LexPos)
  | 0, _, _, _ => none
  | n + 1, cs, prev, p =>
    match A.lexReach m cs (inputLA q p.index) with
    | none => none
    | some [] => some (prev, p)
    | some (c :: cs') =>
      let p' := if inputLA q p.index = -1 then p else p.consume q
      let prev' := capture A p' (c :: cs') prev
      if (A.firstStop (c :: cs')).isSome && inputLA q p.index = -1 then some (prev', p')
      else lexExec A m q n (c :: cs') prev' p'

/-- `Lexer.SKIP`. -/
def lexSkip : Int := -3

/-- How `LexerATNSimulator.match` ends. -/
inductive MatchRes
  /-- `failOrAccept` returned a type; the second component is the lexer's `_type` if an action has set it -/
  | accepted (ttype : Int) (set : Option Int) (pos : LexPos)
  /-- `LexerNoViableAltException` -/
  | failed (pos : LexPos)
  deriving DecidableEq, Repr

/-- `atn.ruleToTokenType[state.ruleIndex]` (`addDFAState`: the prediction of an accepting state). -/
def Atn.predictionOf (A : Atn) (c : LConf) : Int :=
  match A.rules[(A.ruleOf c.state).toNat]? with
  | some p => p.2
  | none => 0

/-- `LexerActionExecutor.execute`: `LexerSkipAction` (type 6) sets `_type` to `SKIP`. -/
def Atn.execActs (A : Atn) (acts : List Nat) : Option Int :=
  if acts.any fun a => match A.actions[a]? with | some p => p.1 == 6 | none => false then some lexSkip else none

/-- `LexerATNSimulator.match` from the position `p`: `matchATN`, `execATN`, `failOrAccept`. -/
def lexMatch (A : Atn) (m : Nat) (q : PyStr) (p : LexPos) : Option MatchRes :=
  match A.modes with
  | [] => none
  | mode :: _ =>
    match A.lexStart m mode with
    | none => none
    | some s0 =>
      match lexExec A m q (q.length + 1) s0 (capture A p s0 none) p with
      | none => none
      | some (some st, _) => some (.accepted (A.predictionOf st.conf) (A.execActs st.conf.acts) st.pos)
      | some (none, e) =>
        if inputLA q e.index = -1 && e.index == p.index then some (.accepted (-1) none e) else some (.failed e)

/-- `CommonToken`, as `CommonTokenFactory.create` makes it. -/
structure RawTok where
  type : Int
  start : Nat
  stop : Int
  line : Nat
  column : Nat
  deriving DecidableEq, Repr

/-- `CommonToken.text`. -/
def RawTok.text (q : PyStr) (t : RawTok) : PyStr :=
  if (t.start : Int) < q.length && t.stop < q.length then (q.drop t.start).take (t.stop + 1 - t.start).toNat else py!"<EOF>"

/-- A call of `syntaxError` by `Lexer.notifyListeners`: line and column, and the text in the message
`token recognition error at: '...'`. -/
structure LexReport where
  line : Nat
  column : Nat
  text : PyStr
  deriving DecidableEq, Repr

/-- `Lexer._input.index`, `_interp.line`, `_interp.column`, and `Lexer._hitEOF`. -/
structure LexObj where
  pos : LexPos
  hitEOF : Bool
  deriving DecidableEq, Repr

/-- `Lexer.nextToken`: calls of `syntaxError` made, the token, and the lexer afterwards.  Left out: `MORE` and channels,
which FCSLexer.g4 does not use. -/
def lexNextToken (A : Atn) (m : Nat) (q : PyStr) : Nat → LexObj → Option (List LexReport × RawTok × LexObj)
  | 0, _ => none
  | n + 1, lx =>
    if lx.hitEOF then
      some ([], { type := -1, start := lx.pos.index, stop := (lx.pos.index : Int) - 1, line := lx.pos.line, column := lx.pos.column }, lx)
    else
      match lexMatch A m q lx.pos with
      | none => none
      | some (.failed e) =>
        let report : LexReport :=
          { line := lx.pos.line, column := lx.pos.column, text := (q.drop lx.pos.index).take (e.index + 1 - lx.pos.index) }
        let p := if inputLA q e.index ≠ -1 then e.consume q else e
        match lexNextToken A m q n { pos := p, hitEOF := inputLA q p.index = -1 } with
        | none => none
        | some (rs, t, lx') => some (report :: rs, t, lx')
      | some (.accepted ttype set p) =>
        let type := match set with | some t => t | none => ttype
        let lx' : LexObj := { pos := p, hitEOF := inputLA q p.index = -1 }
        if type = lexSkip then lexNextToken A m q n lx'
        else
          some ([], { type, start := lx.pos.index, stop := (p.index : Int) - 1, line := lx.pos.line, column := lx.pos.column }, lx')

/-- What a lexer does, in order: calls of `syntaxError`, and tokens handed out. -/
inductive LexEvent
  | report (r : LexReport)
  | token (t : RawTok)
  deriving DecidableEq, Repr

/-- `CommonTokenStream.fill`: tokens are fetched until `EOF`. -/
def lexFill (A : Atn) (m : Nat) (q : PyStr) : Nat → LexObj → Option (List LexEvent)
  | 0, _ => none
  | n + 1, lx =>
    match lexNextToken A m q (q.length + 1) lx with
    | none => none
    | some (rs, t, lx') =>
      if t.type = -1 then some (rs.map .report ++ [.token t])
      else
        match lexFill A m q n lx' with
        | none => none
        | some es => some (rs.map .report ++ .token t :: es)

/-- A new lexer on a text (`FCSLexer(InputStream(q))`, __init__.py:47-48, parser.py:1716-1717), until its tokens are used up. -/
def runLexer (A : Atn) (m : Nat) (q : PyStr) : Option (List LexEvent) :=
  lexFill A m q (q.length + 1) { pos := { index := 0, line := 1, column := 0 }, hitEOF := false }

end Fcsql
