/-
The lexer of the runtime library (Model/LexerSim.lean) with the state all lexers of a process share:
`FCSLexer.decisionsToDFA` (FCSLexer.py:109, passed to every `LexerATNSimulator` at FCSLexer.py:167).  What one lexer has
computed for a text, another one finds there later, in the same or in another thread.
-/
import Verif.Model.LexerSim

set_option autoImplicit false

namespace Fcsql

/-- The shared `DFA`: `s0`, and the edges of its states (a state is its set of configurations: `DFAState.__eq__`; the empty
set is `ATNSimulator.ERROR`).  `clock` counts the accesses. -/
structure LexDfa where
  s0 : Option (List LConf)
  edges : List ((List LConf × Int) × List LConf)
  clock : Nat

/-- Nothing is stored when the modules are loaded. -/
def LexDfa.empty : LexDfa := { s0 := none, edges := [], clock := 0 }

/-- What the other threads do to the shared state before an access. -/
abbrev LexOthers := Nat → LexDfa → LexDfa

/-- An access: other threads may have been at work since the last one. -/
def LexDfa.next (env : LexOthers) (d : LexDfa) : LexDfa := { env d.clock d with clock := d.clock + 1 }

/-- `LexerATNSimulator.match`: `dfa.s0` if it is there, else `computeStartState`, which is stored (`matchATN`). -/
def startC (A : Atn) (m : Nat) (mode : Nat) (env : LexOthers) (d : LexDfa) : Option (List LConf × LexDfa) :=
  let d := d.next env
  match d.s0 with
  | some cs => some (cs, d)
  | none =>
    match A.lexStart m mode with
    | none => none
    | some cs => let d := d.next env; some (cs, { d with s0 := some cs })

/-- `getExistingTargetState`, else `computeTargetState` with `addDFAEdge`; edges are kept for symbols from `MIN_DFA_EDGE` (0)
to `MAX_DFA_EDGE` (127) only. -/
def reachC (A : Atn) (m : Nat) (cs : List LConf) (k : Int) (env : LexOthers) (d : LexDfa) : Option (List LConf × LexDfa) :=
  if 0 ≤ k ∧ k ≤ 127 then
    let d := d.next env
    match d.edges.find? fun e => e.1 = (cs, k) with
    | some e => some (e.2, d)
    | none =>
      match A.lexReach m cs k with
      | none => none
      | some cs' => let d := d.next env; some (cs', { d with edges := ((cs, k), cs') :: d.edges })
  else
    match A.lexReach m cs k with
    | none => none
    | some cs' => some (cs', d)

/-- As `lexExec`. -/
def lexExecC (A : Atn) (m : Nat) (q : PyStr) (env : LexOthers) : Nat → List LConf → Option SimState → LexPos → LexDfa →
    Option ((Option SimState × LexPos) × LexDfa)
  | 0, _, _, _, _ => none
  | n + 1, cs, prev, p, d =>
    match reachC A m cs (inputLA q p.index) env d with
    | none => none
    | some ([], d) => some ((prev, p), d)
    | some (c :: cs', d) =>
      let p' := if inputLA q p.index = -1 then p else p.consume q
      let prev' := capture A p' (c :: cs') prev
      if (A.firstStop (c :: cs')).isSome && inputLA q p.index = -1 then some ((prev', p'), d)
      else lexExecC A m q env n (c :: cs') prev' p' d

/-- As `lexMatch`. -/
def lexMatchC (A : Atn) (m : Nat) (q : PyStr) (env : LexOthers) (p : LexPos) (d : LexDfa) : Option (MatchRes × LexDfa) :=
  match A.modes with
  | [] => none
  | mode :: _ =>
    match startC A m mode env d with
    | none => none
    | some (s0, d) =>
      match lexExecC A m q env (q.length + 1) s0 (capture A p s0 none) p d with
      | none => none
      | some ((some st, _), d) => some (.accepted (A.predictionOf st.conf) (A.execActs st.conf.acts) st.pos, d)
      | some ((none, e), d) =>
        if inputLA q e.index = -1 && e.index == p.index then some (.accepted (-1) none e, d) else some (.failed e, d)

/-- As `lexNextToken`. -/
def lexNextTokenC (A : Atn) (m : Nat) (q : PyStr) (env : LexOthers) : Nat → LexObj → LexDfa →
    Option ((List LexReport × RawTok × LexObj) × LexDfa)
  | 0, _, _ => none
  | n + 1, lx, d =>
    if lx.hitEOF then
      some (([], { type := -1, start := lx.pos.index, stop := (lx.pos.index : Int) - 1, line := lx.pos.line, column := lx.pos.column }, lx), d)
    else
      match lexMatchC A m q env lx.pos d with
      | none => none
      | some (.failed e, d) =>
        let report : LexReport :=
          { line := lx.pos.line, column := lx.pos.column, text := (q.drop lx.pos.index).take (e.index + 1 - lx.pos.index) }
        let p := if inputLA q e.index ≠ -1 then e.consume q else e
        match lexNextTokenC A m q env n { pos := p, hitEOF := inputLA q p.index = -1 } d with
        | none => none
        | some ((rs, t, lx'), d) => some ((report :: rs, t, lx'), d)
      | some (.accepted ttype set p, d) =>
        let type := match set with | some t => t | none => ttype
        let lx' : LexObj := { pos := p, hitEOF := inputLA q p.index = -1 }
        if type = lexSkip then lexNextTokenC A m q env n lx' d
        else
          some (([], { type, start := lx.pos.index, stop := (p.index : Int) - 1, line := lx.pos.line, column := lx.pos.column }, lx'), d)

/-- As `lexFill`. -/
def lexFillC (A : Atn) (m : Nat) (q : PyStr) (env : LexOthers) : Nat → LexObj → LexDfa → Option (List LexEvent × LexDfa)
  | 0, _, _ => none
  | n + 1, lx, d =>
    match lexNextTokenC A m q env (q.length + 1) lx d with
    | none => none
    | some ((rs, t, lx'), d) =>
      if t.type = -1 then some (rs.map .report ++ [.token t], d)
      else
        match lexFillC A m q env n lx' d with
        | none => none
        | some (es, d) => some (rs.map .report ++ .token t :: es, d)

/-- As `runLexer`: a new lexer on a text, with what is stored so far, while other threads are at work. -/
def runLexerC (A : Atn) (m : Nat) (q : PyStr) (env : LexOthers) (d : LexDfa) : Option (List LexEvent × LexDfa) :=
  lexFillC A m q env (q.length + 1) { pos := { index := 0, line := 1, column := 0 }, hitEOF := false } d

end Fcsql
