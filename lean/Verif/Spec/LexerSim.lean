/-
What a run of the runtime's lexer looks like from outside, said of the pieces a text is cut into.
-/
import Verif.Model.LexerCache
import Verif.Spec.Place

set_option autoImplicit false

namespace Fcsql

/-- What the lexer does for a piece: it hands out a token, or calls the error listeners, or nothing (skipped text). -/
def Piece.events (q : PyStr) (p : Piece) : List LexEvent :=
  match p.kind with
  | .tok t =>
    [.token { type := t.num, start := p.start, stop := (p.start : Int) + p.text.length - 1, line := lineAt q p.start, column := p.column }]
  | .err => [.report { line := lineAt q p.start, column := p.column, text := p.text }]
  | .skip => []

/-- The last thing it hands out. -/
def eofRaw (q : PyStr) : RawTok :=
  { type := -1, start := q.length, stop := (q.length : Int) - 1, line := lineAt q q.length, column := advanceColumn 0 q }

/-- The tokens among the events. -/
def LexEvent.tok? : LexEvent → Option RawTok
  | .token t => some t
  | .report _ => none

/-- What is stored in the shared state is what would be computed (with `m` as the bound of `closure`). -/
def LexDfa.Right (A : Atn) (m : Nat) (d : LexDfa) : Prop :=
  (∀ cs, d.s0 = some cs → ∃ p ps, A.modes = p :: ps ∧ A.lexStart m p = some cs) ∧
  ∀ e ∈ d.edges, A.lexReach m e.1.1 e.1.2 = some e.2

/-- The other threads store only what they have computed. -/
def LexOthers.Fair (A : Atn) (m : Nat) (env : LexOthers) : Prop := ∀ n d, d.Right A m → (env n d).Right A m

/-- Other threads that compute edges for sets and symbols of their choice, and store them. -/
def lexOthersStore (A : Atn) (m : Nat) (schedule : Nat → List (List LConf × Int)) : LexOthers := fun n d =>
  { d with edges := ((schedule n).filterMap fun w => (A.lexReach m w.1 w.2).map fun r => (w, r)) ++ d.edges }

/-- Lexers on several texts, one after the other, in a process with other threads. -/
def runLexersC (A : Atn) (m : Nat) (env : LexOthers) : List PyStr → LexDfa → Option (List (List LexEvent))
  | [], _ => some []
  | q :: qs, d =>
    match runLexerC A m q env d with
    | none => none
    | some (es, d) =>
      match runLexersC A m env qs d with
      | none => none
      | some ess => some (es :: ess)

end Fcsql
