/-
The error records of a failed parse: how the reports of the lexer and of the parser, which fetches tokens from it one by
one, get into one list.
-/
import Verif.Model.QueryParser
import Verif.Model.ParserCode
import Verif.Spec.Recovery

set_option autoImplicit false

namespace Fcsql

variable {σ : Type}

/-- The offending token of a report of the parser. -/
def RawErr.tok? : RawErr → Option Tok
  | .parser t _ => some t
  | .lexer _ => none

/-- The text of a report of the lexer. -/
def RawErr.piece? : RawErr → Option Piece
  | .parser _ _ => none
  | .lexer p => some p

/-- The reports `es` for the query `q`: those of the parser are the reports of a run of the generated functions; those of
the lexer are about the texts it does not recognise, in order; and before the parser can report an error at a token, the
lexer has reached that token, so it has reported everything before it. -/
structure ReportedBy (S : Strategy σ) (m : σ) (q : PyStr) (es : List RawErr) : Prop where
  parser : ∃ f, Returns S m (eofTok q) code .query (tokenStream q) f (es.filterMap RawErr.tok?)
  lexer : es.filterMap RawErr.piece? <+: lexErrors q
  order : ∀ as t msg bs, es = as ++ .parser t msg :: bs → ∀ p ∈ lexErrors q, (p.start : Int) < t.start → .lexer p ∈ as

end Fcsql
