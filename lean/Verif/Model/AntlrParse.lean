/-
`fcsql.antlr_parse` (__init__.py:24-53) with the error listener that raises, on any query.
-/
import Verif.Model.Recovery
import Verif.Model.ParserCode
import Verif.Model.QueryParser

set_option autoImplicit false

namespace Fcsql

/-- `LexerATNSimulator.consume`: line bookkeeping over consumed text. -/
def advanceLine (line : Nat) (s : PyStr) : Nat := s.foldl (fun k c => if c = 10 then k + 1 else k) line

/-- The tokens with the line and column `Lexer.nextToken` stores in them (`_tokenStartLine`, `_tokenStartColumn`; for `EOF`
those where the input ends). -/
def placeTokens (eof : Tok) : List Piece → Nat → Nat → List (Tok × Nat × Nat)
  | [], line, col => [(eof, line, col)]
  | p :: ps, line, _ =>
    (match p.tok? with
      | some t => [(t, line, p.column)]
      | none => []) ++ placeTokens eof ps (advanceLine line p.text) (advanceColumn p.column p.text)

/-- The token stream of a query with lines and columns; a lexer starts at line 1, column 0. -/
def placedStream (q : PyStr) : List (Tok × Nat × Nat) := placeTokens (eofTok q) (lexPieces q) 1 0

/-- `offendingToken.line`, `offendingToken.column` of a token of the stream. -/
def placeOf (q : PyStr) (t : Tok) : Nat × Nat :=
  match (placedStream q).find? fun p => p.1 = t with
  | some p => p.2
  | none => (0, 0)      -- not a token of the stream

/-- `ExceptionThrowingErrorListener.syntaxError` (__init__.py:29-31): the message of the `SyntaxError` it raises. -/
def syntaxErrorMsg (line column : Nat) (msg : PyStr) : PyStr :=
  py!"line " ++ decStr line ++ py!":" ++ decStr column ++ py!" " ++ msg

/-- `antlr_parse` (__init__.py:34-53), with at most `n` steps of the generated parser: `SyntaxError` is raised at the first
report (`Parser.notifyErrorListeners` passes line and column of the offending token; the exception is not a
`RecognitionException`, so no rule function catches it), which is the first one of a run that goes on.  The text ANTLR
writes about the error, `msg`, is left open. -/
def antlrParseRun {σ : Type} (S : Strategy σ) (m : σ) (msg : Tok → PyStr) (n : Nat) (q : PyStr) : Option (Except PyStr PTree) :=
  match callR S m (eofTok q) code n .query (tokenStream q) with
  | none => none
  | some (f, []) => some (.ok (.node .query f))
  | some (_, t :: _) => some (.error (syntaxErrorMsg (placeOf q t).1 (placeOf q t).2 (msg t)))

end Fcsql
