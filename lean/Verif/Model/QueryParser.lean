/-
`ErrorListener`, `QueryParser.parse` (parser.py:936-1017, 1671-1756) and the entry points `antlr_parse`,
`parse`, `can_parse` of `src/fcsql/__init__.py` (lines 24-90).
-/
import Verif.Model.Builder

set_option autoImplicit false

namespace Fcsql

/-- A call of `syntaxError` on the listener. -/
inductive RawErr
  /-- from the lexer: `offendingSymbol` is `None`, the error span is known -/
  | lexer (p : Piece)
  /-- from the parser: the offending token and the message -/
  | parser (t : Tok) (msg : PyStr)
  deriving Repr

/-- Environment: Python (`PyRuntime`) and the error reports of ANTLR's parser.  Which errors are
reported for an ungrammatical query (first one, then the others), after which recovery, is left
completely open; only that there is at least one. -/
structure Runtime extends PyRuntime where
  syntaxErrors : PyStr → RawErr × List RawErr

/-- `ErrorDetail.position` -/
inductive Position
  | none
  | offset (n : Int)
  | loc (l : Loc)
  deriving DecidableEq, Repr

/-- `ErrorDetail` (parser.py:935-947). -/
structure ErrorDetail where
  message : PyStr
  type : Option PyStr
  position : Position
  fragment : Option PyStr
  deriving DecidableEq, Repr

/-- `SourceLocation.fromToken` (parser.py:367-377). -/
def locFromToken (t : Tok) : Option Loc :=
  if t.start = -1 then none
  else if t.stop = -1 then none
  else some ⟨t.start, t.stop + 1⟩

/-- `Lexer.getErrorDisplay` (ANTLR runtime): newline, tab and CR shown as escapes, `EOF` not applicable. -/
def errorDisplay (s : PyStr) : PyStr :=
  s.flatMap fun c =>
    if c = 10 then py!"\\n" else if c = 9 then py!"\\t" else if c = 13 then py!"\\r" else [c]

/-- `Lexer.notifyListeners` (ANTLR runtime): the message of a token recognition error. -/
def lexerMessage (p : Piece) : PyStr :=
  py!"token recognition error at: '" ++ errorDisplay p.text ++ py!"'"

/-- `ErrorListener.syntaxError` (parser.py:956-993). -/
def listenerDetail (query : PyStr) : RawErr → ErrorDetail
  | .lexer p =>
    { message := lexerMessage p, type := some py!"syntax-error", position := .offset p.column,
      fragment := none }
  | .parser t msg =>
    { message := msg, type := some py!"syntax-error",
      position := match locFromToken t with
        | some l => .loc l
        | none => .none
      fragment := some (slicePrefix query (t.start + t.text.length)) }

/-- The errors reported while parsing: none from the parser if the token stream is grammatical (then
all tokens are fetched, so every lexer error is reported, in order). -/
def rawErrors (rt : Runtime) (q : PyStr) : List RawErr :=
  match parseTokens (tokenStream q) with
  | some _ => (lexErrors q).map .lexer
  | none => (rt.syntaxErrors q).1 :: (rt.syntaxErrors q).2

/-- `QueryParserException(msg)` -/
structure ParserException where
  msg : PyStr
  deriving DecidableEq, Repr

/-- `except` clauses of `QueryParser.parse` (parser.py:1748-1753). -/
def wrapExc : Exc → ParserException
  | .builder msg => ⟨msg⟩
  | .other => ⟨py!"an unexpected exception occured while parsing"⟩

/-- `QueryParser.parse` (parser.py:1700-1756) without the object: the outcome and the new value of
`self.errors`, for any allocator. -/
def parseWith {ν σ : Type} (A : Alloc ν σ) (rt : Runtime) (cfg : Config) (h : σ) (q : PyStr) :
    Except ParserException (ν × σ) × List ErrorDetail :=
  let errs := (rawErrors rt q).map (listenerDetail q)
  match errs with
  | [] =>
    match parseTokens (tokenStream q) with
    | some t =>
      (match buildWith A rt.toPyRuntime cfg h t with
        | .ok r => .ok r
        | .error e => .error (wrapExc e), [])
    | none => (.error (wrapExc .other), [])     -- cannot happen: `rawErrors` is not empty then
  | e :: es => (.error ⟨py!"unable to parse query: " ++ e.message⟩, e :: es)

/-- Outcome of `QueryParser.parse` and the new value of `parser.errors`. -/
def parseQuery (rt : Runtime) (cfg : Config) (q : PyStr) :
    Except ParserException Node × List ErrorDetail :=
  let r := parseWith pureAlloc rt cfg () q
  (r.1.map Prod.fst, r.2)

/-- A `QueryParser` object (parser.py:1671-1698): its settings and `errors`. -/
structure QueryParser where
  cfg : Config
  errors : List ErrorDetail

/-- `QueryParser(...)` -/
def QueryParser.new (cfg : Config) : QueryParser := { cfg, errors := [] }

/-- `parser.parse(query)` on an object: outcome and new object state. -/
def QueryParser.parse (rt : Runtime) (p : QueryParser) (q : PyStr) :
    Except ParserException Node × QueryParser :=
  let r := parseQuery rt p.cfg q
  (r.1, { p with errors := r.2 })

/-- `fcsql.parse(input, enableSourceLocations=...)` (__init__.py:59-74). -/
def fcsqlParse (rt : Runtime) (q : PyStr) (enableSourceLocations : Bool := true) :
    Except ParserException Node :=
  ((QueryParser.new { defaultConfig with enableSourceLocations }).parse rt q).1

/-- `fcsql.can_parse` (__init__.py:77-90). -/
def canParse (rt : Runtime) (q : PyStr) : Bool :=
  match fcsqlParse rt q with
  | .ok _ => true
  | .error _ => false

/-- `fcsql.antlr_parse` (__init__.py:34-53): the listener that raises is attached to the parser only,
the lexer keeps ANTLR's console listener.  The message (`line:column`) is not modelled. -/
def antlrParse (q : PyStr) : Except Unit PTree :=
  match parseTokens (tokenStream q) with
  | some t => .ok t
  | none => .error ()

end Fcsql
