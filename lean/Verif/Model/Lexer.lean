/-
The lexer: `src/fcsql/FCSLexer.g4` (rules) run by ANTLR's lexer loop
(`antlr4.Lexer.nextToken`, `antlr4.atn.LexerATNSimulator.match`; runtime library, not in /repo).

The rules are data (regular expressions); the simulation keeps, for every rule still alive, what
remains to be matched (a Brzozowski derivative), which is what ANTLR's set of ATN configurations
denotes.
-/
import Verif.Model.Py

set_option autoImplicit false

namespace Fcsql

/-- Token types (FCSLexer.py:111-135, in grammar order FCSLexer.g4:9-149) and ANTLR's `Token.EOF`. -/
inductive TokType
  | L_PAREN | R_PAREN | L_SQUARE_BRACKET | R_SQUARE_BRACKET | OR | AND | NOT | FWD_SLASH
  | L_CURLY_BRACKET | R_CURLY_BRACKET | Q_ONE_OR_MORE | Q_ZERO_OR_MORE | Q_ZERO_OR_ONE | Q_COMMA
  | OPERATOR_EQ | OPERATOR_NE | COLON | WITHIN | SIMPLE_WITHIN_SCOPE | REGEXP_FLAGS | IDENTIFIER
  | INTEGER | REGEXP | QUOTED_STRING | Space | EOF
  deriving DecidableEq, Repr

/-- Regular expressions over code points (the constructs used by FCSLexer.g4). -/
inductive Rx
  | void
  | eps
  /-- `[...]`: a list of inclusive ranges -/
  | cls (rs : List (Nat × Nat))
  /-- `~[...]`: any code point (0..0x10FFFF) outside the ranges -/
  | neg (rs : List (Nat × Nat))
  | seq (a b : Rx)
  | alt (a b : Rx)
  | star (a : Rx)
  deriving DecidableEq, Repr

/-- Membership of a code point in a list of inclusive ranges. -/
def inRanges (c : Nat) : List (Nat × Nat) → Bool
  | [] => false
  | (lo, hi) :: rs => (lo ≤ c && c ≤ hi) || inRanges c rs

namespace Rx

/-- Does the expression match the empty string? -/
def nullable : Rx → Bool
  | void => false
  | eps => true
  | cls _ => false
  | neg _ => false
  | seq a b => nullable a && nullable b
  | alt a b => nullable a || nullable b
  | star _ => true

/-- Sequence, simplified when a part is `void`/`eps`. -/
def mkSeq : Rx → Rx → Rx
  | void, _ => void
  | eps, b => b
  | a, b => seq a b

/-- Alternative, simplified when a part is `void`. -/
def mkAlt : Rx → Rx → Rx
  | void, b => b
  | a, void => a
  | a, b => alt a b

/-- What remains to be matched after reading `c` (one move of the ATN simulation). -/
def deriv (c : Nat) : Rx → Rx
  | void => void
  | eps => void
  | cls rs => if inRanges c rs then eps else void
  | neg rs => if c < 0x110000 && !inRanges c rs then eps else void
  | seq a b =>
    if nullable a then mkAlt (mkSeq (deriv c a) b) (deriv c b) else mkSeq (deriv c a) b
  | alt a b => mkAlt (deriv c a) (deriv c b)
  | star a => mkSeq (deriv c a) (star a)

/-- No ATN configuration is left. -/
def isVoid : Rx → Bool
  | void => true
  | _ => false

/-- A single literal character. -/
def chr (c : Nat) : Rx := cls [(c, c)]

/-- A literal string. -/
def str : PyStr → Rx
  | [] => eps
  | [c] => chr c
  | c :: cs => seq (chr c) (str cs)

/-- `r+` -/
def plus (r : Rx) : Rx := seq r (star r)
/-- `r?` -/
def opt (r : Rx) : Rx := alt r eps

/-- alternatives `r1 | r2 | ...` -/
def alts : List Rx → Rx
  | [] => void
  | [r] => r
  | r :: rs => alt r (alts rs)

end Rx

open Rx in
/-- FCSLexer.g4:53-55 `fragment IDENTIFIER_FIRST_CHAR : [a-zA-Z]`. -/
def rxIdentFirst : Rx := cls [(97, 122), (65, 90)]
open Rx in
/-- FCSLexer.g4:58-60 `fragment IDENTIFIER_LAST_CHAR : [a-zA-Z0-9]`. -/
def rxIdentLast : Rx := cls [(97, 122), (65, 90), (48, 57)]
open Rx in
/-- FCSLexer.g4:63-65 `fragment IDENTIFIER_CHAR : [a-zA-Z0-9\-]`. -/
def rxIdentChar : Rx := cls [(97, 122), (65, 90), (48, 57), (45, 45)]
open Rx in
/-- FCSLexer.g4:68-70 `IDENTIFIER : FIRST (CHAR* LAST)?`. -/
def rxIdentifier : Rx := seq rxIdentFirst (opt (seq (star rxIdentChar) rxIdentLast))
open Rx in
/-- FCSLexer.g4:73-75 `INTEGER : [0-9]+`. -/
def rxInteger : Rx := plus (cls [(48, 57)])
open Rx in
/-- FCSLexer.g4:142-144 `fragment HEX : [0-9a-fA-F]`. -/
def rxHex : Rx := cls [(48, 57), (97, 102), (65, 70)]
/-- The one-character escapes of FCSLexer.g4:117-134
(backslash, quotes, `n t . ^ $ * + ? ( ) { } [ ] |`), as in FCSLexer.py:38-39. -/
def escapeSingles : List (Nat × Nat) :=
  [(34, 34), (36, 36), (39, 43), (46, 46), (63, 63), (91, 94), (110, 110), (116, 116), (123, 125)]
open Rx in
/-- FCSLexer.g4:115-139 `fragment ESCAPED_CHAR`. -/
def rxEscaped : Rx :=
  seq (chr 92) (alts
    [ cls escapeSingles,
      seq (chr 120) (seq rxHex rxHex),
      seq (chr 117) (seq rxHex (seq rxHex (seq rxHex rxHex))),
      seq (chr 85) (seq rxHex (seq rxHex (seq rxHex (seq rxHex
        (seq rxHex (seq rxHex (seq rxHex rxHex))))))) ])
open Rx in
/-- One alternative of FCSLexer.g4:91-94 `QUOTED_STRING`: quote `q`, then `(ESCAPED_CHAR | ~[q\\])*`,
then quote `q`. -/
def rxQuotedWith (q : Nat) : Rx :=
  seq (chr q) (seq (star (alt rxEscaped (neg [(q, q), (92, 92)]))) (chr q))
open Rx in
/-- FCSLexer.g4:91-94 `QUOTED_STRING`. -/
def rxQuoted : Rx := alt (rxQuotedWith 39) (rxQuotedWith 34)
/-- FCSLexer.g4:107-112 `fragment WS`: the whitespace code points (as ranges, FCSLexer.py:37-38). -/
def wsRanges : List (Nat × Nat) :=
  [(9, 13), (32, 32), (133, 133), (160, 160), (5760, 5760), (8192, 8202), (8232, 8233),
   (8239, 8239), (8287, 8287), (12288, 12288)]
open Rx in
/-- FCSLexer.g4:29-40 `SIMPLE_WITHIN_SCOPE`. -/
def rxScope : Rx := alts
  [ str py!"sentence", str py!"s", str py!"utterance", str py!"u", str py!"paragraph",
    str py!"p", str py!"turn", str py!"t", str py!"text", str py!"session" ]
open Rx in
/-- FCSLexer.g4:43-50 `REGEXP_FLAGS : ('i'|'I'|'c'|'C'|'l'|'d')+`. -/
def rxFlags : Rx := plus (cls [(105, 105), (73, 73), (99, 99), (67, 67), (108, 108), (100, 100)])

open Rx TokType in
/-- The lexer rules in grammar order, fragments omitted (FCSLexer.g4:9-149). -/
def lexRules : List (TokType × Rx) :=
  [ (L_PAREN, chr 40), (R_PAREN, chr 41), (L_SQUARE_BRACKET, chr 91), (R_SQUARE_BRACKET, chr 93),
    (OR, chr 124), (AND, chr 38), (NOT, chr 33), (FWD_SLASH, chr 47),
    (L_CURLY_BRACKET, chr 123), (R_CURLY_BRACKET, chr 125),
    (Q_ONE_OR_MORE, chr 43), (Q_ZERO_OR_MORE, chr 42), (Q_ZERO_OR_ONE, chr 63), (Q_COMMA, chr 44),
    (OPERATOR_EQ, chr 61), (OPERATOR_NE, str py!"!="), (COLON, chr 58),
    (WITHIN, str py!"within"), (SIMPLE_WITHIN_SCOPE, rxScope), (REGEXP_FLAGS, rxFlags),
    (IDENTIFIER, rxIdentifier), (INTEGER, rxInteger),
    (REGEXP, rxQuoted), (QUOTED_STRING, rxQuoted), (Space, cls wsRanges) ]

/-- The first rule that matches exactly what has been read
(`firstConfigWithRuleStopState`: ATN configurations are kept in rule order). -/
def firstAccept : List (TokType × Rx) → Option TokType
  | [] => none
  | (t, r) :: rs => if r.nullable then some t else firstAccept rs

/-- Result of one run of the lexer simulation. -/
structure Scan where
  /-- `prevAccept`: type and length of the longest match seen -/
  best : Option (TokType × Nat)
  /-- number of characters consumed when the simulation stopped -/
  consumed : Nat
  deriving DecidableEq, Repr

/-- `LexerATNSimulator.captureSimState`: remember the last accepting position. -/
def updateBest (best : Option (TokType × Nat)) (accept : Option TokType) (n : Nat) :
    Option (TokType × Nat) :=
  match accept with
  | some t => some (t, n)
  | none => best

/-- `LexerATNSimulator.execATN`: advance all rules by one character, remember the last accepting
position, stop when no configuration is left or at the end of input. -/
def scan (rs : List (TokType × Rx)) (n : Nat) (best : Option (TokType × Nat)) : PyStr → Scan
  | [] => { best, consumed := n }
  | c :: cs =>
    let rs' := (rs.map fun p => (p.1, p.2.deriv c)).filter fun p => !p.2.isVoid
    if rs'.isEmpty then { best, consumed := n }
    else
      scan rs' (n + 1) (updateBest best (firstAccept rs') (n + 1)) cs

/-- What a stretch of input was turned into. -/
inductive PieceKind
  | tok (t : TokType)
  /-- `Space -> skip` (FCSLexer.g4:147-149) -/
  | skip
  /-- token recognition error -/
  | err
  deriving DecidableEq, Repr

/-- A stretch of the input: its kind, text, start offset and start column
(`_tokenStartCharIndex`, `_tokenStartColumn`). -/
structure Piece where
  kind : PieceKind
  text : PyStr
  start : Nat
  column : Nat
  deriving DecidableEq, Repr

/-- `LexerATNSimulator.consume`: column bookkeeping over consumed text. -/
def advanceColumn (col : Nat) (s : PyStr) : Nat :=
  s.foldl (fun k c => if c = 10 then 0 else k + 1) col

/-- One round of `Lexer.nextToken` on non-empty remaining input: kind of the piece and how many
characters it takes.  On failure `Lexer.recover` additionally consumes the character at which the
simulation failed, unless at end of input. -/
def nextPiece (cs : PyStr) : PieceKind × Nat :=
  let r := scan lexRules 0 none cs
  match r.best with
  | some (t, n) => (if t = TokType.Space then .skip else .tok t, n)
  | none => (.err, min (r.consumed + 1) cs.length)

/-- The lexer loop (`CommonTokenStream.fill`): all pieces up to the end of input.
Fuel: at most one round per character (see `lexPieces`). -/
def lexLoop : Nat → PyStr → Nat → Nat → List Piece
  | 0, _, _, _ => []
  | _ + 1, [], _, _ => []
  | fuel + 1, cs@(_ :: _), pos, col =>
    let (k, n) := nextPiece cs
    let w := cs.take n
    { kind := k, text := w, start := pos, column := col } ::
      lexLoop fuel (cs.drop n) (pos + n) (advanceColumn col w)

/-- All pieces of a query. -/
def lexPieces (q : PyStr) : List Piece := lexLoop q.length q 0 0

/-- A token as seen by parser and tree builder (`antlr4.Token.CommonToken`).
`stop` is inclusive, hence `-1` is possible for `EOF`. -/
structure Tok where
  type : TokType
  text : PyStr
  start : Int
  stop : Int
  deriving DecidableEq, Repr

/-- The token of a piece, if it is one. -/
def Piece.tok? (p : Piece) : Option Tok :=
  match p.kind with
  | .tok t => some { type := t, text := p.text, start := p.start, stop := p.start + p.text.length - 1 }
  | _ => none

/-- `Lexer.emitEOF`: the EOF token starts at the end of input and stops one before;
its text is `<EOF>` (`CommonToken.text`). -/
def eofTok (q : PyStr) : Tok :=
  { type := .EOF, text := py!"<EOF>", start := q.length, stop := (q.length : Int) - 1 }

/-- Tokens of a query, without `EOF`. -/
def lexTokens (q : PyStr) : List Tok := (lexPieces q).filterMap Piece.tok?

/-- The token stream handed to the parser. -/
def tokenStream (q : PyStr) : List Tok := lexTokens q ++ [eofTok q]

/-- The error pieces, in order. -/
def lexErrors (q : PyStr) : List Piece := (lexPieces q).filter fun p => p.kind = .err

end Fcsql
