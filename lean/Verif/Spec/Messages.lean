/-
What the parser of the runtime library reports about a query.
-/
import Verif.Model.ErrorStrategy
import Verif.Model.ParserAtnData
import Verif.Model.ParserCode
import Verif.Spec.FirstError
import Verif.Spec.Layout

set_option autoImplicit false

namespace Fcsql

/-- The generated parser, with the runtime library's prediction and error strategy, comes to an end on the query `q`, has
reported `rs`, and has left `u` tokens unread (however large the bound on the number of steps). -/
def AntlrReports (q : PyStr) (rs : List Report) (u : Nat) : Prop :=
  ∃ N, ∀ n, N ≤ n → callE parserAtn (eofTok q) code n .query (tokenStream q) = some (rs, u)

/-- A runtime whose syntax errors are those of the runtime library. -/
def Runtime.Antlr (rt : Runtime) : Prop :=
  ∀ q, (∀ t, antlrParse q ≠ .ok t) → ∃ rs u, AntlrReports q rs u ∧ rawErrors rt q = listenerErrors q 0 rs u

/-! ### Messages -/

/-- How a token type is written in a message. -/
def symbol : TokType → PyStr
  | .L_PAREN => py!"'('" | .R_PAREN => py!"')'" | .L_SQUARE_BRACKET => py!"'['" | .R_SQUARE_BRACKET => py!"']'"
  | .OR => py!"'|'" | .AND => py!"'&'" | .NOT => py!"'!'" | .FWD_SLASH => py!"'/'"
  | .L_CURLY_BRACKET => py!"'{'" | .R_CURLY_BRACKET => py!"'}'" | .Q_ONE_OR_MORE => py!"'+'" | .Q_ZERO_OR_MORE => py!"'*'"
  | .Q_ZERO_OR_ONE => py!"'?'" | .Q_COMMA => py!"','" | .OPERATOR_EQ => py!"'='" | .OPERATOR_NE => py!"'!='"
  | .COLON => py!"':'" | .WITHIN => py!"'within'" | .SIMPLE_WITHIN_SCOPE => py!"SIMPLE_WITHIN_SCOPE"
  | .REGEXP_FLAGS => py!"REGEXP_FLAGS" | .IDENTIFIER => py!"IDENTIFIER" | .INTEGER => py!"INTEGER" | .REGEXP => py!"REGEXP"
  | .QUOTED_STRING => py!"QUOTED_STRING" | .Space => py!"Space" | .EOF => py!"<EOF>"

/-- The order in which they are listed. -/
def symbolOrder : List TokType :=
  [.EOF, .L_PAREN, .R_PAREN, .L_SQUARE_BRACKET, .R_SQUARE_BRACKET, .OR, .AND, .NOT, .FWD_SLASH, .L_CURLY_BRACKET, .R_CURLY_BRACKET,
   .Q_ONE_OR_MORE, .Q_ZERO_OR_MORE, .Q_ZERO_OR_ONE, .Q_COMMA, .OPERATOR_EQ, .OPERATOR_NE, .COLON, .WITHIN, .SIMPLE_WITHIN_SCOPE,
   .REGEXP_FLAGS, .IDENTIFIER, .INTEGER, .REGEXP, .QUOTED_STRING, .Space]

/-- Between commas. -/
def commas : List PyStr → PyStr
  | [] => []
  | [s] => s
  | s :: t :: l => s ++ py!", " ++ commas (t :: l)

/-- A list of token types: one alone, several in braces. -/
def listing (l : List TokType) : PyStr :=
  if l.length = 1 then commas (l.map symbol) else py!"{" ++ commas (l.map symbol) ++ py!"}"

/-- In quotes; newline, tab and carriage return as escapes. -/
def quoted (s : PyStr) : PyStr :=
  py!"'" ++ (s.flatMap fun c => if c = 10 then py!"\\n" else if c = 9 then py!"\\t" else if c = 13 then py!"\\r" else [c]) ++ py!"'"

/-- The texts of tokens, without the end of input. -/
def texts : List Tok → PyStr
  | [] => []
  | x :: xs => (if x.type = .EOF then [] else x.text) ++ texts xs

/-- What a message about the token `x` of `full` says. -/
inductive Worded (full : List Tok) (x : Tok) (msg : PyStr) : Prop
  /-- `x` is not what is expected, which is one of `l` -/
  | mismatched (l : List TokType) : l ≠ [] → l.Sublist symbolOrder →
      msg = py!"mismatched input " ++ quoted x.text ++ py!" expecting " ++ listing l → Worded full x msg
  /-- `x` is left out, then one of `l` is expected -/
  | extraneous (l : List TokType) : l ≠ [] → l.Sublist symbolOrder →
      msg = py!"extraneous input " ++ quoted x.text ++ py!" expecting " ++ listing l → Worded full x msg
  /-- one of `l` is imagined before `x` -/
  | missing (l : List TokType) : l ≠ [] → l.Sublist symbolOrder →
      msg = py!"missing " ++ listing l ++ py!" at " ++ quoted x.text → Worded full x msg
  /-- some consecutive tokens, the last of which is `x` -/
  | noViable (us mid vs : List Tok) : full = us ++ mid ++ x :: vs →
      msg = py!"no viable alternative at input " ++ quoted (if mid = [] ∧ x.type = .EOF then py!"<EOF>" else texts (mid ++ [x])) →
      Worded full x msg

/-- What the first message about the token `x`, after the tokens `us` and before `vs`, is worth. -/
inductive Helpful (us : List Tok) (x : Tok) (vs : List Tok) (msg : PyStr) : Prop
  /-- `x` is not one of the listed, and each of the listed could have come instead -/
  | mismatched (l : List TokType) : l ≠ [] → l.Sublist symbolOrder →
      msg = py!"mismatched input " ++ quoted x.text ++ py!" expecting " ++ listing l →
      x.type ∉ l → (∀ y : Tok, y.type ∈ l → Begins (us ++ [y])) → Helpful us x vs msg
  /-- also: the next token is one of the listed, so the query is right as far as there if `x` is left out -/
  | extraneous (l : List TokType) : l ≠ [] → l.Sublist symbolOrder →
      msg = py!"extraneous input " ++ quoted x.text ++ py!" expecting " ++ listing l →
      x.type ∉ l → (∀ y : Tok, y.type ∈ l → Begins (us ++ [y])) → (∃ z ws, vs = z :: ws ∧ z.type ∈ l) → Helpful us x vs msg
  /-- with one of the listed before `x` the query is right as far as `x` -/
  | missing (l : List TokType) : l ≠ [] → l.Sublist symbolOrder →
      msg = py!"missing " ++ listing l ++ py!" at " ++ quoted x.text →
      x.type ∉ l → (∀ y : Tok, y.type ∈ l → Begins (us ++ [y, x])) → Helpful us x vs msg
  /-- `x` and some tokens before it are shown -/
  | noViable (ws mid : List Tok) : us = ws ++ mid →
      msg = py!"no viable alternative at input " ++ quoted (if mid = [] ∧ x.type = .EOF then py!"<EOF>" else texts (mid ++ [x])) →
      Helpful us x vs msg

/-! ### The same about texts -/

/-- A text that can be completed to a query `antlr_parse` accepts. -/
def CanComplete (p : PyStr) : Prop := ∃ rest t, antlrParse (p ++ rest) = .ok t

/-- After the text `p` any of `l` can come: any text of such a type, or the end. -/
structure Offers (p : PyStr) (l : List TokType) : Prop where
  text : ∀ t ∈ l, t ≠ .EOF → ∃ w, TokenText t w
  tok : ∀ t ∈ l, ∀ w, TokenText t w → CanComplete (p ++ 32 :: w)
  eof : .EOF ∈ l → ∃ t, antlrParse p = .ok t

/-- What the first message about the token `x` of the query `q` is worth to its author. -/
inductive Advice (q : PyStr) (x : Tok) (msg : PyStr) : Prop
  /-- instead of `x` any of the listed can come after what is before it -/
  | mismatched (l : List TokType) : l ≠ [] → x.type ∉ l →
      msg = py!"mismatched input " ++ quoted x.text ++ py!" expecting " ++ listing l → Offers (q.take x.start.toNat) l → Advice q x msg
  /-- also: the token after `x` is one of the listed -/
  | extraneous (l : List TokType) (us : List Tok) (z : Tok) (vs : List Tok) : l ≠ [] → x.type ∉ l →
      msg = py!"extraneous input " ++ quoted x.text ++ py!" expecting " ++ listing l → Offers (q.take x.start.toNat) l →
      tokenStream q = us ++ x :: z :: vs → z.type ∈ l → Advice q x msg
  /-- with any of the listed in between, `x` can come -/
  | missing (l : List TokType) : l ≠ [] → x.type ∉ l →
      msg = py!"missing " ++ listing l ++ py!" at " ++ quoted x.text →
      (∀ t ∈ l, ∃ w, TokenText t w) → (∀ t ∈ l, ∀ w, TokenText t w → Offers (q.take x.start.toNat ++ 32 :: w) [x.type]) → Advice q x msg
  /-- `x` and some tokens before it are shown -/
  | noViable (us mid vs : List Tok) : tokenStream q = us ++ mid ++ x :: vs →
      msg = py!"no viable alternative at input " ++ quoted (if mid = [] ∧ x.type = .EOF then py!"<EOF>" else texts (mid ++ [x])) →
      Advice q x msg

end Fcsql
