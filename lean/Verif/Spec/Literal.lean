/-
Specification of the tokens with an internal structure: string literals, flags, integers, scopes, names.
-/
import Verif.Model.Builder
import Verif.Spec.Lexing

set_option autoImplicit false

namespace Fcsql

/-! ### String literals -/

/-- A string literal, without its quotes, is a list of pieces. -/
inductive LitPiece
  /-- a character standing for itself -/
  | plain (c : Nat)
  /-- backslash and a character -/
  | esc (c : Nat)
  /-- backslash, `x`/`u`/`U`, and 2/4/8 hexadecimal digits -/
  | hex (letter : Nat) (digits : PyStr)
  deriving DecidableEq, Repr

/-- ASCII hexadecimal digit. -/
def isHexDigit (c : Nat) : Bool := (48 ≤ c && c ≤ 57) || (97 ≤ c && c ≤ 102) || (65 ≤ c && c ≤ 70)

/-- Value of a hexadecimal digit. -/
def hexDigitValue (c : Nat) : Nat := if c ≤ 57 then c - 48 else if c ≤ 70 then c - 55 else c - 87

/-- Value of a string of hexadecimal digits. -/
def hexValue (s : PyStr) : Nat := s.foldl (fun a c => a * 16 + hexDigitValue c) 0

/-- The characters that may follow a backslash. -/
def escapeChars : PyStr := py!"\\\"'nt.^$*+?(){}[]|"

namespace LitPiece

/-- How a piece is written. -/
def text : LitPiece → PyStr
  | plain c => [c]
  | esc c => [92, c]
  | hex l ds => 92 :: l :: ds

/-- A piece the lexer admits between two quotes `q`. -/
def WF (q : Nat) : LitPiece → Prop
  | plain c => c < 0x110000 ∧ c ≠ q ∧ c ≠ 92
  | esc c => c ∈ escapeChars
  | hex l ds => ((l = 120 ∧ ds.length = 2) ∨ (l = 117 ∧ ds.length = 4) ∨ (l = 85 ∧ ds.length = 8)) ∧
      ds.all isHexDigit = true

/-- What a piece stands for; `none` if it is rejected. -/
def value : LitPiece → Option PyStr
  | plain c => some [c]
  | esc c =>
    if c ∈ py!"\\\"'" then some [c]
    else if c ∈ py!"n" then some [10]
    else if c ∈ py!"t" then some [9]
    else if c ∈ py!".^$*+?(){[|" then some [92, c]
    else none
  | hex _ ds => if hexValue ds < 0x110000 then some [hexValue ds] else none

end LitPiece

/-- The literal with quotes `q` and the given pieces. -/
def litText (q : Nat) (ps : List LitPiece) : PyStr := q :: (ps.flatMap LitPiece.text ++ [q])

/-- What a list of pieces stands for. -/
def piecesValue : List LitPiece → Option PyStr
  | [] => some []
  | p :: ps =>
    match p.value, piecesValue ps with
    | some a, some b => some (a ++ b)
    | _, _ => none

/-- `text` is a literal with quotes `q` and pieces `ps`. -/
structure IsLit (text : PyStr) (q : Nat) (ps : List LitPiece) : Prop where
  quote : q = 34 ∨ q = 39
  wf : ∀ p ∈ ps, p.WF q
  eq : text = litText q ps

/-- The literal `text` stands for the string `v`. -/
def LitValue (text v : PyStr) : Prop := ∃ q ps, IsLit text q ps ∧ piecesValue ps = some v

/-- The normalisation a parser applies to string values. -/
def Config.norm (rt : PyRuntime) (cfg : Config) (s : PyStr) : PyStr :=
  match cfg.normForm with
  | some f => rt.normalize f s
  | none => s

/-! ### Flags -/

/-- The flag a letter names. -/
inductive Names : Nat → RegexFlag → Prop
  | i : Names 105 .CASE_INSENSITIVE
  | c : Names 99 .CASE_INSENSITIVE
  | I : Names 73 .CASE_SENSITIVE
  | C : Names 67 .CASE_SENSITIVE
  | l : Names 108 .LITERAL_MATCHING
  | d : Names 100 .IGNORE_DIACRITICS

/-- `fs` is the set of the flags named in the text. -/
def FlagsNamed (text : PyStr) (fs : FlagSet) : Prop := ∀ f, fs.has f = true ↔ ∃ c ∈ text, Names c f

/-- Legal combinations. -/
def FlagSet.Legal (fs : FlagSet) : Prop :=
  ¬ (fs.has .CASE_SENSITIVE = true ∧ fs.has .CASE_INSENSITIVE = true) ∧
  (fs.has .LITERAL_MATCHING = true → fs.has .CASE_SENSITIVE = false ∧ fs.has .CASE_INSENSITIVE = false ∧
    fs.has .IGNORE_DIACRITICS = false)

/-! ### Integers -/

/-- The number a string of decimal digits denotes, in positional notation. -/
def decimalValue : PyStr → Nat
  | [] => 0
  | c :: cs => (c - 48) * 10 ^ cs.length + decimalValue cs

/-- The digit string denotes `n` and is within the interpreter's limit. -/
def IntText (rt : PyRuntime) (text : PyStr) (n : Int) : Prop :=
  (rt.intMaxStrDigits = 0 ∨ text.length ≤ rt.intMaxStrDigits) ∧ n = (decimalValue text : Int)

/-! ### Scopes -/

/-- The words of `within` clauses. -/
def scopeWords : List (PyStr × Scope) :=
  [ (py!"sentence", .SENTENCE), (py!"s", .SENTENCE), (py!"utterance", .UTTERANCE), (py!"u", .UTTERANCE),
    (py!"paragraph", .PARAGRAPH), (py!"p", .PARAGRAPH), (py!"turn", .TURN), (py!"t", .TURN),
    (py!"text", .TEXT), (py!"session", .SESSION) ]

/-! ### Names -/

/-- ASCII letter. -/
def isLetter (c : Nat) : Bool := (97 ≤ c && c ≤ 122) || (65 ≤ c && c ≤ 90)
/-- ASCII letter or digit. -/
def isAlnum (c : Nat) : Bool := isLetter c || isDigit c

/-- `[a-zA-Z]([a-zA-Z0-9-]*[a-zA-Z0-9])?` -/
def IsName (s : PyStr) : Prop :=
  (∃ c, s = [c] ∧ isLetter c = true) ∨
  ∃ a m z, s = a :: (m ++ [z]) ∧ isLetter a = true ∧ (∀ c ∈ m, isAlnum c = true ∨ c = 45) ∧ isAlnum z = true

/-! ### Whitespace -/

/-- The 25 whitespace code points (FCSLexer.g4:107-112; `White_Space` of Unicode). -/
def isWs (c : Nat) : Bool :=
  [9, 10, 11, 12, 13, 32, 133, 160, 5760, 8192, 8193, 8194, 8195, 8196, 8197, 8198, 8199, 8200, 8201, 8202,
    8232, 8233, 8239, 8287, 12288].contains c

/-! ### Tokens -/

/-- The text of a token is in the language of its rule. -/
def Tok.Lexed (t : Tok) : Prop := t.type = .EOF ∨ ∃ r, (t.type, r) ∈ lexRules ∧ Matches r t.text

end Fcsql
