/-
Specification of what is wrong with a query whose syntax is right: which token is objected to, and in which words.
-/
import Verif.Spec.Literal

set_option autoImplicit false

namespace Fcsql

/-- `s` is `n` in decimal notation, without leading zeros. -/
structure Decimal (s : PyStr) (n : Nat) : Prop where
  nonempty : s ≠ []
  digits : ∀ c ∈ s, 48 ≤ c ∧ c ≤ 57
  leading : s.head? = some 48 → s = [48]
  value : decimalValue s = n

/-- `s` is `n` in hexadecimal notation, with upper case letters and without leading zeros. -/
structure UpperHex (s : PyStr) (n : Nat) : Prop where
  nonempty : s ≠ []
  digits : ∀ c ∈ s, (48 ≤ c ∧ c ≤ 57) ∨ (65 ≤ c ∧ c ≤ 70)
  leading : s.head? = some 48 → s = [48]
  value : hexValue s = n

/-- What is wrong with a piece of a literal. -/
inductive PieceObjection (rt : PyRuntime) : LitPiece → PyStr → Prop
  /-- `\}` and `\]` are read by the lexer but not understood -/
  | escape {c : Nat} : c ∈ py!"}]" → PieceObjection rt (.esc c) (py!"invalid escape sequence: \\" ++ [c])
  /-- an escape beyond U+10FFFF -/
  | codepoint {l : Nat} {ds s : PyStr} : 0x10FFFF < hexValue ds →
      hexValue ds < 2 ^ 31 ∨ rt.chrOverflowIsValueError = true → UpperHex s (hexValue ds) →
      PieceObjection rt (.hex l ds) (py!"invalid codepoint: U+" ++ s)
  /-- the same, when the number does not even fit a C `int` and the interpreter minds -/
  | overflow {l : Nat} {ds : PyStr} : 2 ^ 31 ≤ hexValue ds → rt.chrOverflowIsValueError = false →
      PieceObjection rt (.hex l ds) py!"an unexpected exception occured while parsing"

/-- Some character of the text names the flag. -/
def HasFlag (text : PyStr) (f : RegexFlag) : Prop := ∃ c ∈ text, Names c f

/-- What is wrong with token `t` after the tokens `pre`. -/
inductive Objection (rt : PyRuntime) (pre : List Tok) (t : Tok) : PyStr → Prop
  /-- in a literal the first piece that is wrong -/
  | literal {q : Nat} {A B : List LitPiece} {p : LitPiece} {m : PyStr} : t.type = .REGEXP → IsLit t.text q (A ++ p :: B) →
      (∀ x ∈ A, ∀ m', ¬ PieceObjection rt x m') → PieceObjection rt p m → Objection rt pre t m
  /-- flags after `/`: sensitive and insensitive -/
  | caseFlags {s : Tok} : [s] <:+ pre → s.type = .FWD_SLASH → t.type = .REGEXP_FLAGS →
      HasFlag t.text .CASE_SENSITIVE → HasFlag t.text .CASE_INSENSITIVE →
      Objection rt pre t py!"invalid combination of regex modifier flags: 'i' or 'c' and 'I' or 'C' are mutually exclusive"
  /-- flags after `/`: literal matching and something else -/
  | literalFlag {s : Tok} {f : RegexFlag} : [s] <:+ pre → s.type = .FWD_SLASH → t.type = .REGEXP_FLAGS →
      ¬ (HasFlag t.text .CASE_SENSITIVE ∧ HasFlag t.text .CASE_INSENSITIVE) →
      HasFlag t.text .LITERAL_MATCHING → f ≠ .LITERAL_MATCHING → HasFlag t.text f →
      Objection rt pre t py!"invalid combination of regex modifier flags: 'l' is mutually exclusive with 'i', 'c', 'I', 'C' or 'd'"
  /-- a number with too many digits -/
  | tooLong : t.type = .INTEGER → rt.intMaxStrDigits ≠ 0 → rt.intMaxStrDigits < t.text.length →
      Objection rt pre t (py!"invalid integer: " ++ t.text)
  /-- `a,t` where `a` is larger -/
  | range {a c : Tok} {x y : PyStr} : [a, c] <:+ pre → a.type = .INTEGER → c.type = .Q_COMMA → t.type = .INTEGER →
      rt.intMaxStrDigits = 0 ∨ t.text.length ≤ rt.intMaxStrDigits → decimalValue t.text < decimalValue a.text →
      Decimal x (decimalValue a.text) → Decimal y (decimalValue t.text) →
      Objection rt pre t (py!"bad qualifier: min > max (" ++ x ++ py!" > " ++ y ++ py!")")

/-- Nothing is wrong with any of the tokens. -/
def Clean (rt : PyRuntime) (ts : List Tok) : Prop := ∀ A t B m, ts = A ++ t :: B → ¬ Objection rt A t m

/-- The first thing that is wrong with the tokens. -/
def Complaint (rt : PyRuntime) (ts : List Tok) (m : PyStr) : Prop :=
  ∃ A t B, ts = A ++ t :: B ∧ Objection rt A t m ∧ Clean rt A

end Fcsql
