/-
Specification of how a query text is laid out: tokens and whitespace, in elementary terms.
-/
import Verif.Spec.Written

set_option autoImplicit false

namespace Fcsql

/-- The fixed tokens (FCSLexer.g4:9-26). -/
def fixedTokens : List (TokType × PyStr) :=
  [ (.L_PAREN, py!"("), (.R_PAREN, py!")"), (.L_SQUARE_BRACKET, py!"["), (.R_SQUARE_BRACKET, py!"]"),
    (.OR, py!"|"), (.AND, py!"&"), (.NOT, py!"!"), (.FWD_SLASH, py!"/"), (.L_CURLY_BRACKET, py!"{"),
    (.R_CURLY_BRACKET, py!"}"), (.Q_ONE_OR_MORE, py!"+"), (.Q_ZERO_OR_MORE, py!"*"), (.Q_ZERO_OR_ONE, py!"?"),
    (.Q_COMMA, py!","), (.OPERATOR_EQ, py!"="), (.OPERATOR_NE, py!"!="), (.COLON, py!":"), (.WITHIN, py!"within") ]

/-- `w` is a word of a `within` clause. -/
def IsScopeWord (w : PyStr) : Prop := ∃ s, (w, s) ∈ scopeWords

/-- `w` consists of flag letters. -/
def IsFlags (w : PyStr) : Prop := w ≠ [] ∧ ∀ c ∈ w, c ∈ py!"iIcCld"

/-- `w` is the text of a token of type `ty`. -/
inductive TokenText : TokType → PyStr → Prop
  | fixed {ty : TokType} {w : PyStr} : (ty, w) ∈ fixedTokens → TokenText ty w
  | scope {w : PyStr} : IsScopeWord w → TokenText .SIMPLE_WITHIN_SCOPE w
  | flags {w : PyStr} : IsFlags w → TokenText .REGEXP_FLAGS w
  | identifier {w : PyStr} : IsName w → w ≠ py!"within" → ¬ IsScopeWord w → ¬ IsFlags w → TokenText .IDENTIFIER w
  | integer {w : PyStr} : w ≠ [] → w.all isDigit = true → TokenText .INTEGER w
  | literal {w : PyStr} {q : Nat} {ps : List LitPiece} : IsLit w q ps → TokenText .REGEXP w

/-- A token of type `ty` directly followed by character `c` would be read differently: a word or a number would go on,
and `!` with `=` is another operator. -/
def Sticks : TokType → Nat → Prop
  | .NOT, c => c = 61
  | .INTEGER, c => isDigit c = true
  | .WITHIN, c => isAlnum c = true ∨ c = 45
  | .SIMPLE_WITHIN_SCOPE, c => isAlnum c = true ∨ c = 45
  | .REGEXP_FLAGS, c => isAlnum c = true ∨ c = 45
  | .IDENTIFIER, c => isAlnum c = true ∨ c = 45
  | _, _ => False

/-- `Laid ts q`: the text `q` consists of the tokens `ts` (type and text), in order, with any whitespace before,
between and after them, where whitespace is needed only between tokens that would otherwise stick together. -/
inductive Laid : List (TokType × PyStr) → PyStr → Prop
  | nil {ws : PyStr} : (∀ c ∈ ws, isWs c = true) → Laid [] ws
  | cons {ws w rest : PyStr} {ty : TokType} {ts : List (TokType × PyStr)} : (∀ c ∈ ws, isWs c = true) →
      TokenText ty w → Laid ts rest → (∀ c, rest.head? = some c → ¬ Sticks ty c) → Laid ((ty, w) :: ts) (ws ++ (w ++ rest))

/-- Texts with gaps around them: `gap text gap text ... gap`. -/
def interleave : List PyStr → List PyStr → PyStr
  | [], _ => []
  | g :: _, [] => g
  | g :: gs, w :: ws => g ++ (w ++ interleave gs ws)

/-- Gaps for `n` texts: one before, one after and one between any two; all whitespace, and not empty between texts. -/
structure GapsFor (n : Nat) (gaps : List PyStr) : Prop where
  count : gaps.length = n + 1
  white : ∀ g ∈ gaps, ∀ c ∈ g, isWs c = true
  between : ∀ i, 0 < i → i < n → gaps[i]? ≠ some []

/-- Python's `sep.join(qs)`. -/
def joinWith (sep : PyStr) : List PyStr → PyStr
  | [] => []
  | [q] => q
  | q :: qs => q ++ (sep ++ joinWith sep qs)

/-- The text of a quantifier, and the bounds it stands for. -/
inductive QuantText (rt : PyRuntime) : PyStr → Int → Int → Prop
  | star : QuantText rt py!"*" 0 (-1)
  | plus : QuantText rt py!"+" 1 (-1)
  | opt : QuantText rt py!"?" 0 1
  | exactly {x : PyStr} {n : Int} : IsInt rt x n → QuantText rt (py!"{" ++ x ++ py!"}") n n
  | atLeast {x : PyStr} {n : Int} : IsInt rt x n → QuantText rt (py!"{" ++ x ++ py!",}") n (-1)
  | atMost {y : PyStr} {m : Int} : IsInt rt y m → QuantText rt (py!"{," ++ y ++ py!"}") 0 m
  | between {x y : PyStr} {n m : Int} : IsInt rt x n → IsInt rt y m → n ≤ m →
      QuantText rt (py!"{" ++ x ++ py!"," ++ y ++ py!"}") n m

end Fcsql
