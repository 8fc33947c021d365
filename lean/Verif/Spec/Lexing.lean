/-
Specification of lexing: the language of a regular expression, and what it means to split a text by
"longest match, first rule".
-/
import Verif.Model.Lexer

set_option autoImplicit false

namespace Fcsql

/-- `Matches r w`: the string `w` is in the language of `r`. -/
inductive Matches : Rx → PyStr → Prop
  | eps : Matches .eps []
  | cls {rs : List (Nat × Nat)} {c : Nat} : inRanges c rs = true → Matches (.cls rs) [c]
  | neg {rs : List (Nat × Nat)} {c : Nat} :
      c < 0x110000 → inRanges c rs = false → Matches (.neg rs) [c]
  | seq {a b : Rx} {u v : PyStr} : Matches a u → Matches b v → Matches (.seq a b) (u ++ v)
  | altL {a b : Rx} {w : PyStr} : Matches a w → Matches (.alt a b) w
  | altR {a b : Rx} {w : PyStr} : Matches b w → Matches (.alt a b) w
  | starNil {a : Rx} : Matches (.star a) []
  | starCons {a : Rx} {u v : PyStr} :
      Matches a u → Matches (.star a) v → Matches (.star a) (u ++ v)

/-- Some rule (of the given list) matches the text. -/
def SomeRule (rs : List (TokType × Rx)) (w : PyStr) : Prop := ∃ p ∈ rs, Matches p.2 w

/-- `t` is the type of the first rule that matches the text. -/
inductive FirstRule : List (TokType × Rx) → TokType → PyStr → Prop
  | here {t : TokType} {r : Rx} {rs : List (TokType × Rx)} {w : PyStr} :
      Matches r w → FirstRule ((t, r) :: rs) t w
  | there {t t' : TokType} {r : Rx} {rs : List (TokType × Rx)} {w : PyStr} :
      ¬ Matches r w → FirstRule rs t w → FirstRule ((t', r) :: rs) t w

/-- `w` can be extended to something a rule matches. -/
def Viable (rs : List (TokType × Rx)) (w : PyStr) : Prop := ∃ v, SomeRule rs (w ++ v)

/-- `w` is the longest non-empty prefix of `s` that some lexer rule matches, `t` the first such rule. -/
structure LongestMatch (s : PyStr) (t : TokType) (w : PyStr) : Prop where
  nonempty : w ≠ []
  isPrefix : w <+: s
  first : FirstRule lexRules t w
  longest : ∀ w', w' <+: s → w.length < w'.length → ¬ SomeRule lexRules w'

/-- No lexer rule matches any non-empty prefix of `s`. -/
def NoMatch (s : PyStr) : Prop := ∀ w, w <+: s → w ≠ [] → ¬ SomeRule lexRules w

/-- `w` is the span of a lexical error at the beginning of `s`: it is the shortest prefix that cannot
be extended to a token, or all of `s` if every prefix can. -/
structure ErrorSpan (s w : PyStr) : Prop where
  noMatch : NoMatch s
  nonempty : w ≠ []
  isPrefix : w <+: s
  viable : ∀ w', w' <+: w → w' ≠ w → Viable lexRules w'
  stuck : w = s ∨ ¬ Viable lexRules w

/-- What a longest match of rule `t` becomes: whitespace is skipped, anything else is a token. -/
def kindOf (t : TokType) : PieceKind := if t = .Space then .skip else .tok t

/-- `Splits s pos col ps`: the text `s`, found at offset `pos` and column `col` of the query, is cut
into the pieces `ps`, each of them being the longest match (or the error span) of what is left. -/
inductive Splits : PyStr → Nat → Nat → List Piece → Prop
  | nil {pos col : Nat} : Splits [] pos col []
  | token {w rest : PyStr} {pos col : Nat} {t : TokType} {ps : List Piece} :
      LongestMatch (w ++ rest) t w → Splits rest (pos + w.length) (advanceColumn col w) ps →
      Splits (w ++ rest) pos col ({ kind := kindOf t, text := w, start := pos, column := col } :: ps)
  | error {w rest : PyStr} {pos col : Nat} {ps : List Piece} :
      ErrorSpan (w ++ rest) w → Splits rest (pos + w.length) (advanceColumn col w) ps →
      Splits (w ++ rest) pos col ({ kind := .err, text := w, start := pos, column := col } :: ps)

end Fcsql
