/-
What the lexer's network says about a text: which stretch is the next token, and of which kind.
-/
import Verif.Spec.Atn
import Verif.Spec.Lexing

set_option autoImplicit false

namespace Fcsql

/-- `LexWalk A s w acts`: there is a path in the network `A` from state `s` to the end of the rule `s` belongs to that
consumes the characters `w`, calling other rules on the way; `acts` are the actions passed. -/
inductive LexWalk (A : Atn) : Nat → PyStr → List Nat → Prop
  | stop {s : Nat} : A.isStop s = true → LexWalk A s [] []
  | eps {s t : Nat} {w : PyStr} {acts : List Nat} : .eps t ∈ A.out s → LexWalk A t w acts → LexWalk A s w acts
  | atom {s t c : Nat} {w : PyStr} {acts : List Nat} :
      .atom (c : Int) t ∈ A.out s → LexWalk A t w acts → LexWalk A s (c :: w) acts
  | set {s t c : Nat} {l : List (Int × Int)} {w : PyStr} {acts : List Nat} :
      .set l t ∈ A.out s → InIntervals c l → LexWalk A t w acts → LexWalk A s (c :: w) acts
  | notSet {s t c : Nat} {l : List (Int × Int)} {w : PyStr} {acts : List Nat} :
      .notSet l t ∈ A.out s → c ≤ 0x10FFFF → ¬ InIntervals c l → LexWalk A t w acts → LexWalk A s (c :: w) acts
  | rule {s start i t : Nat} {u w : PyStr} {acts acts' : List Nat} :
      .rule start i t ∈ A.out s → LexWalk A start u acts → LexWalk A t w acts' → LexWalk A s (u ++ w) (acts ++ acts')
  | action {s a t : Nat} {w : PyStr} {acts : List Nat} :
      .action a t ∈ A.out s → LexWalk A t w acts → LexWalk A s w (a :: acts)

/-- Alternative `i` (counted from 0) of the start state of the lexer's only mode is the rule that starts in `s`. -/
def Atn.LexAlt (A : Atn) (i s : Nat) : Prop := ∃ m, A.modes = [m] ∧ (A.out m)[i]? = some (.eps s)

/-- Alternative `i` accepts the text. -/
def Atn.LexAccepts (A : Atn) (i : Nat) (w : PyStr) : Prop := ∃ s acts, A.LexAlt i s ∧ LexWalk A s w acts

/-- `atn.ruleToTokenType[atn.states[s].ruleIndex]`. -/
def Atn.tokenType (A : Atn) (s : Nat) : Option Nat :=
  match A.states[s]? with
  | none => none
  | some st =>
    match A.rules[st.rule.toNat]? with
    | none => none
    | some p => some p.2

/-- A match of the rule starting in `s`, with the given actions, is skipped: one of them is of type 6 (`skip`). -/
def Atn.Skips (A : Atn) (acts : List Nat) : Prop := ∃ a ∈ acts, ∃ p, A.actions[a]? = some p ∧ p.1 = 6

/-- The stretch `w` at the beginning of `text` is the longest one that some alternative accepts, the first such
alternative is the rule that starts in `s`, and `acts` are actions on its path. -/
structure NetMatch (A : Atn) (text w : PyStr) (s : Nat) (acts : List Nat) : Prop where
  nonempty : w ≠ []
  isPrefix : w <+: text
  first : ∃ i, A.LexAlt i s ∧ LexWalk A s w acts ∧ ∀ j, j < i → ¬ A.LexAccepts j w
  longest : ∀ w', w' <+: text → w.length < w'.length → ∀ j, ¬ A.LexAccepts j w'

/-- The stretch `w` at the beginning of `text` is a lexical error: no non-empty prefix of `text` is accepted, and `w` is
the shortest prefix that cannot be extended to something accepted, or all of `text` if every prefix can. -/
structure NetError (A : Atn) (text w : PyStr) : Prop where
  noMatch : ∀ w', w' <+: text → w' ≠ [] → ∀ j, ¬ A.LexAccepts j w'
  nonempty : w ≠ []
  isPrefix : w <+: text
  viable : ∀ w', w' <+: w → w' ≠ w → ∃ v j, A.LexAccepts j (w' ++ v)
  stuck : w = text ∨ ∀ v j, ¬ A.LexAccepts j (w ++ v)

/-- The text, found at an offset and column, is cut into pieces by the network. -/
inductive NetSplits (A : Atn) : PyStr → Nat → Nat → List Piece → Prop
  | nil {pos col : Nat} : NetSplits A [] pos col []
  | token {w rest : PyStr} {pos col s : Nat} {acts : List Nat} {t : TokType} {ps : List Piece} :
      NetMatch A (w ++ rest) w s acts → ¬ A.Skips acts → A.tokenType s = some t.num.toNat → t ≠ .EOF →
      NetSplits A rest (pos + w.length) (advanceColumn col w) ps →
      NetSplits A (w ++ rest) pos col ({ kind := .tok t, text := w, start := pos, column := col } :: ps)
  | skip {w rest : PyStr} {pos col s : Nat} {acts : List Nat} {ps : List Piece} :
      NetMatch A (w ++ rest) w s acts → A.Skips acts →
      NetSplits A rest (pos + w.length) (advanceColumn col w) ps →
      NetSplits A (w ++ rest) pos col ({ kind := .skip, text := w, start := pos, column := col } :: ps)
  | error {w rest : PyStr} {pos col : Nat} {ps : List Piece} :
      NetError A (w ++ rest) w → NetSplits A rest (pos + w.length) (advanceColumn col w) ps →
      NetSplits A (w ++ rest) pos col ({ kind := .err, text := w, start := pos, column := col } :: ps)

end Fcsql
