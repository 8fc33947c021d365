/-
What a network accepts: paths through its transitions.
-/
import Verif.Model.Atn

set_option autoImplicit false

namespace Fcsql

/-- Token type numbers (FCSParser.py:164-189; `Token.EOF` is `-1`). -/
def TokType.num : TokType → Int
  | .L_PAREN => 1 | .R_PAREN => 2 | .L_SQUARE_BRACKET => 3 | .R_SQUARE_BRACKET => 4 | .OR => 5 | .AND => 6
  | .NOT => 7 | .FWD_SLASH => 8 | .L_CURLY_BRACKET => 9 | .R_CURLY_BRACKET => 10 | .Q_ONE_OR_MORE => 11
  | .Q_ZERO_OR_MORE => 12 | .Q_ZERO_OR_ONE => 13 | .Q_COMMA => 14 | .OPERATOR_EQ => 15 | .OPERATOR_NE => 16
  | .COLON => 17 | .WITHIN => 18 | .SIMPLE_WITHIN_SCOPE => 19 | .REGEXP_FLAGS => 20 | .IDENTIFIER => 21
  | .INTEGER => 22 | .REGEXP => 23 | .QUOTED_STRING => 24 | .Space => 25 | .EOF => -1

/-- Rule indices (FCSParser.py:132-154). -/
def Rule.num : Rule → Nat
  | .query => 0 | .main_query => 1 | .query_disjunction => 2 | .query_sequence => 3 | .query_group => 4
  | .query_simple => 5 | .quantifier => 6 | .query_implicit => 7 | .query_segment => 8 | .within_part => 9
  | .within_part_simple => 10 | .expression => 11 | .expression_or => 12 | .expression_and => 13
  | .expression_group => 14 | .expression_not => 15 | .expression_basic => 16 | .attribute_ => 17
  | .qualifier => 18 | .identifier => 19 | .regexp => 20 | .regexp_pattern => 21 | .regexp_flag => 22

/-- The number lies in one of the inclusive intervals. -/
def InIntervals (k : Int) (l : List (Int × Int)) : Prop := ∃ p ∈ l, p.1 ≤ k ∧ k ≤ p.2

/-- `Walk A s ts f`: there is a path in the network `A` from state `s` to the end of the rule `s` belongs to that
consumes the tokens `ts`, calling other rules on the way; `f` are the tokens and rule nodes passed. -/
inductive Walk (A : Atn) : Nat → List Tok → List PTree → Prop
  | stop {s : Nat} : A.isStop s = true → Walk A s [] []
  | eps {s t : Nat} {ts : List Tok} {f : List PTree} : .eps t ∈ A.out s → Walk A t ts f → Walk A s ts f
  | atom {s t : Nat} {x : Tok} {ts : List Tok} {f : List PTree} :
      .atom x.type.num t ∈ A.out s → Walk A t ts f → Walk A s (x :: ts) (.leaf x :: f)
  | set {s t : Nat} {l : List (Int × Int)} {x : Tok} {ts : List Tok} {f : List PTree} :
      .set l t ∈ A.out s → InIntervals x.type.num l → Walk A t ts f → Walk A s (x :: ts) (.leaf x :: f)
  | rule {s start t : Nat} {r : Rule} {us ts : List Tok} {ks f : List PTree} :
      .rule start r.num t ∈ A.out s → Walk A start us ks → Walk A t ts f →
      Walk A s (us ++ ts) (.node r ks :: f)

/-- `atn.ruleToStartState[r]`. -/
def Atn.start (A : Atn) (r : Rule) : Nat :=
  match A.rules[r.num]? with
  | some p => p.1
  | none => 0

end Fcsql
