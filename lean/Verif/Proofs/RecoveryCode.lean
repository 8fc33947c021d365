/-
Runs of the generated functions with error recovery come to an end.
-/
import Verif.Proofs.RecoveryHalt
import Verif.Proofs.GenCheck
import Verif.Spec.Recovery

set_option autoImplicit false
set_option linter.unusedSimpArgs false

namespace Fcsql

/-- All rules. -/
def allRules : List Rule :=
  [.query, .main_query, .query_disjunction, .query_sequence, .query_group, .query_simple, .quantifier, .query_implicit,
   .query_segment, .within_part, .within_part_simple, .expression, .expression_or, .expression_and, .expression_group,
   .expression_not, .expression_basic, .attribute_, .qualifier, .identifier, .regexp, .regexp_pattern, .regexp_flag]

theorem mem_allRules (r : Rule) : r ∈ allRules := by cases r <;> decide

/-- Alternative `a` of decision `d` can go on with the next token. -/
def altTable (d a : Nat) (k : Option TokType) : Bool :=
  match parserAtn.decisions[d]? with
  | none => false
  | some s => decide (1 ≤ a) && match (parserAtn.out s)[a - 1]? with
    | some (.eps t) => expects t (keyNum k)
    | _ => false

/-- The tokens a function consumes for sure when one of them is next (unless an exception is raised). -/
def sureTokens : Rule → List TokType
  | .query_group => [.L_PAREN]
  | .query_simple => [.L_SQUARE_BRACKET, .REGEXP]
  | .query_segment => [.L_SQUARE_BRACKET]
  | .query_implicit => [.REGEXP]
  | .regexp => [.REGEXP]
  | .regexp_pattern => [.REGEXP]
  | .expression_group => [.L_PAREN]
  | .expression_not => [.NOT]
  | .expression_basic => [.WITHIN, .SIMPLE_WITHIN_SCOPE, .REGEXP_FLAGS, .IDENTIFIER]
  | .attribute_ => [.WITHIN, .SIMPLE_WITHIN_SCOPE, .REGEXP_FLAGS, .IDENTIFIER]
  | .identifier => [.WITHIN, .SIMPLE_WITHIN_SCOPE, .REGEXP_FLAGS, .IDENTIFIER]
  | _ => []

/-- The tables for the generated code. -/
def codeTab : ScanTab where
  silent r k := !(k.any fun t => (sureTokens r).contains t)
  alt := altTable

/-- Weights of the functions. -/
def ruleWeight : Rule → Option TokType → Nat
  | .query, _ => 20
  | .main_query, _ => 19
  | .query_group, k => if k = some .L_PAREN then 0 else 18
  | .query_disjunction, _ => 17
  | .query_sequence, _ => 16
  | .query_simple, _ => 15
  | .query_segment, _ => 14
  | .expression, _ => 13
  | .expression_group, k => if k = some .L_PAREN then 0 else 12
  | .expression_not, k => if k = some .NOT then 0 else 12
  | .expression_or, _ => 11
  | .expression_and, _ => 10
  | .query_implicit, _ => 5
  | .expression_basic, _ => 5
  | .attribute_, _ => 3
  | .regexp, _ => 3
  | .within_part, _ => 1
  | .regexp_pattern, _ => 1
  | _, _ => 0

theorem codeTab_silent : (allRules.all fun r => allKeys.all fun k => codeTab.silent r k ||
    (!(scanL codeTab k (code r)).fin && (!(scanL codeTab k (code r)).raise || solid k))) = true := by decide +kernel

theorem codeTab_prod : (allRules.all fun r => prodL codeTab (code r)) = true := by decide +kernel

theorem codeTab_weight : (allRules.all fun r => allKeys.all fun k =>
    (scanL codeTab k (code r)).calls.all fun r' => ruleWeight r' k < ruleWeight r k) = true := by decide +kernel

variable {σ : Type} {S : Strategy σ} {eof : Tok}

theorem codeTab_ok (hS : S.Sound parserAtn) : codeTab.Ok S code := by
  constructor
  · intro r k h
    have := List.all_eq_true.1 (List.all_eq_true.1 codeTab_silent r (mem_allRules r)) k (mem_allKeys k)
    rw [h] at this
    simpa using this
  · intro d ctx ts a h
    obtain ⟨s, t, h1, h2, h3, h4⟩ := hS.starts d ctx ts a h
    show altTable d a (nextType ts) = true
    unfold altTable
    rw [h1]
    dsimp only
    rw [h3]
    dsimp only
    rw [← la_keyNum, expects_of_expected h4]
    simpa using h2

/-- Every function, in any context and state, comes to an end. -/
theorem code_haltsR (hS : S.Sound parserAtn) (r : Rule) (ctx : List Nat) (s : RState σ) (hc : Capped s.rest) :
    HaltsR S eof code ctx (code r) s := by
  refine halts_rule (codeTab_ok hS) (fun r => ?_) ruleWeight (fun r k r' h => ?_) _ _ r ctx s (Nat.le_refl _) (Nat.le_refl _) hc
  · exact List.all_eq_true.1 codeTab_prod r (mem_allRules r)
  · have := List.all_eq_true.1 (List.all_eq_true.1 (List.all_eq_true.1 codeTab_weight r (mem_allRules r)) k (mem_allKeys k)) r' h
    simpa using this

end Fcsql
