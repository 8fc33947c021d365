/-
What is assumed of the runtime library's predictor, in terms of the network alone.
-/
import Verif.Model.GenParser

set_option autoImplicit false

namespace Fcsql

/-- `atn.states[st].transitions[0].followState`, for a state that calls a rule. -/
def Atn.follow (A : Atn) (st : Nat) : Option Nat :=
  match A.out st with
  | .rule _ _ t :: _ => some t
  | _ => none

/-- From state `s`, called from the invoking states `ctx`, all the remaining tokens can be consumed: a path to the end
of the rule, then from the follow state of the innermost caller, and so on. -/
inductive Accepts (A : Atn) : Nat → List Nat → List Tok → Prop
  | done {s : Nat} {ts : List Tok} {f : List PTree} : Walk A s ts f → Accepts A s [] ts
  | ret {s st t : Nat} {ctx : List Nat} {us vs : List Tok} {f : List PTree} :
      Walk A s us f → A.follow st = some t → Accepts A t ctx vs → Accepts A s (st :: ctx) (us ++ vs)

/-- Alternative `i` (counted from 1) of decision `d` leads to a state from which the remaining tokens can be
consumed. -/
def ViableAlt (A : Atn) (d : Nat) (ctx : List Nat) (ts : List Tok) (i : Nat) : Prop :=
  ∃ s t, A.decisions[d]? = some s ∧ 1 ≤ i ∧ (A.out s)[i - 1]? = some (.eps t) ∧ Accepts A t ctx ts

/-- Some path from `st` begins with a token of type `k`, or consumes nothing. -/
def Expected (A : Atn) (st : Nat) (k : Int) : Prop :=
  ∃ ts f, Walk A st ts f ∧ ∀ x xs, ts = x :: xs → x.type.num = k

/-- The predictor is right about network `A`: when some alternative is viable, it returns the least one; an answer
is always the number of an alternative that exists; and `sync` complains only when the next token is not expected.
Nothing else is assumed when no alternative is viable. -/
structure Predictor.Ideal (P : Predictor) (A : Atn) : Prop where
  predict : ∀ d ctx ts i, ViableAlt A d ctx ts i → (∀ j, j < i → ¬ ViableAlt A d ctx ts j) → P.predict d ctx ts = some i
  range : ∀ d ctx ts i s, P.predict d ctx ts = some i → A.decisions[d]? = some s → 1 ≤ i ∧ i ≤ (A.out s).length
  sync : ∀ st ctx ts, Expected A st (la ts) → P.sync st ctx ts = true

/-- Calling the generated function of rule `r` on the tokens `ts` ends with result `res` (however large the bound on
the number of steps). -/
def Ends (P : Predictor) (prog : Rule → List Stmt) (r : Rule) (ts : List Tok) (res : Res) : Prop :=
  ∃ N, ∀ n, N ≤ n → exec P prog n [] (prog r) ts = res

end Fcsql
