/-
Where the first error of a malformed query is: the end of the longest beginning that some query has.
-/
import Verif.Spec.Recovery
import Verif.Spec.Derivation

set_option autoImplicit false

namespace Fcsql

/-- Some grammatical sequence of tokens begins with these tokens. -/
def Begins (us : List Tok) : Prop := ∃ ws f c, D (.rule .query) (us ++ ws) f c

/-- Alternative `j` of decision `d` can consume the tokens `us`, and then something. -/
def Reaches (A : Atn) (d : Nat) (ctx : List Nat) (us : List Tok) (j : Nat) : Prop := ∃ ws, ViableAlt A d ctx (us ++ ws) j

variable {σ : Type}

/-- The runtime looks ahead as far as it can: the alternative it chooses can consume all that any alternative can consume of
the remaining tokens; and when it gives up ("no viable alternative"), the offending token is the first one that none of
them can consume.  (Together with what is assumed for queries without errors.) -/
structure Strategy.Exact (S : Strategy σ) (A : Atn) : Prop where
  ideal : S.toPredictor.Ideal A
  longest : ∀ d ctx ts i us j, S.predict d ctx ts = some i → us <+: ts → Reaches A d ctx us j → Reaches A d ctx us i
  offending : ∀ m d ctx us x vs j, S.predict d ctx (us ++ x :: vs) = none → Reaches A d ctx us j →
    (∀ j, ¬ Reaches A d ctx (us ++ [x]) j) → (S.onNoViable m d ctx (us ++ x :: vs)).1 = us.length

/-- When the runtime gives up ("no viable alternative"), the tokens before the one it complains about can be consumed by some
alternative.  Nothing is said about the alternative chosen when it does not give up, except what is assumed for queries
without errors. -/
structure Strategy.Careful (S : Strategy σ) (A : Atn) : Prop where
  ideal : S.toPredictor.Ideal A
  offending : ∀ m d ctx ts, S.predict d ctx ts = none → (∃ j, Reaches A d ctx [] j) →
    ∃ j, Reaches A d ctx (ts.take (S.onNoViable m d ctx ts).1) j

end Fcsql
