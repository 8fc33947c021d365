/-
Specification of when two token texts, and two token sequences, mean the same.
-/
import Verif.Spec.Layout

set_option autoImplicit false

namespace Fcsql

/-- What a token of type `ty`, written after a token of type `prev`, contributes to a query is the same for the texts
`w` and `w'`. Literals count by their (normalised) values, integers by their values, flags after `/` by the set of flags
they name, scope words after `within` by their scope; names count by their texts. Flag letters and scope words elsewhere
are names. Punctuation has only one spelling. -/
def SameMeaning (rt : PyRuntime) (cfg : Config) (prev : Option TokType) : TokType → PyStr → PyStr → Prop
  | .REGEXP, w, w' => ∀ v, (∃ raw, LitValue w raw ∧ v = cfg.norm rt raw) ↔ (∃ raw, LitValue w' raw ∧ v = cfg.norm rt raw)
  | .INTEGER, w, w' => ∀ n, IntText rt w n ↔ IntText rt w' n
  | .REGEXP_FLAGS, w, w' =>
    if prev = some .FWD_SLASH then ∀ f, (∃ c ∈ w, Names c f) ↔ (∃ c ∈ w', Names c f) else w = w'
  | .SIMPLE_WITHIN_SCOPE, w, w' =>
    if prev = some .WITHIN then ∀ sc, (w, sc) ∈ scopeWords ↔ (w', sc) ∈ scopeWords else w = w'
  | .IDENTIFIER, w, w' => w = w'
  | .WITHIN, w, w' => w = w'
  | _, _, _ => True

/-- Two sequences of tokens (type and text), each after a token of type `prev`, have the same types and mean the same. -/
def Alike (rt : PyRuntime) (cfg : Config) : Option TokType → List (TokType × PyStr) → List (TokType × PyStr) → Prop
  | _, [], [] => True
  | prev, (ty, w) :: ts, (ty', w') :: ts' => ty = ty' ∧ SameMeaning rt cfg prev ty w w' ∧ Alike rt cfg (some ty) ts ts'
  | _, _, _ => False

end Fcsql
