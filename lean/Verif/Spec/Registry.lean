/-
Which validator is in charge of a version.
-/
import Verif.Model.Registry
import Verif.Spec.CustomValidators

set_option autoImplicit false

namespace Fcsql

/-- The validator for a version after a history (newest first): the one last assigned to it, if it has not been removed since;
in the beginning there is the library's own, for version 2.2. -/
def inCharge (rt : PyRuntime) (version : PyStr) : List RegOp → Option ValidatorClass
  | [] => if version = py!"2.2" then some (builtinValidator rt) else none
  | .assign v c :: older => if v = version then some c else inCharge rt version older
  | .remove v :: older => if v = version then none else inCharge rt version older
  | .validate _ _ _ _ :: older => inCharge rt version older

/-- A validator that only reports issues (`reporter`). -/
def reporterClass (issues : PyStr → Node → Option Node → List Issue) : ValidatorClass :=
  { Own := Unit, own := (), visitor := reporter issues }

/-- The library's validator with options, e.g. `functools.partial(FCSQLValidator, allowed_layer_identifiers=[...])`. -/
def configuredValidator (rt : PyRuntime) (o : FcsqlOptions) : ValidatorClass :=
  { Own := Unit, own := (), visitor := fcsqlValidator rt o }

/-- The issues `validate` returns for a query that can be parsed: the errors, then the warnings if they are wanted; in document
order. -/
def returned (q : PyStr) (warningsAsErrors : Bool) (xs : List Issue) : List ErrorDetail :=
  ((xs.filter fun x => x.isError) ++ if warningsAsErrors then xs.filter fun x => !x.isError else []).map (Issue.detail (some q))

end Fcsql
