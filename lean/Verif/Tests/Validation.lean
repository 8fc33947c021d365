/-
The project's validation tests (tests/validation/test_validation.py), run on the model by the kernel.
These are tests of the model, not proofs of properties.
-/
import Verif.Props.Examples

set_option autoImplicit false

namespace Fcsql

/-- The environment of `rt0`, with the syntax error ANTLR reports for `[`. -/
def rtBracket : Runtime := { rt0 with syntaxErrors := fun q => (.parser (eofTok q) py!"no viable alternative at input '['", []) }

/-! test_validate -/

example : fcsqlValidate rt0 py!"\"Banane\"" = .ok (.bool true) := by decide +kernel
example : fcsqlValidate rt0 py!"[ text = \"Banane\" ]" = .ok (.bool true) := by decide +kernel
example : fcsqlValidate rt0 py!"[text=\"Banane\"] " = .ok (.bool true) := by decide +kernel
example : fcsqlValidate rt0 py!"[]" = .ok (.bool true) := by decide +kernel
example : fcsqlValidate rt0 py!"[ pos = \"NOUN\" ]{2,}" = .ok (.bool true) := by decide +kernel
example : fcsqlValidate rt0 py!"" = .ok (.bool false) := by decide +kernel
example : fcsqlValidate rt0 py!"[ " = .ok (.bool false) := by decide +kernel
example : fcsqlValidate rt0 py!"[ test = \"Banane\" ]" = .ok (.bool false) := by decide +kernel
example : fcsqlValidate rt0 py!"[pos = \"NOUN\"]" py!"2.2" = .ok (.bool true) := by decide +kernel
example : fcsqlValidate rt0 py!"[]" py!"1.0" = .error () := by decide +kernel

/-! test_validate_with_errors_list -/

example : fcsqlValidate rt0 py!"[]" py!"2.2" true = .ok (.list []) := by decide +kernel
example : fcsqlValidate rtBracket py!"[" py!"2.2" true = .ok (.list [⟨py!"no viable alternative at input '['",
    some py!"syntax-error", .loc ⟨1, 1⟩, some py!"["⟩]) := by decide +kernel
example : fcsqlValidate rt0 py!"[post = \"NOUN\"]" py!"2.2" true = .ok (.list [⟨py!"Unknown layer identifier 'post'!",
    some py!"validation-error", .loc ⟨1, 14⟩, some py!"post = \"NOUN\""⟩]) := by decide +kernel

/-! The tests of `FCSQLValidator`: `FCSQLValidator(...).validate(parser.parse(query), query=query)`. -/

/-- What a test looks at: the result (or message and fragment of the exception), messages and fragments of errors and warnings. -/
structure Seen where
  result : Except (PyStr × Option PyStr) Bool
  errors : List (PyStr × Option PyStr)
  warnings : List (PyStr × Option PyStr)
  deriving DecidableEq

/-- Options of a validator in the tests. -/
structure Opts where
  ids : Option (List PyStr) := none
  quals : Option (List (PyStr × Option (List PyStr))) := none
  raises : Bool := true
  warn : Bool := false

/-- One call of `validate` for each query, on one validator; what is seen after the last one. -/
def seen (o : Opts) (qs : List PyStr) : Option Seen :=
  let v : Visitor Unit (VState Unit) SpecError := fcsqlValidator rt0.toPyRuntime { allowedIdentifiers := o.ids, allowedQualifiers := o.quals }
  let step := fun (p : Option Seen × VState Unit) (q : PyStr) =>
    match (parseQuery rt0 locConfig q).1 with
    | .error _ => (none, p.2)
    | .ok n =>
      let r := validateWith v n (some q) p.2
      let f := fun (e : ErrorDetail) => (e.message, e.fragment)
      (some { result := match r.1 with | .ok b => .ok b | .error e => .error (e.msg, e.fragment),
              errors := r.2.errors.map f, warnings := r.2.warnings.map f }, r.2)
  (qs.foldl step (none, VState.new none o.raises o.warn ())).1

/-! test_validation_basic_v2_2 -/
example : seen {} [py!"\"Banane\""] = some ⟨.ok true, [], []⟩ := by decide +kernel
example : seen {} [py!"\"Banane\"", py!"\"Banane\""] = some ⟨.ok true, [], []⟩ := by decide +kernel

/-! test_validation_violation_basic_v2_2 -/
example : seen {} [py!"[ lemmas = \"invalid\" ]"] =
    some ⟨.error (py!"Unknown layer identifier 'lemmas'!", some py!"lemmas = \"invalid\""), [], []⟩ := by decide +kernel
example : seen { raises := false } [py!"[ lemmas = \"invalid\" ]"] =
    some ⟨.ok false, [(py!"Unknown layer identifier 'lemmas'!", some py!"lemmas = \"invalid\"")], []⟩ := by decide +kernel
example : seen { raises := false } [py!"[ lemmas = \"invalid\" ]", py!"[ lemmas = \"invalid\" ]"] =
    some ⟨.ok false, [(py!"Unknown layer identifier 'lemmas'!", some py!"lemmas = \"invalid\"")], []⟩ := by decide +kernel

/-! test_validation_violation_multiple_v2_2 -/
example : seen {} [py!"[ post = \"NOUN\"] [lemmas = \"der\"]"] =
    some ⟨.error (py!"Unknown layer identifier 'post'!", some py!"post = \"NOUN\""), [], []⟩ := by decide +kernel
example : seen { raises := false } [py!"[ post = \"NOUN\"] [lemmas = \"der\"]"] =
    some ⟨.ok false, [(py!"Unknown layer identifier 'post'!", some py!"post = \"NOUN\""),
      (py!"Unknown layer identifier 'lemmas'!", some py!"lemmas = \"der\"")], []⟩ := by decide +kernel

/-! test_validation_custom_layer_v2_2 -/
example : seen { ids := some [py!"post"] } [py!"[ post = \"NOUN\"]"] = some ⟨.ok true, [], []⟩ := by decide +kernel
example : seen { ids := some [py!"lemmas"] } [py!"[ post = \"NOUN\"]"] =
    some ⟨.error (py!"Unknown layer identifier 'post' (only allowed: ['lemmas'])!", some py!"post = \"NOUN\""), [], []⟩ := by decide +kernel

/-! test_validation_custom_layer_qualifiers_v2_2 -/
example : seen {} [py!"[ stts:pos = \"NNS\"]"] = some ⟨.ok true, [], []⟩ := by decide +kernel
example : seen { quals := some [(py!"pos", none)] } [py!"[ stts:pos = \"NNS\"]"] =
    some ⟨.error (py!"Usage of layer qualifier 'stts' which is not allowed for layer with identifier 'pos'!", some py!"stts:pos = \"NNS\""), [], []⟩ := by
  decide +kernel
example : seen { quals := some [(py!"pos", some [py!"ud17", py!"xyz"])] } [py!"[ stts:pos = \"NNS\"]"] =
    some ⟨.error (py!"Usage of unknown layer qualifier 'stts' for layer with identifier 'pos' (only allowed: ['ud17', 'xyz'])!",
      some py!"stts:pos = \"NNS\""), [], []⟩ := by decide +kernel
example : seen { quals := some [(py!"pos", some [py!"ud17", py!"stts"])] } [py!"[ stts:pos = \"NNS\"]"] = some ⟨.ok true, [], []⟩ := by decide +kernel
example : seen { ids := some [py!"abc"], quals := some [(py!"pos", some [py!"ud17", py!"stts"])], raises := false } [py!"[ stts:pos = \"NNS\"]"] =
    some ⟨.ok false, [(py!"Unknown layer identifier 'pos' (only allowed: ['abc'])!", some py!"stts:pos = \"NNS\"")], []⟩ := by decide +kernel

/-! test_is_likely_a_regex -/
example : isLikelyARegex py!"NOUN" = false ∧ isLikelyARegex py!"multiple words" = false := by decide
example : isLikelyARegex py!"^NOUN" = true ∧ isLikelyARegex py!"NOUN$" = true ∧ isLikelyARegex py!"NOUN?" = true ∧
    isLikelyARegex py!"(NOUN)" = true ∧ isLikelyARegex py!"N[O]UN" = true ∧ isLikelyARegex py!"with\\ escapes" = true ∧
    isLikelyARegex py!"test." = true ∧ isLikelyARegex py!"test?" = true := by decide

/-! test_validation_errors_warnings_reset -/

/-- The warning about an unknown part of speech. -/
def posWarning (t : PyStr) : PyStr := py!"Layer 'pos' without qualifier should use UD17 POS tags, found '" ++ t ++
  py!"' (recommended to only use: ['ADJ', 'ADV', 'INTJ', 'NOUN', 'PROPN', 'VERB', 'ADP', 'AUX', 'CCONJ', 'DET', 'NUM', 'PART', 'PRON', 'SCONJ', 'PUNCT', 'SYM', 'X'])"

example : seen { raises := false } [py!"[ pos = \"NNS\"]"] = some ⟨.ok true, [], [(posWarning py!"NNS", some py!"pos = \"NNS\"")]⟩ := by decide +kernel
example : seen { raises := false, warn := true } [py!"[ pos = \"NNS\"]", py!"[ pos = \"NNS\"]"] =
    some ⟨.ok false, [], [(posWarning py!"NNS", some py!"pos = \"NNS\"")]⟩ := by decide +kernel
example : seen { raises := false, warn := true } [py!"[ pos = \"NNS\"]", py!"[ post = \"NNS\"]"] =
    some ⟨.ok false, [(py!"Unknown layer identifier 'post'!", some py!"post = \"NNS\"")], []⟩ := by decide +kernel

/-! test_validation_pos_layer_v2_2 -/
example : seen { warn := true } [py!"[ stts:pos = \"NNS\"]"] = some ⟨.ok true, [], []⟩ := by decide +kernel
example : seen { warn := true } [py!"[ stts:pos = \"NNS\"]", py!"[ pos = \"NNS\"]"] =
    some ⟨.error (posWarning py!"NNS", some py!"pos = \"NNS\""), [], []⟩ := by decide +kernel
example : seen { warn := true } [py!"[ stts:pos = \"NNS\"]", py!"[ pos = \"NNS\"]", py!"[ pos = \"ART\"]"] =
    some ⟨.error (posWarning py!"ART", some py!"pos = \"ART\""), [], []⟩ := by decide +kernel

/-! test_validation_word_layer -/
example : seen { raises := false } [py!"[ word = \"test\" ]"] =
    some ⟨.ok true, [], [(py!"Usage of legacy(?) layer 'word'. Did you mean 'text' instead?", some py!"word = \"test\"")]⟩ := by decide +kernel

/-! README.md -/
example : fcsqlValidate rt0 py!"'apples'" = .ok (.bool true) := by decide +kernel
example : fcsqlValidate rt0 py!"apples" = .ok (.bool false) := by decide +kernel
example : fcsqlValidate rt0 py!"[ pos = \"NOUNT\" ]{3,0}" = .ok (.bool false) := by decide +kernel

end Fcsql
