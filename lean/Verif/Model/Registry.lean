/-
`fcsql.validate` (`src/fcsql/__init__.py` 116-181) with the dictionary `VALIDATORS` (validation.py:434-438) as users of the library
may change it.
-/
import Verif.Model.Validation

set_option autoImplicit false

namespace Fcsql

/-- A value in `VALIDATORS`, called as at __init__.py:150-154: `Own` are the attributes its objects have besides those of `Validator`
(validation.py:55-90), with their values after the constructor; `visitor` are its methods.  Simplified: `validate` is that of
`Validator` (validation.py:92-120), and methods raise nothing but `SpecificationValidationError`. -/
structure ValidatorClass where
  Own : Type
  own : Own
  visitor : Visitor Unit (VState Own) SpecError

/-- `FCSQLValidator` (validation.py:340-430), called without options for layers (__init__.py:150-154). -/
def builtinValidator (rt : PyRuntime) : ValidatorClass :=
  { Own := Unit, own := (), visitor := fcsqlValidator rt { allowedIdentifiers := none, allowedQualifiers := none } }

/-- `VALIDATORS` (validation.py:434-438): a dictionary, as the list of its items. -/
abbrev Registry := List (PyStr × ValidatorClass)

/-- `VALIDATORS.get(version, None)` (__init__.py:144). -/
def Registry.get (reg : Registry) (version : PyStr) : Option ValidatorClass := (reg.find? fun p => p.1 = version).map (·.2)

/-- `VALIDATORS[version] = cls`, with validation.py:434-438: a new item is the last one. -/
def Registry.assign (reg : Registry) (version : PyStr) (cls : ValidatorClass) : Registry :=
  if reg.any fun p => p.1 = version then reg.map fun p => if p.1 = version then (version, cls) else p else reg ++ [(version, cls)]

/-- `VALIDATORS.pop(version, None)`, with validation.py:434-438. -/
def Registry.remove (reg : Registry) (version : PyStr) : Registry := reg.filter fun p => p.1 ≠ version

/-- What `VALIDATORS` is when the modules have been loaded (validation.py:434-438). -/
def initialRegistry (rt : PyRuntime) : Registry := [(py!"2.2", builtinValidator rt)]

/-- `fcsql.validate` (__init__.py:116-181); the exception is a `ValueError` with this message (__init__.py:146). -/
def validateIn (rt : Runtime) (reg : Registry) (q version : PyStr) (returnErrors warningsAsErrors : Bool) : Except PyStr ValidateResult :=
  match reg.get version with
  | none => .error (py!"No validator found for version=" ++ rt.strRepr version ++ py!"!")
  | some cls =>
    let s := VState.new (some q) (!returnErrors) warningsAsErrors cls.own
    let (outcome, parser) := (QueryParser.new { defaultConfig with enableSourceLocations := true }).parse rt q
    match outcome with
    | .error ex =>
      if !returnErrors then .ok (.bool false)
      else
        let errors := if startsWith ex.msg py!"unable to parse query: " then []
          else [{ message := ex.msg, type := none, position := .none, fragment := none }]
        .ok (.list (errors ++ parser.errors))
    | .ok qn =>
      match validateWith cls.visitor qn none s with
      | (.error _, _) => .ok (.bool false)
      | (.ok _, s) =>
        let errors := s.errors
        let errors := if warningsAsErrors then errors ++ s.warnings else errors
        .ok (if returnErrors then .list errors else .bool errors.isEmpty)

/-- What a program does with the dictionary and the function (validation.py:434-438, __init__.py:116-181). -/
inductive RegOp
  | assign (version : PyStr) (cls : ValidatorClass)
  | remove (version : PyStr)
  | validate (q version : PyStr) (returnErrors warningsAsErrors : Bool)

/-- One after the other: the dictionary afterwards (validation.py:434-438), and what the calls of `validate` returned or raised. -/
def Registry.run (rt : Runtime) : Registry → List RegOp → Registry × List (Except PyStr ValidateResult)
  | reg, [] => (reg, [])
  | reg, .assign v c :: ops => Registry.run rt (reg.assign v c) ops
  | reg, .remove v :: ops => Registry.run rt (reg.remove v) ops
  | reg, .validate q v re wae :: ops =>
    let r := Registry.run rt reg ops
    (r.1, validateIn rt reg q v re wae :: r.2)

end Fcsql
