/-
`fcsql.parse`, `fcsql.can_parse` and `fcsql.validate` (`src/fcsql/__init__.py` 59-181) when an exception arrives from outside.
-/
import Verif.Model.Faults
import Verif.Model.Registry

set_option autoImplicit false

namespace Fcsql

/-- A call that returns, or is left by what has arrived. -/
inductive Attempt (α : Type)
  | returns (a : α)
  | strike (k : Strike)
  deriving DecidableEq, Repr

/-- `fcsql.parse` (__init__.py:59-74): a new parser object. -/
def fcsqlParseF (L A : Atn) (m n : Nat) (rt : PyRuntime) (F : Faults) (q : PyStr) (enableSourceLocations : Bool := true) :
    Option (ParseEnd × List ErrorDetail) :=
  parseF L A m n rt { defaultConfig with enableSourceLocations } F [] q

/-- `fcsql.can_parse` (__init__.py:77-90): `except QueryParserException` only. -/
def canParseF (L A : Atn) (m n : Nat) (rt : PyRuntime) (F : Faults) (q : PyStr) : Option (Attempt Bool) :=
  match fcsqlParseF L A m n rt F q with
  | none => none
  | some (.node _, _) => some (.returns true)
  | some (.parserException _, _) => some (.returns false)
  | some (.strike k, _) => some (.strike k)

/-- `fcsql.validate` (__init__.py:116-181): the parse (`F`), then the validator; the function catches `QueryParserException` at
the first, `SpecificationValidationError` at the second (`V`: what arrives meanwhile, or later). -/
def validateF (L A : Atn) (m n : Nat) (rt : PyRuntime) (reg : Registry) (F : Faults) (V : Option Strike) (q version : PyStr)
    (returnErrors warningsAsErrors : Bool) : Option (Attempt (Except PyStr ValidateResult)) :=
  match reg.get version with
  | none => some (.returns (.error (py!"No validator found for version=" ++ rt.strRepr version ++ py!"!")))
  | some cls =>
    let s := VState.new (some q) (!returnErrors) warningsAsErrors cls.own
    match parseF L A m n rt { defaultConfig with enableSourceLocations := true } F [] q with
    | none => none
    | some (.strike k, _) => some (.strike k)
    | some (.parserException ex, parserErrors) =>
      if !returnErrors then some (.returns (.ok (.bool false)))
      else
        let errors := if startsWith ex.msg py!"unable to parse query: " then []
          else [{ message := ex.msg, type := none, position := .none, fragment := none }]
        some (.returns (.ok (.list (errors ++ parserErrors))))
    | some (.node qn, _) =>
      match V with
      | some k => some (.strike k)
      | none =>
        match validateWith cls.visitor qn none s with
        | (.error _, _) => some (.returns (.ok (.bool false)))
        | (.ok _, s) =>
          let errors := s.errors
          let errors := if warningsAsErrors then errors ++ s.warnings else errors
          some (.returns (.ok (if returnErrors then .list errors else .bool errors.isEmpty)))

end Fcsql
