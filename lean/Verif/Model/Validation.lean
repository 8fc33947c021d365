/-
`src/fcsql/validation.py` and `fcsql.validate` (`src/fcsql/__init__.py` 93-181).
-/
import Verif.Model.QueryParser
import Verif.Model.Visitor

set_option autoImplicit false

namespace Fcsql

/-- `SpecificationValidationError` (validation.py:39-43). -/
structure SpecError where
  msg : PyStr
  node : Node
  fragment : Option PyStr

/-- Attributes of a `Validator` object (validation.py:75-90); the stack has its top first.  `own` stands for
the attributes a subclass adds. -/
structure VState (X : Type) where
  stack : List Node
  query : Option PyStr
  raiseAtFirst : Bool
  warningsAsErrors : Bool
  errors : List ErrorDetail
  warnings : List ErrorDetail
  own : X

/-- `Validator.__init__` (validation.py:55-90). -/
def VState.new {X : Type} (query : Option PyStr) (raiseAtFirst warningsAsErrors : Bool) (own : X) : VState X :=
  { stack := [], query, raiseAtFirst, warningsAsErrors, errors := [], warnings := [], own }

/-- A statement on the validator object. -/
abbrev VAct (X α : Type) := VState X → Except SpecError α × VState X

/-- Sequencing of statements; an exception aborts, the object keeps its changes. -/
def VAct.andThen {X α β : Type} (a : VAct X α) (b : α → VAct X β) : VAct X β := fun s =>
  match a s with
  | (.ok x, s) => b x s
  | (.error e, s) => (.error e, s)

/-- No statement. -/
def VAct.skip {X : Type} : VAct X Unit := fun s => (.ok (), s)

/-- `fragment = None; if self.query and node.location: fragment = self.query[start:stop]`
(validation.py:155-157, 185-187). -/
def issueFragment (query : Option PyStr) (n : Node) : Option PyStr :=
  match query, n.loc with
  | some q, some l => if q.isEmpty then none else some (slice q l.start l.stop)
  | _, _ => none

/-- `position=node.location` -/
def issuePosition (n : Node) : Position :=
  match n.loc with
  | some l => .loc l
  | none => .none

/-- `Validator.validation_error` (validation.py:144-169). -/
def validationError {X : Type} (n : Node) (msg : PyStr) : VAct X Unit := fun s =>
  let fragment := issueFragment s.query n
  if s.raiseAtFirst then (.error ⟨msg, n, fragment⟩, s)
  else (.ok (), { s with errors := s.errors ++
    [{ message := msg, type := some py!"validation-error", position := issuePosition n, fragment }] })

/-- `Validator.validation_warning` (validation.py:171-200). -/
def validationWarning {X : Type} (n : Node) (msg : PyStr) : VAct X Unit := fun s =>
  let fragment := issueFragment s.query n
  if s.warningsAsErrors && s.raiseAtFirst then (.error ⟨msg, n, fragment⟩, s)
  else (.ok (), { s with warnings := s.warnings ++
    [{ message := msg, type := some py!"validation-warning", position := issuePosition n, fragment }] })

/-- `Validator.parent_node` (validation.py:204-215). -/
def VState.parentNode {X : Type} (s : VState X) : Option Node := s.stack.head?

/-- The `visit_*` methods of `Validator` (validation.py:217-287), all of the same form: push the node,
`super().visit_*(node)` (= `visitChildren`), pop. -/
def validatorVisit {X : Type} (node : Node) (accepts : List (Act Unit (VState X) SpecError)) :
    Act Unit (VState X) SpecError := fun s =>
  match visitChildrenLoop {} node accepts { s with stack := node :: s.stack } with
  | (.ok r, s) => (.ok r, { s with stack := s.stack.tail })
  | (.error e, s) => (.error e, s)

/-- `UNIVERSAL_POS_TAGS` (validation.py:293-314). -/
def universalPosTags : List PyStr :=
  [ py!"ADJ", py!"ADV", py!"INTJ", py!"NOUN", py!"PROPN", py!"VERB", py!"ADP", py!"AUX", py!"CCONJ",
    py!"DET", py!"NUM", py!"PART", py!"PRON", py!"SCONJ", py!"PUNCT", py!"SYM", py!"X" ]

/-- The characters `re.escape` escapes (Python standard library, `re._special_chars_map`). -/
def reSpecial : List Nat := py!"()[]{}?*+-|^$\\.&~# " ++ [9, 10, 13, 11, 12]

/-- `re.escape` (Python standard library). -/
def reEscape (s : PyStr) : PyStr := s.flatMap fun c => if c ∈ reSpecial then [92, c] else [c]

/-- `value.replace(" ", "")` -/
def removeSpaces (s : PyStr) : PyStr := s.filter fun c => c ≠ 32

/-- `is_likely_a_regex` (validation.py:322-337). -/
def isLikelyARegex (value : PyStr) : Bool := removeSpaces value ≠ reEscape (removeSpaces value)

/-- `repr` of a list of strings. -/
def listRepr (rt : PyRuntime) (l : List PyStr) : PyStr :=
  py!"[" ++ joinStr py!", " (l.map rt.strRepr) ++ py!"]"

/-- Options of `FCSQLValidator` (validation.py:356-372). -/
structure FcsqlOptions where
  allowedIdentifiers : Option (List PyStr)
  allowedQualifiers : Option (List (PyStr × Option (List PyStr)))

/-- `KNOWN_LEGACY_LAYER_IDENTIFIER` (validation.py:346). -/
def knownLegacy : List PyStr := [py!"word"]
/-- `KNOWN_LAYER_IDENTIFIERS` (validation.py:347-354). -/
def knownLayers : List PyStr :=
  [py!"text", py!"lemma", py!"pos", py!"orth", py!"norm", py!"phonetic"]

/-- The layer identifier rule (validation.py:377-392). -/
def checkIdentifier {X : Type} (rt : PyRuntime) (o : FcsqlOptions) (n : Node) (identifier : PyStr) : VAct X Unit :=
  match o.allowedIdentifiers with
  | some (a :: as) =>
    if identifier ∉ a :: as then
      validationError n (py!"Unknown layer identifier '" ++ identifier ++ py!"' (only allowed: " ++
        listRepr rt (a :: as) ++ py!")!")
    else VAct.skip
  | _ =>
    if identifier ∉ knownLayers then
      if identifier ∈ knownLegacy then
        validationWarning n (py!"Usage of legacy(?) layer '" ++ identifier ++
          py!"'. Did you mean 'text' instead?")
      else if !startsWith identifier py!"x-" then
        validationError n (py!"Unknown layer identifier '" ++ identifier ++ py!"'!")
      else
        validationWarning n (py!"Usage of custom layer with identifier '" ++ identifier ++ py!"'")
    else VAct.skip

/-- The loop of validation.py:395-399: the qualifiers of the first entry for this identifier. -/
def lookupQualifiers (identifier : PyStr) :
    List (PyStr × Option (List PyStr)) → Option (List PyStr)
  | [] => none
  | (i, qs) :: rest => if i = identifier then qs else lookupQualifiers identifier rest

/-- The layer qualifier rule (validation.py:394-416). -/
def checkQualifier {X : Type} (rt : PyRuntime) (o : FcsqlOptions) (n : Node) (identifier : PyStr)
    (qualifier : Option PyStr) : VAct X Unit :=
  match qualifier, o.allowedQualifiers with
  | some (c :: cs), some (a :: as) =>
    match lookupQualifiers identifier (a :: as) with
    | none =>
      validationError n (py!"Usage of layer qualifier '" ++ (c :: cs) ++
        py!"' which is not allowed for layer with identifier '" ++ identifier ++ py!"'!")
    | some qs =>
      if (c :: cs) ∉ qs then
        validationError n (py!"Usage of unknown layer qualifier '" ++ (c :: cs) ++
          py!"' for layer with identifier '" ++ identifier ++ py!"' (only allowed: " ++
          listRepr rt qs ++ py!")!")
      else VAct.skip
  | _, _ => VAct.skip

/-- The part-of-speech rule (validation.py:418-428). -/
def checkPos {X : Type} (rt : PyRuntime) (n : Node) (qualifier : Option PyStr) (identifier regex : PyStr)
    (flags : Option FlagSet) : VAct X Unit :=
  if identifier = py!"pos" ∧ (qualifier = none ∨ qualifier = some []) then
    if regex ∉ universalPosTags ∧ isLikelyARegex regex = false ∧
        (match flags with | none => true | some f => f.isEmpty) = true then
      validationWarning n (py!"Layer '" ++ identifier ++
        py!"' without qualifier should use UD17 POS tags, found '" ++ regex ++
        py!"' (recommended to only use: " ++ listRepr rt universalPosTags ++ py!")")
    else VAct.skip
  else VAct.skip

/-- The statements of `FCSQLValidator.visit_Expression` before `super().visit_Expression(node)`
(validation.py:376-428).  It is only ever called with an `Expression` (the only class whose `node_type` is
`Expression`); on any other class the attribute accesses would fail, which the last branch does not model. -/
def fcsqlCheckExpression {X : Type} (rt : PyRuntime) (o : FcsqlOptions) (n : Node) : VAct X Unit :=
  match n.kind with
  | .expression q i _ r f =>
    (checkIdentifier rt o n i).andThen fun _ =>
      (checkQualifier rt o n i q).andThen fun _ => checkPos rt n q i r f
  | _ => VAct.skip

/-- A subclass of `Validator` (validation.py:46-287) that overrides some of the `visit_*` methods by
`...; return super().visit_*(node)`: `check name` are the statements before the call of the super method
(none if the method is not overridden).  Methods with other names are not modelled. -/
def subValidator {X : Type} (check : PyStr → Node → VAct X Unit) : Visitor Unit (VState X) SpecError :=
  { method := fun name =>
      if name ∈ adapterMethods then
        some fun n accepts => (check name n).andThen fun _ => validatorVisit n accepts
      else none }

/-- `FCSQLValidator` (validation.py:340-430): overrides `visit_Expression` only. -/
def fcsqlValidator {X : Type} (rt : PyRuntime) (o : FcsqlOptions) : Visitor Unit (VState X) SpecError :=
  subValidator fun name n => if name = py!"visit_Expression" then fcsqlCheckExpression rt o n else VAct.skip

/-- `Validator.validate` (validation.py:92-120) for a validator with the given methods. -/
def validateWith {X : Type} (v : Visitor Unit (VState X) SpecError) (n : Node) (query : Option PyStr) :
    VAct X Bool := fun s =>
  let s := match query with
    | some q => { s with query := some q }
    | none => s
  let s := { s with errors := [], warnings := [] }
  match visitNode v n s with
  | (.ok _, s) =>
    let issues := s.errors.length + (if s.warningsAsErrors then s.warnings.length else 0)
    (.ok (issues = 0), s)
  | (.error e, s) => (.error e, s)

/-- `Validator.is_valid` (validation.py:122-142). -/
def isValidWith {X : Type} (v : Visitor Unit (VState X) SpecError) (n : Node) (query : Option PyStr) (s : VState X) :
    Bool × VState X :=
  match validateWith v n query s with
  | (.ok b, s) => (b, s)
  | (.error _, s) => (false, s)

/-- What `fcsql.validate` returns. -/
inductive ValidateResult
  | bool (b : Bool)
  | list (l : List ErrorDetail)
  deriving DecidableEq, Repr

/-- The versions in `VALIDATORS` (validation.py:435-437): only `FCSQLValidator.SPECIFICATION_VERSION`. -/
def knownVersions : List PyStr := [py!"2.2"]

/-- `fcsql.validate` (__init__.py:116-181).  The exception is `ValueError`; its message is not modelled. -/
def fcsqlValidate (rt : Runtime) (q : PyStr) (version : PyStr := py!"2.2")
    (returnErrors warningsAsErrors : Bool := false) : Except Unit ValidateResult :=
  if version ∉ knownVersions then .error ()
  else
    let v := fcsqlValidator rt.toPyRuntime { allowedIdentifiers := none, allowedQualifiers := none }
    let s := VState.new (some q) (!returnErrors) warningsAsErrors ()
    let (outcome, parser) :=
      (QueryParser.new { defaultConfig with enableSourceLocations := true }).parse rt q
    match outcome with
    | .error ex =>
      if returnErrors then
        .ok (.list ((if startsWith ex.msg py!"unable to parse query: " then []
            else [{ message := ex.msg, type := none, position := .none, fragment := none }]) ++
          parser.errors))
      else .ok (.bool false)
    | .ok qn =>
      match validateWith v qn none s with
      | (.error _, _) => .ok (.bool false)
      | (.ok _, s) =>
        let errors := s.errors ++ (if warningsAsErrors then s.warnings else [])
        .ok (if returnErrors then .list errors else .bool errors.isEmpty)

end Fcsql
