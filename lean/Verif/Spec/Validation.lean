/-
Specification of the validation rules of `FCSQLValidator`, and of the issues of a tree.
-/
import Verif.Model.Validation
import Verif.Spec.Tree
import Verif.Spec.Py

set_option autoImplicit false

namespace Fcsql

/-- The layer is not allowed: not in the given list, or, without a (non-empty) list, neither a layer of the
specification nor `word` nor a custom layer. -/
def BadIdentifier (o : FcsqlOptions) (i : PyStr) : Prop :=
  (∃ a as, o.allowedIdentifiers = some (a :: as) ∧ i ∉ a :: as) ∨
  ((o.allowedIdentifiers = none ∨ o.allowedIdentifiers = some []) ∧
    i ∉ [py!"text", py!"lemma", py!"pos", py!"orth", py!"norm", py!"phonetic"] ∧ i ≠ py!"word" ∧ ¬ py!"x-" <+: i)

/-- The layer is allowed but dubious: `word` or a custom layer, when no list is given. -/
def DubiousIdentifier (o : FcsqlOptions) (i : PyStr) : Prop :=
  (o.allowedIdentifiers = none ∨ o.allowedIdentifiers = some []) ∧ (i = py!"word" ∨ py!"x-" <+: i)

/-- The qualifier is not allowed: a (non-empty) list of allowed qualifiers is given, and its first entry for
the layer does not have the qualifier (or there is no such entry, or it allows none). -/
def BadQualifier (o : FcsqlOptions) (q : Option PyStr) (i : PyStr) : Prop :=
  ∃ s as, q = some s ∧ s ≠ [] ∧ o.allowedQualifiers = some as ∧ as ≠ [] ∧
    ∀ qs, as.find? (fun p => p.1 = i) = some (i, some qs) → s ∉ qs

/-- The part-of-speech tags of Universal Dependencies. -/
def udTags : List PyStr :=
  [ py!"ADJ", py!"ADV", py!"INTJ", py!"NOUN", py!"PROPN", py!"VERB", py!"ADP", py!"AUX", py!"CCONJ",
    py!"DET", py!"NUM", py!"PART", py!"PRON", py!"SCONJ", py!"PUNCT", py!"SYM", py!"X" ]

/-- A text with a character that is special in regular expressions (or a control character for whitespace). -/
def LooksLikeRegex (s : PyStr) : Prop :=
  ∃ c ∈ s, c ∈ py!"()[]{}?*+-|^$\\.&~#" ∨ c = 9 ∨ c = 10 ∨ c = 13 ∨ c = 11 ∨ c = 12

/-- A part-of-speech tag that is neither a UD tag nor looks like a regular expression nor has flags, on the
layer `pos` without qualifier. -/
def DubiousPos (q : Option PyStr) (i r : PyStr) (fl : Option FlagSet) : Prop :=
  i = py!"pos" ∧ (q = none ∨ q = some []) ∧ r ∉ udTags ∧ ¬ LooksLikeRegex r ∧
    ∀ fs, fl = some fs → ∀ f, fs.has f = false

/-- An `Expression` with an error. -/
def ExprBad (o : FcsqlOptions) (n : Node) : Prop :=
  ∃ q i op r fl, n.kind = .expression q i op r fl ∧ (BadIdentifier o i ∨ BadQualifier o q i)

/-- An `Expression` with a warning. -/
def ExprDubious (o : FcsqlOptions) (n : Node) : Prop :=
  ∃ q i op r fl, n.kind = .expression q i op r fl ∧ (DubiousIdentifier o i ∨ DubiousPos q i r fl)

/-- An issue: an error or a warning. -/
structure Issue where
  isError : Bool
  node : Node
  msg : PyStr

/-- The issue as recorded, for a validator with this query text. -/
def Issue.detail (query : Option PyStr) (x : Issue) : ErrorDetail :=
  { message := x.msg
    type := some (if x.isError then py!"validation-error" else py!"validation-warning")
    position := match x.node.loc with
      | some l => .loc l
      | none => .none
    fragment := match query, x.node.loc with
      | some q, some l => if q = [] then none else some (substring q l.start l.stop)
      | _, _ => none }

/-- Does the issue count as an error? -/
def Issue.counts (warningsAsErrors : Bool) (x : Issue) : Bool := x.isError || warningsAsErrors

/-- A list of strings as Python shows it. -/
def shownList (rt : PyRuntime) (l : List PyStr) : PyStr :=
  py!"[" ++ (py!", ").intercalate (l.map rt.strRepr) ++ py!"]"

/-- Message for a layer that is not allowed. -/
def badIdentifierMsg (rt : PyRuntime) (o : FcsqlOptions) (i : PyStr) : PyStr :=
  py!"Unknown layer identifier '" ++ i ++ (match o.allowedIdentifiers with
    | some (a :: as) => py!"' (only allowed: " ++ shownList rt (a :: as) ++ py!")!"
    | _ => py!"'!")

/-- Message for a dubious layer. -/
def dubiousIdentifierMsg (i : PyStr) : PyStr :=
  if i = py!"word" then py!"Usage of legacy(?) layer 'word'. Did you mean 'text' instead?"
  else py!"Usage of custom layer with identifier '" ++ i ++ py!"'"

/-- Message for a qualifier that is not allowed. -/
def badQualifierMsg (rt : PyRuntime) (o : FcsqlOptions) (q : Option PyStr) (i : PyStr) : PyStr :=
  match (o.allowedQualifiers.getD []).find? fun p => p.1 = i with
  | some (_, some qs) => py!"Usage of unknown layer qualifier '" ++ q.getD [] ++ py!"' for layer with identifier '" ++
      i ++ py!"' (only allowed: " ++ shownList rt qs ++ py!")!"
  | _ => py!"Usage of layer qualifier '" ++ q.getD [] ++ py!"' which is not allowed for layer with identifier '" ++ i ++
      py!"'!"

/-- Message for a dubious part-of-speech tag. -/
def dubiousPosMsg (rt : PyRuntime) (r : PyStr) : PyStr :=
  py!"Layer 'pos' without qualifier should use UD17 POS tags, found '" ++ r ++ py!"' (recommended to only use: " ++
    shownList rt udTags ++ py!")"

open Classical in
/-- The issues of one node: only an `Expression` has any; layer first, then qualifier, then part of speech. -/
noncomputable def issuesAt (rt : PyRuntime) (o : FcsqlOptions) (n : Node) : List Issue :=
  match n.kind with
  | .expression q i _ r fl =>
    (if BadIdentifier o i then [⟨true, n, badIdentifierMsg rt o i⟩]
      else if DubiousIdentifier o i then [⟨false, n, dubiousIdentifierMsg i⟩] else []) ++
    (if BadQualifier o q i then [⟨true, n, badQualifierMsg rt o q i⟩] else []) ++
    (if DubiousPos q i r fl then [⟨false, n, dubiousPosMsg rt r⟩] else [])
  | _ => []

/-- The issues of a tree, in document order. -/
noncomputable def treeIssues (rt : PyRuntime) (o : FcsqlOptions) (n : Node) : List Issue :=
  n.subnodes.flatMap (issuesAt rt o)

end Fcsql
