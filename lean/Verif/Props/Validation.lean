/-
C34-C40, C42: the validator.
-/
import Verif.Proofs.Validation
import Verif.Props.Locations
import Verif.Props.Entry

set_option autoImplicit false
set_option linter.unusedSimpArgs false

namespace Fcsql

attribute [local irreducible] parseQuery

variable {X : Type}

/-! ### C34 -/

/-- A node has an error issue exactly if it is an `Expression` violating the layer or the qualifier rule. -/
theorem issuesAt_error (rt : PyRuntime) (o : FcsqlOptions) (n : Node) :
    (∃ x ∈ issuesAt rt o n, x.isError = true) ↔ ExprBad o n := by
  unfold issuesAt ExprBad
  cases hk : n.kind with
  | expression q i op r fl =>
    simp only [Kind.expression.injEq]
    constructor
    · rintro ⟨x, hx, he⟩
      refine ⟨q, i, op, r, fl, ⟨rfl, rfl, rfl, rfl, rfl⟩, ?_⟩
      by_cases h1 : BadIdentifier o i
      · exact .inl h1
      · by_cases h2 : BadQualifier o q i
        · exact .inr h2
        · exfalso
          simp only [h1, h2, if_false, List.append_nil] at hx
          by_cases h3 : DubiousIdentifier o i <;> by_cases h4 : DubiousPos q i r fl <;> simp [h3, h4] at hx
          · rcases hx with rfl | rfl <;> simp at he
          · subst hx; simp at he
          · subst hx; simp at he
    · rintro ⟨_, _, _, _, _, ⟨rfl, rfl, rfl, rfl, rfl⟩, h⟩
      by_cases h1 : BadIdentifier o i
      · exact ⟨⟨true, n, badIdentifierMsg rt o i⟩, by simp only [h1, if_true]; simp, rfl⟩
      · have h2 : BadQualifier o q i := h.resolve_left h1
        exact ⟨⟨true, n, badQualifierMsg rt o q i⟩, by simp only [h2, if_true]; simp, rfl⟩
  | _ => simp

theorem bad_not_dubious {o : FcsqlOptions} {i : PyStr} (h : DubiousIdentifier o i) : ¬ BadIdentifier o i := by
  rintro (⟨a, as, h1, -⟩ | ⟨-, -, h2, h3⟩)
  · rcases h.1 with e | e <;> rw [e] at h1 <;> cases h1
  · rcases h.2 with e | e
    · exact h2 e
    · exact h3 e

/-- A node has a warning issue exactly if it is an `Expression` with a dubious layer or part-of-speech tag. -/
theorem issuesAt_warning (rt : PyRuntime) (o : FcsqlOptions) (n : Node) :
    (∃ x ∈ issuesAt rt o n, x.isError = false) ↔ ExprDubious o n := by
  unfold issuesAt ExprDubious
  cases hk : n.kind with
  | expression q i op r fl =>
    simp only [Kind.expression.injEq]
    constructor
    · rintro ⟨x, hx, he⟩
      refine ⟨q, i, op, r, fl, ⟨rfl, rfl, rfl, rfl, rfl⟩, ?_⟩
      by_cases h1 : DubiousIdentifier o i
      · exact .inl h1
      · by_cases h2 : DubiousPos q i r fl
        · exact .inr h2
        · exfalso
          simp only [h1, h2, if_false, List.append_nil] at hx
          by_cases h3 : BadIdentifier o i <;> by_cases h4 : BadQualifier o q i <;> simp [h3, h4] at hx
          · rcases hx with rfl | rfl <;> simp at he
          · subst hx; simp at he
          · subst hx; simp at he
    · rintro ⟨_, _, _, _, _, ⟨rfl, rfl, rfl, rfl, rfl⟩, h⟩
      by_cases h1 : DubiousIdentifier o i
      · exact ⟨⟨false, n, dubiousIdentifierMsg i⟩, by simp only [bad_not_dubious h1, h1, if_true, if_false]; simp, rfl⟩
      · have h2 : DubiousPos q i r fl := h.resolve_left h1
        exact ⟨⟨false, n, dubiousPosMsg rt r⟩, by simp only [h2, if_true]; simp, rfl⟩
  | _ => simp

/-- The issues of a node are about this node. -/
theorem issuesAt_node (rt : PyRuntime) (o : FcsqlOptions) (n : Node) (x : Issue) (h : x ∈ issuesAt rt o n) :
    x.node = n := by
  unfold issuesAt at h
  split at h
  · simp only [List.mem_append] at h
    rcases h with (h | h) | h <;> revert h <;> (repeat' split) <;> simp <;> rintro rfl <;> rfl
  · cases h

theorem counts_none_iff (rt : PyRuntime) (o : FcsqlOptions) (n : Node) (wae : Bool) :
    (∀ x ∈ treeIssues rt o n, x.counts wae = false) ↔
      (∀ m ∈ n.subnodes, ¬ ExprBad o m) ∧ (wae = true → ∀ m ∈ n.subnodes, ¬ ExprDubious o m) := by
  simp only [treeIssues, List.mem_flatMap, Issue.counts, ← issuesAt_error rt, ← issuesAt_warning rt]
  constructor
  · intro h
    refine ⟨fun m hm ⟨x, hx, he⟩ => ?_, fun hw m hm ⟨x, hx, he⟩ => ?_⟩
    · have := h x ⟨m, hm, hx⟩; simp [he] at this
    · have := h x ⟨m, hm, hx⟩; simp [hw] at this
  · rintro ⟨h1, h2⟩ x ⟨m, hm, hx⟩
    cases he : x.isError with
    | true => exact absurd ⟨x, hx, he⟩ (h1 m hm)
    | false =>
      cases hw : wae with
      | false => rfl
      | true => exact absurd ⟨x, hx, he⟩ (h2 hw m hm)

/-- The number of issues that count. -/
theorem count_zero (xs : List Issue) (wae : Bool) (f : Issue → ErrorDetail) :
    (((xs.filter Issue.isError).map f).length +
      (if wae then ((xs.filter fun x => !x.isError).map f).length else 0) = 0) ↔
      ∀ x ∈ xs, x.counts wae = false := by
  cases wae
  · simp [Issue.counts, List.filter_eq_nil_iff]
  · simp only [List.length_map, if_true, Nat.add_eq_zero_iff, List.length_eq_zero_iff, List.filter_eq_nil_iff,
      Issue.counts, Bool.or_true]
    constructor
    · rintro ⟨h1, h2⟩ x hx
      have := h1 x hx; have := h2 x hx
      cases he : x.isError <;> simp_all
    · intro h
      exact ⟨fun x hx => absurd (h x hx) (by simp), fun x hx => absurd (h x hx) (by simp)⟩

open Classical in
theorem validate_collect (rt : PyRuntime) (o : FcsqlOptions) (n : Node) (query : Option PyStr) (s : VState X)
    (hs : s.raiseAtFirst = false) :
    validateWith (fcsqlValidator rt o) n query s =
      (.ok (decide (∀ x ∈ treeIssues rt o n, x.counts s.warningsAsErrors = false)), { s.reset query with
        errors := ((treeIssues rt o n).filter Issue.isError).map (Issue.detail (s.reset query).query)
        warnings := ((treeIssues rt o n).filter fun x => !x.isError).map (Issue.detail (s.reset query).query) }) := by
  rw [validateWith_eq]
  have h := fcsql_reports rt o n (s.reset query)
  rw [reportAll_collect _ (s.reset query) hs] at h
  simp only at h
  rw [h]
  simp only [VState.reset, List.nil_append, Prod.mk.injEq, and_true]
  congr 1
  exact decide_eq_decide.2 (count_zero _ _ _)

theorem validate_raise (rt : PyRuntime) (o : FcsqlOptions) (n : Node) (query : Option PyStr) (s : VState X)
    (hs : s.raiseAtFirst = true) : ∃ st,
    validateWith (fcsqlValidator rt o) n query s =
      (match (treeIssues rt o n).find? (Issue.counts s.warningsAsErrors) with
        | some x => .error ⟨x.msg, x.node, (x.detail (s.reset query).query).fragment⟩
        | none => .ok true, { s.reset query with
        stack := st
        warnings := ((treeIssues rt o n).takeWhile fun x => !x.counts s.warningsAsErrors).map
          (Issue.detail (s.reset query).query) }) := by
  rw [validateWith_eq]
  have h := fcsql_reports rt o n (s.reset query)
  rw [reportAll_raise _ (s.reset query) hs] at h
  cases hf : (treeIssues rt o n).find? (Issue.counts s.warningsAsErrors) with
  | some x =>
    have hf' : (treeIssues rt o n).find? (Issue.counts (s.reset query).warningsAsErrors) = some x := hf
    rw [hf'] at h
    simp only at h
    obtain ⟨st, h⟩ := h
    refine ⟨st, ?_⟩
    rw [h]
    rfl
  | none =>
    have hf' : (treeIssues rt o n).find? (Issue.counts (s.reset query).warningsAsErrors) = none := hf
    rw [hf'] at h
    simp only at h
    refine ⟨s.stack, ?_⟩
    rw [h]
    simp only [Prod.mk.injEq, Except.ok.injEq, decide_eq_true_eq]
    refine ⟨?_, rfl⟩
    simp only [VState.reset, List.length_nil, Nat.zero_add, List.nil_append]
    by_cases hw : s.warningsAsErrors = true
    · have : treeIssues rt o n = [] := by
        rw [List.find?_eq_none] at hf
        cases hx : treeIssues rt o n with
        | nil => rfl
        | cons x xs => exact absurd (hf x (by rw [hx]; simp)) (by simp [Issue.counts, hw])
      simp [this]
    · exact if_neg hw

/-- **C34.** In collecting mode `validate` is `True` exactly if no `Expression` of the tree violates the layer
or the qualifier rule and, with `warnings_as_errors`, none triggers a warning; `errors` and `warnings` are
exactly the errors and warnings of the `Expression`s in document order. -/
theorem C34_verdict (rt : PyRuntime) (o : FcsqlOptions) (n : Node) (query : Option PyStr) (s : VState X)
    (hs : s.raiseAtFirst = false) : ∃ b s', validateWith (fcsqlValidator rt o) n query s = (.ok b, s') ∧
      (b = true ↔ (∀ m ∈ n.subnodes, ¬ ExprBad o m) ∧
        (s.warningsAsErrors = true → ∀ m ∈ n.subnodes, ¬ ExprDubious o m)) ∧
      s'.errors = ((treeIssues rt o n).filter fun x => x.isError).map (Issue.detail s'.query) ∧
      s'.warnings = ((treeIssues rt o n).filter fun x => !x.isError).map (Issue.detail s'.query) ∧
      s'.query = query.or s.query ∧ s'.stack = s.stack := by
  refine ⟨_, _, validate_collect rt o n query s hs, ?_, rfl, rfl, ?_, rfl⟩
  · rw [decide_eq_true_eq]; exact counts_none_iff rt o n _
  · cases query <;> rfl

/-- **C34.** What the issues of a tree are: in document order, those of its `Expression`s; an `Expression` has
an error exactly if it violates the layer or the qualifier rule, and a warning exactly if its layer or its tag
is dubious. -/
theorem C34_issues (rt : PyRuntime) (o : FcsqlOptions) (n : Node) :
    treeIssues rt o n = n.subnodes.flatMap (issuesAt rt o) ∧ ∀ m,
      (∀ x ∈ issuesAt rt o m, x.node = m ∧ m.kind.clazz = .Expression) ∧
      ((∃ x ∈ issuesAt rt o m, x.isError = true) ↔ ExprBad o m) ∧
      ((∃ x ∈ issuesAt rt o m, x.isError = false) ↔ ExprDubious o m) := by
  refine ⟨rfl, fun m => ⟨fun x hx => ⟨issuesAt_node rt o m x hx, ?_⟩, issuesAt_error rt o m, issuesAt_warning rt o m⟩⟩
  cases he : x.isError with
  | true => obtain ⟨q, i, op, r, fl, h, -⟩ := (issuesAt_error rt o m).1 ⟨x, hx, he⟩; rw [h]; rfl
  | false => obtain ⟨q, i, op, r, fl, h, -⟩ := (issuesAt_warning rt o m).1 ⟨x, hx, he⟩; rw [h]; rfl

-- nested expressions: two errors (layer, qualifier) and a warning (tag); the rest is fine
example : let n : Node := .mk .sequence [.mk (.segment 1 1) [.mk .not [.mk (.expression none py!"foo" .EQUALS py!"a" none) [] none] none] none,
      .mk (.qgroup 1 1) [.mk (.segment 1 1) [.mk (.expression (some py!"x") py!"text" .EQUALS py!"a" none) [] none] none,
        .mk (.segment 1 1) [.mk (.expression none py!"pos" .EQUALS py!"nn" none) [] none] none] none] none
    let r := validateWith (fcsqlValidator (X := Unit) rt0.toPyRuntime ⟨some [py!"text", py!"pos"], some [(py!"text", some [py!"y"])]⟩) n none
      (VState.new none false false ())
    r.2.errors.map (fun d => d.message.take 18) = [py!"Unknown layer iden", py!"Usage of unknown l"] ∧
    r.2.warnings.map (fun d => d.message.take 11) = [py!"Layer 'pos'"] := by decide +kernel

/-! ### C35 -/

/-- **C35.** With `raise_at_first_violation`, `validate` raises the first issue (in document order) that counts
as an error, with its message, node and fragment; it returns `True` if there is none. -/
theorem C35_raises_first (rt : PyRuntime) (o : FcsqlOptions) (n : Node) (query : Option PyStr) (s : VState X)
    (hs : s.raiseAtFirst = true) :
    (validateWith (fcsqlValidator rt o) n query s).1 =
      match (treeIssues rt o n).find? fun x => x.isError || s.warningsAsErrors with
      | some x => .error ⟨x.msg, x.node, (x.detail (query.or s.query)).fragment⟩
      | none => .ok true := by
  obtain ⟨st, h⟩ := validate_raise rt o n query s hs
  rw [h]
  have : (s.reset query).query = query.or s.query := by cases query <;> rfl
  rw [this]
  rfl

/-- **C35.** Raising happens exactly if collecting mode returns `False`. -/
theorem C35_modes_agree (rt : PyRuntime) (o : FcsqlOptions) (n : Node) (query : Option PyStr) (s t : VState X)
    (hs : s.raiseAtFirst = true) (ht : t.raiseAtFirst = false) (hw : s.warningsAsErrors = t.warningsAsErrors) :
    ((∃ e, (validateWith (fcsqlValidator rt o) n query s).1 = .error e) ↔
      (validateWith (fcsqlValidator rt o) n query t).1 = .ok false) ∧
    ((validateWith (fcsqlValidator rt o) n query s).1 = .ok true ↔
      (validateWith (fcsqlValidator rt o) n query t).1 = .ok true) := by
  rw [C35_raises_first rt o n query s hs, validate_collect rt o n query t ht]
  simp only [Except.ok.injEq, decide_eq_false_iff_not, decide_eq_true_eq, hw]
  cases hf : (treeIssues rt o n).find? fun x => x.isError || t.warningsAsErrors with
  | some x =>
    have h1 := List.find?_some hf
    have h2 := List.mem_of_find?_eq_some hf
    have : ¬ ∀ x ∈ treeIssues rt o n, x.counts t.warningsAsErrors = false := by
      intro h; have := h x h2; rw [Issue.counts, h1] at this; cases this
    simp [this]
  | none =>
    rw [List.find?_eq_none] at hf
    have : ∀ x ∈ treeIssues rt o n, x.counts t.warningsAsErrors = false := by
      intro x hx; have := hf x hx; simpa [Issue.counts] using this
    simpa using this

/-- **C35.** `is_valid` gives the same answer in both modes. -/
theorem C35_is_valid (rt : PyRuntime) (o : FcsqlOptions) (n : Node) (query : Option PyStr) (s t : VState X)
    (hs : s.raiseAtFirst = true) (ht : t.raiseAtFirst = false) (hw : s.warningsAsErrors = t.warningsAsErrors) :
    (isValidWith (fcsqlValidator rt o) n query s).1 = (isValidWith (fcsqlValidator rt o) n query t).1 := by
  obtain ⟨h1, h2⟩ := C35_modes_agree rt o n query s t hs ht hw
  unfold isValidWith
  rcases hr : validateWith (fcsqlValidator rt o) n query s with ⟨r, s'⟩
  rcases hr' : validateWith (fcsqlValidator rt o) n query t with ⟨r', t'⟩
  rw [hr, hr'] at h1 h2
  simp only at h1 h2
  cases r with
  | error e =>
    have := h1.1 ⟨e, rfl⟩
    subst this; rfl
  | ok b =>
    cases r' with
    | error e => cases b with
      | false =>rfl
      | true => simp at h2
    | ok b' =>
      cases b <;> cases b' <;> simp at h1 h2 ⊢

-- the second expression is the first with an issue that counts; the warning before it is recorded
example : let n : Node := .mk .sequence [.mk (.segment 1 1) [.mk (.expression none py!"word" .EQUALS py!"a" none) [] none] none,
      .mk (.segment 1 1) [.mk (.expression none py!"foo" .EQUALS py!"b" none) [] (some ⟨4, 9⟩)] none] none
    let r := validateWith (fcsqlValidator (X := Unit) rt0.toPyRuntime ⟨none, none⟩) n (some py!"0123foobar")
      (VState.new none true false ())
    (match r.1 with
      | .error e => decide (e.msg = py!"Unknown layer identifier 'foo'!" ∧ e.fragment = some py!"fooba")
      | .ok _ => false) = true ∧
    r.2.warnings.length = 1 := by decide +kernel

/-! ### C36 -/

/-- **C36.** The outcome of `validate(node, query=q)` and `errors` and `warnings` afterwards do not depend on
the history of the validator object (its stack, its previous query and its previous issues). -/
theorem C36_reusable (rt : PyRuntime) (o : FcsqlOptions) (n : Node) (q : PyStr) (s t : VState X)
    (hr : s.raiseAtFirst = t.raiseAtFirst) (hw : s.warningsAsErrors = t.warningsAsErrors) :
    let a := validateWith (fcsqlValidator rt o) n (some q) s
    let b := validateWith (fcsqlValidator rt o) n (some q) t
    a.1 = b.1 ∧ a.2.errors = b.2.errors ∧ a.2.warnings = b.2.warnings := by
  intro a b
  cases hs : s.raiseAtFirst with
  | false =>
    have ht := hr.symm.trans hs
    simp only [a, b, validate_collect rt o n (some q) s hs, validate_collect rt o n (some q) t ht, hw]
    exact ⟨trivial, rfl, rfl⟩
  | true =>
    have ht := hr.symm.trans hs
    obtain ⟨st, h1⟩ := validate_raise rt o n (some q) s hs
    obtain ⟨st', h2⟩ := validate_raise rt o n (some q) t ht
    simp only [a, b, h1, h2, hw]
    exact ⟨rfl, rfl, rfl⟩

/-- **C36.** The settings of the validator object never change. -/
theorem C36_settings_kept (rt : PyRuntime) (o : FcsqlOptions) (n : Node) (q : Option PyStr) (s : VState X) :
    let a := validateWith (fcsqlValidator rt o) n q s
    a.2.raiseAtFirst = s.raiseAtFirst ∧ a.2.warningsAsErrors = s.warningsAsErrors ∧ a.2.own = s.own := by
  intro a
  cases hs : s.raiseAtFirst with
  | false =>
    simp only [a, validate_collect rt o n q s hs]
    exact ⟨hs, rfl, rfl⟩
  | true =>
    obtain ⟨st, h1⟩ := validate_raise rt o n q s hs
    simp only [a, h1]
    exact ⟨hs, rfl, rfl⟩

-- after raising on `[foo='a']`, the object gives for `'b'` what a new object gives
example : let v := fcsqlValidator (X := Unit) rt0.toPyRuntime ⟨none, none⟩
    let n1 : Node := .mk (.segment 1 1) [.mk (.expression none py!"foo" .EQUALS py!"a" none) [] none] none
    let n2 : Node := .mk (.segment 1 1) [.mk (.expression none py!"word" .EQUALS py!"b" none) [] none] none
    let s := (validateWith v n1 (some py!"q1") (VState.new none true false ())).2
    s.stack.length = 1 ∧
    (validateWith v n2 (some py!"q2") s).2.warnings.length = 1 ∧
    (validateWith v n1 (some py!"q1") (VState.new none true false ())).1.toBool = false ∧
    (validateWith v n2 (some py!"q2") s).1.toBool = true := by decide +kernel

/-! ### C37 -/

/-- The options of the validator `fcsql.validate` uses. -/
def defaultOptions : FcsqlOptions := { allowedIdentifiers := none, allowedQualifiers := none }

open Classical in
theorem fcsqlValidate_known (rt : Runtime) (q : PyStr) (re wae : Bool) :
    fcsqlValidate rt q py!"2.2" re wae = .ok (match (parseQuery rt locConfig q).1 with
      | .error ex => if re then .list ((if startsWith ex.msg py!"unable to parse query: " then []
          else [{ message := ex.msg, type := none, position := .none, fragment := none }]) ++ (parseQuery rt locConfig q).2)
        else .bool false
      | .ok n => if re then .list (((treeIssues rt.toPyRuntime defaultOptions n).filter Issue.isError).map (Issue.detail (some q)) ++
            if wae then ((treeIssues rt.toPyRuntime defaultOptions n).filter fun x => !x.isError).map (Issue.detail (some q)) else [])
        else .bool (decide (∀ x ∈ treeIssues rt.toPyRuntime defaultOptions n, x.counts wae = false))) := by
  have hk : ¬ py!"2.2" ∉ knownVersions := by simp [knownVersions]
  unfold fcsqlValidate
  rw [if_neg hk]
  simp only [QueryParser.parse, QueryParser.new]
  change (match (parseQuery rt locConfig q).1 with
    | .error ex => _
    | .ok qn => _) = _
  cases h : (parseQuery rt locConfig q).1 with
  | error ex => cases re <;> rfl
  | ok n =>
    cases re with
    | true =>
      simp only [Bool.not_true]
      rw [show ({ allowedIdentifiers := none, allowedQualifiers := none } : FcsqlOptions) = defaultOptions from rfl,
        validate_collect _ _ _ _ _ rfl]
      simp only [if_true]
      rfl
    | false =>
      simp only [Bool.not_false]
      rw [show ({ allowedIdentifiers := none, allowedQualifiers := none } : FcsqlOptions) = defaultOptions from rfl]
      obtain ⟨st, e⟩ := validate_raise rt.toPyRuntime defaultOptions n none (VState.new (some q) true wae ()) rfl
      rw [e]
      have hw : (VState.new (some q) true wae ()).warningsAsErrors = wae := rfl
      rw [hw]
      cases hf : (treeIssues rt.toPyRuntime defaultOptions n).find? (Issue.counts wae) with
      | some x =>
        have : ¬ ∀ x ∈ treeIssues rt.toPyRuntime defaultOptions n, x.counts wae = false := by
          intro h'
          have := h' x (List.mem_of_find?_eq_some hf)
          rw [List.find?_some hf] at this; cases this
        simp [this]
      | none =>
        have h1 : ∀ x ∈ treeIssues rt.toPyRuntime defaultOptions n, x.counts wae = false := by
          rw [List.find?_eq_none] at hf
          intro x hx; simpa using hf x hx
        simp only [Bool.false_eq_true, if_false, Except.ok.injEq, ValidateResult.bool.injEq]
        rw [decide_eq_true h1]
        cases wae with
        | false => simp [VState.reset, VState.new]
        | true =>
          have : treeIssues rt.toPyRuntime defaultOptions n = [] := by
            cases hx : treeIssues rt.toPyRuntime defaultOptions n with
            | nil => rfl
            | cons x xs => exact absurd (h1 x (by rw [hx]; simp)) (by simp [Issue.counts])
          simp [this, VState.reset, VState.new]

/-- **C37.** For the known version neither mode raises, and `validate(q)` is `True` exactly if
`validate(q, return_errors=True)` is the empty list. -/
theorem C37_modes_agree (rt : Runtime) (q : PyStr) (wae : Bool) :
    (∃ b, fcsqlValidate rt q py!"2.2" false wae = .ok (.bool b)) ∧
    (∃ l, fcsqlValidate rt q py!"2.2" true wae = .ok (.list l)) ∧
    (fcsqlValidate rt q py!"2.2" false wae = .ok (.bool true) ↔ fcsqlValidate rt q py!"2.2" true wae = .ok (.list [])) := by
  rw [fcsqlValidate_known, fcsqlValidate_known]
  cases h : (parseQuery rt locConfig q).1 with
  | error ex =>
    refine ⟨⟨_, rfl⟩, ⟨_, rfl⟩, ?_⟩
    simp only [Bool.false_eq_true, if_false, if_true, Except.ok.injEq, ValidateResult.bool.injEq, false_iff,
      ValidateResult.list.injEq, reduceCtorEq]
    have h3 := C03_errors_reflect_last_parse rt locConfig [] q
    rcases h3.2 ex h with ⟨d, ds, h4, -⟩ | ⟨h4, -⟩
    · have h4' : (parseQuery rt locConfig q).2 = d :: ds := h4
      rw [h4']
      simp
    · have h5 : startsWith ex.msg py!"unable to parse query: " = false := by
        rw [← Bool.not_eq_true, startsWith, List.isPrefixOf_iff_prefix]
        exact h4
      rw [h5]
      simp
  | ok n =>
    refine ⟨⟨_, rfl⟩, ⟨_, rfl⟩, ?_⟩
    simp only [Bool.false_eq_true, if_false, if_true, Except.ok.injEq, ValidateResult.bool.injEq,
      ValidateResult.list.injEq, decide_eq_true_eq]
    rw [← count_zero _ wae (Issue.detail (some q))]
    cases wae <;> simp

/-- **C37.** `validate(q)` is `True` exactly if `q` parses and no `Expression` of the tree violates a rule (nor,
with `warnings_as_errors`, triggers a warning). -/
theorem C37_verdict (rt : Runtime) (q : PyStr) (wae : Bool) :
    fcsqlValidate rt q py!"2.2" false wae = .ok (.bool true) ↔
      ∃ n, fcsqlParse rt q = .ok n ∧ (∀ m ∈ n.subnodes, ¬ ExprBad defaultOptions m) ∧
        (wae = true → ∀ m ∈ n.subnodes, ¬ ExprDubious defaultOptions m) := by
  rw [fcsqlValidate_known]
  have : fcsqlParse rt q = (parseQuery rt locConfig q).1 := rfl
  rw [this]
  cases h : (parseQuery rt locConfig q).1 with
  | error ex => simp
  | ok n =>
    simp only [Bool.false_eq_true, if_false, Except.ok.injEq, ValidateResult.bool.injEq, decide_eq_true_eq]
    rw [counts_none_iff]
    simp

/-- **C37.** What is left out: the version is 2.2, the result a truth value, and warnings do not count. -/
theorem C37_defaults (rt : Runtime) (q : PyStr) :
    (∃ b, fcsqlValidate rt q = .ok (.bool b)) ∧
    (fcsqlValidate rt q = .ok (.bool true) ↔
      ∃ n, fcsqlParse rt q = .ok n ∧ ∀ m ∈ n.subnodes, ¬ ExprBad defaultOptions m) := by
  refine ⟨?_, ?_⟩
  · rw [fcsqlValidate_known]
    cases h : (parseQuery rt locConfig q).1 with
    | error ex => exact ⟨_, rfl⟩
    | ok n => exact ⟨_, rfl⟩
  · rw [C37_verdict]; simp

/-- **C37.** An unknown version is rejected, whatever the query. -/
theorem C37_unknown_version (rt : Runtime) (q : PyStr) (version : PyStr) (re wae : Bool) :
    (∃ e, fcsqlValidate rt q version re wae = .error e) ↔ version ≠ py!"2.2" := by
  by_cases h : version = py!"2.2"
  · subst h; rw [fcsqlValidate_known]; simp
  · have : version ∉ knownVersions := by simpa [knownVersions] using h
    simp [fcsqlValidate, this, h]

example : fcsqlValidate rt0 py!"[pos='NOUN'] [lemma='go']+" = .ok (.bool true) ∧
    fcsqlValidate rt0 py!"[foo='a']" = .ok (.bool false) ∧
    fcsqlValidate rt0 py!"[word='a']" = .ok (.bool true) ∧
    fcsqlValidate rt0 py!"[word='a']" py!"2.2" false true = .ok (.bool false) ∧
    fcsqlValidate rt0 py!"[word='a'" = .ok (.bool false) := by decide +kernel

/-! ### C38 -/

/-- **C38 is false as documented.** Without `warnings_as_errors` the list does not contain the warnings. -/
theorem C38_refuted : ∃ q n, fcsqlParse rt0 q = .ok n ∧ (∃ m ∈ n.subnodes, ExprDubious defaultOptions m) ∧
    fcsqlValidate rt0 q py!"2.2" true false = .ok (.list []) := by
  refine ⟨py!"[word='a']", .mk (.segment 1 1) [.mk (.expression none py!"word" .EQUALS py!"a" none) [] (some ⟨1, 9⟩)] (some ⟨0, 10⟩),
    by decide +kernel, ?_, by decide +kernel⟩
  exact ⟨.mk (.expression none py!"word" .EQUALS py!"a" none) [] (some ⟨1, 9⟩), by simp [Node.subnodes, Node.subnodesL],
    _, _, _, _, _, rfl, .inl ⟨.inl rfl, .inl rfl⟩⟩

/-- **C38, partial.** The list contains all errors, and all warnings if (and only if) `warnings_as_errors` is
given; for a query that does not parse, the list is not empty: it is the recorded syntax errors or else the
message of the exception. -/
theorem C38_list_partial (rt : Runtime) (q : PyStr) (wae : Bool) :
    ∃ l, fcsqlValidate rt q py!"2.2" true wae = .ok (.list l) ∧
      (∀ n, fcsqlParse rt q = .ok n →
        l = ((treeIssues rt.toPyRuntime defaultOptions n).filter fun x => x.isError).map (Issue.detail (some q)) ++
          (if wae then ((treeIssues rt.toPyRuntime defaultOptions n).filter fun x => !x.isError).map (Issue.detail (some q))
            else [])) ∧
      (∀ ex, fcsqlParse rt q = .error ex → l ≠ [] ∧
        ((unableToParse <+: ex.msg ∧ l = ((QueryParser.new locConfig).parse rt q).2.errors) ∨
          (¬ unableToParse <+: ex.msg ∧ ∃ d, l = [d] ∧ d.message = ex.msg))) := by
  rw [fcsqlValidate_known]
  have : fcsqlParse rt q = (parseQuery rt locConfig q).1 := rfl
  rw [this]
  cases h : (parseQuery rt locConfig q).1 with
  | error ex =>
    refine ⟨_, rfl, by simp, ?_⟩
    intro ex' he
    cases he
    have h3 := C03_errors_reflect_last_parse rt locConfig [] q
    rcases h3.2 ex h with ⟨d, ds, h4, h5, -⟩ | ⟨h4, h5⟩
    · have h4' : (parseQuery rt locConfig q).2 = d :: ds := h4
      have h6 : unableToParse <+: ex.msg := ⟨d.message, h5.symm⟩
      have h7 : startsWith ex.msg py!"unable to parse query: " = true := by
        rw [startsWith, List.isPrefixOf_iff_prefix]; exact h6
      rw [h7]
      refine ⟨by simp [h4'], .inl ⟨h6, rfl⟩⟩
    · have h5' : (parseQuery rt locConfig q).2 = [] := h5
      have h7 : startsWith ex.msg py!"unable to parse query: " = false := by
        rw [← Bool.not_eq_true, startsWith, List.isPrefixOf_iff_prefix]
        exact h4
      rw [h7, h5']
      exact ⟨by simp, .inr ⟨h4, _, rfl, rfl⟩⟩
  | ok n =>
    refine ⟨_, rfl, ?_, by simp⟩
    intro n' hn
    cases hn
    rfl

example : fcsqlValidate rt0 py!"[foo='a' & word='b']" py!"2.2" true true = .ok (.list
    [{ message := py!"Unknown layer identifier 'foo'!", type := some py!"validation-error", position := .loc ⟨1, 8⟩,
       fragment := some py!"foo='a'" },
     { message := py!"Usage of legacy(?) layer 'word'. Did you mean 'text' instead?",
       type := some py!"validation-warning", position := .loc ⟨11, 19⟩, fragment := some py!"word='b'" }]) := by
  decide +kernel

/-! ### C39 -/

/-- **C39.** `warnings_as_errors` only makes validation stricter: what is valid with it is valid without it, and
the list without it is a sublist of the list with it. -/
theorem C39_stricter (rt : Runtime) (q : PyStr) :
    (fcsqlValidate rt q py!"2.2" false true = .ok (.bool true) → fcsqlValidate rt q py!"2.2" false false = .ok (.bool true)) ∧
    ∃ l l', fcsqlValidate rt q py!"2.2" true false = .ok (.list l) ∧ fcsqlValidate rt q py!"2.2" true true = .ok (.list l') ∧
      l.Sublist l' := by
  constructor
  · rw [C37_verdict, C37_verdict]
    rintro ⟨n, h1, h2, -⟩
    exact ⟨n, h1, h2, by simp⟩
  · rw [fcsqlValidate_known, fcsqlValidate_known]
    cases h : (parseQuery rt locConfig q).1 with
    | error ex => exact ⟨_, _, rfl, rfl, List.Sublist.refl _⟩
    | ok n => exact ⟨_, _, rfl, rfl, by simp⟩

/-! ### C40 -/

/-- **C40.** Every issue `validate` lists for a query that parses is located: its position is the location of an
`Expression` of the tree that violates a rule (or is dubious), and its fragment is the text of that location, which
is not empty. -/
theorem C40_positions (rt : Runtime) (q : PyStr) (wae : Bool) (n : Node) (hn : fcsqlParse rt q = .ok n)
    (l : List ErrorDetail) (hl : fcsqlValidate rt q py!"2.2" true wae = .ok (.list l)) (d : ErrorDetail) (hd : d ∈ l) :
    ∃ m ∈ n.subnodes, ∃ loc, (ExprBad defaultOptions m ∧ d.type = some py!"validation-error" ∨
        ExprDubious defaultOptions m ∧ d.type = some py!"validation-warning") ∧
      m.loc = some loc ∧ d.position = .loc loc ∧ d.fragment = some (substring q loc.start loc.stop) ∧
      substring q loc.start loc.stop ≠ [] := by
  obtain ⟨l', h1, h2, -⟩ := C38_list_partial rt q wae
  rw [hl] at h1
  cases h1
  rw [h2 n hn] at hd
  have hx : ∃ x ∈ treeIssues rt.toPyRuntime defaultOptions n, x.detail (some q) = d := by
    rcases List.mem_append.1 hd with hd | hd
    · obtain ⟨x, hx, e⟩ := List.mem_map.1 hd
      exact ⟨x, (List.mem_filter.1 hx).1, e⟩
    · cases wae with
      | false => simp at hd
      | true =>
        obtain ⟨x, hx, e⟩ := List.mem_map.1 hd
        exact ⟨x, (List.mem_filter.1 hx).1, e⟩
  obtain ⟨x, hx, rfl⟩ := hx
  obtain ⟨m, hm, hxm⟩ := List.mem_flatMap.1 hx
  obtain rfl := issuesAt_node _ _ _ _ hxm
  have hn' : (parseQuery rt locConfig q).1 = .ok n := hn
  obtain ⟨loc, hloc, ⟨b1, b2, b3⟩, -⟩ := C25_locations rt locConfig q n hn' rfl _ hm
  have hne : substring q loc.start loc.stop ≠ [] := by
    obtain ⟨⟨a, b, ha, -, -, -, hp, -⟩, -⟩ := C26_fragment rt locConfig q n hn' _ hm loc hloc
    have hat : a ∈ lexTokens q := by
      have := List.mem_of_mem_head? ha
      exact (List.mem_filter.1 this).1
    have h5 := (token_bounds hat).2.2.2.2
    have h6 := (token_bounds hat).2.1
    intro hnil
    rw [hnil, List.prefix_nil] at hp
    rw [hp] at h5
    simp at h5
    omega
  have hq : q ≠ [] := by
    rintro rfl; simp at b3; omega
  refine ⟨_, hm, loc, ?_, hloc, ?_, ?_, hne⟩
  · cases he : x.isError with
    | true => exact .inl ⟨(issuesAt_error rt.toPyRuntime _ _).1 ⟨x, hxm, he⟩, by simp [Issue.detail, he]⟩
    | false => exact .inr ⟨(issuesAt_warning rt.toPyRuntime _ _).1 ⟨x, hxm, he⟩, by simp [Issue.detail, he]⟩
  · simp [Issue.detail, hloc]
  · simp [Issue.detail, hloc, hq]

/-! ### C42 -/

/-- **C42.** `is_likely_a_regex(s)` holds exactly if `s` contains, besides spaces, one of `()[]{}?*+-|^$\.&~#` or
tab, newline, CR, VT, FF. -/
theorem C42_is_likely_a_regex (s : PyStr) :
    isLikelyARegex s = true ↔ ∃ c ∈ s, c ∈ py!"()[]{}?*+-|^$\\.&~#" ∨ c = 9 ∨ c = 10 ∨ c = 13 ∨ c = 11 ∨ c = 12 :=
  isLikelyARegex_iff s

example : isLikelyARegex py!"N.*" = true ∧ isLikelyARegex py!"a b" = false ∧ isLikelyARegex py!"x-y" = true := by
  decide +kernel

end Fcsql
