/-
C100: `fcsql.validate` with validators registered by the user.
-/
import Verif.Spec.Registry
import Verif.Props.CustomValidators
import Verif.Props.Validation
import Mathlib.Data.List.Induction

set_option autoImplicit false
set_option linter.unusedSimpArgs false

namespace Fcsql

attribute [local irreducible] parseQuery lexPieces

/-! ### The dictionary -/

theorem get_assign (reg : Registry) (v w : PyStr) (c : ValidatorClass) :
    (reg.assign v c).get w = if v = w then some c else reg.get w := by
  have hm : ∀ reg : Registry, ((reg.map fun p => if p.1 = v then (v, c) else p).find? fun p => p.1 = w).map (·.2) =
      if v = w ∧ reg.any (fun p => p.1 = v) then some c else reg.get w := by
    intro reg
    induction reg with
    | nil => simp [Registry.get]
    | cons p reg ih =>
      simp only [List.map_cons, List.find?_cons, List.any_cons, Registry.get] at ih ⊢
      by_cases h1 : p.1 = v
      · by_cases h2 : v = w
        · simp [h1, h2]
        · simp only [h1, if_true, h2, decide_false, false_and, if_false, decide_true, Bool.true_or] at ih ⊢
          exact ih
      · by_cases h2 : v = w
        · subst h2
          simp only [h1, if_false, decide_false, Bool.false_or, true_and] at ih ⊢
          exact ih
        · simp only [h1, if_false, h2, false_and, decide_false] at ih ⊢
          by_cases h3 : p.1 = w
          · simp [h3]
          · simp only [h3, decide_false]; exact ih
  unfold Registry.assign
  split
  · rename_i h
    have := hm reg
    simp only [h, and_true] at this
    exact this
  · rename_i h
    simp only [Registry.get, List.find?_append, List.find?_cons, List.find?_nil]
    by_cases h2 : v = w
    · subst h2
      have : (reg.find? fun p => p.1 = v) = none := by
        rw [List.find?_eq_none]
        intro p hp hv
        exact h (List.any_eq_true.2 ⟨p, hp, hv⟩)
      simp [this]
    · simp only [h2, decide_false, Option.or_none, if_false]

theorem get_remove (reg : Registry) (v w : PyStr) : (reg.remove v).get w = if v = w then none else reg.get w := by
  unfold Registry.remove Registry.get
  rw [List.find?_filter]
  by_cases h : v = w
  · subst h
    rw [if_pos rfl, Option.map_eq_none_iff, List.find?_eq_none]
    intro p _
    simp
  · rw [if_neg h]
    congr 2
    funext p
    by_cases h1 : p.1 = w
    · have : w ≠ v := fun e => h e.symm
      simp [h1, this]
    · simp [h1]

theorem run_append (rt : Runtime) : ∀ (ops more : List RegOp) (reg : Registry),
    reg.run rt (ops ++ more) = (((reg.run rt ops).1.run rt more).1, (reg.run rt ops).2 ++ ((reg.run rt ops).1.run rt more).2)
  | [], _, _ => by simp [Registry.run]
  | .assign v c :: ops, more, reg => by simp only [List.cons_append, Registry.run]; exact run_append rt ops more _
  | .remove v :: ops, more, reg => by simp only [List.cons_append, Registry.run]; exact run_append rt ops more _
  | .validate q v re wae :: ops, more, reg => by
    simp only [List.cons_append, Registry.run]
    rw [run_append rt ops more reg]

theorem get_run (rt : Runtime) (v : PyStr) (ops : List RegOp) :
    ((initialRegistry rt.toPyRuntime).run rt ops).1.get v = inCharge rt.toPyRuntime v ops.reverse := by
  induction ops using List.reverseRecOn with
  | nil =>
    simp only [Registry.run, Registry.get, initialRegistry, List.find?_cons, List.find?_nil, List.reverse_nil, inCharge]
    by_cases h : py!"2.2" = v
    · simp [h]
    · simp only [h, decide_false]; rw [if_neg (fun e => h e.symm)]; rfl
  | append_singleton ops op ih =>
    rw [run_append, List.reverse_append, List.reverse_singleton, List.singleton_append]
    cases op with
    | assign w c => simp only [Registry.run, inCharge, get_assign, ih]
    | remove w => simp only [Registry.run, inCharge, get_remove, ih]
    | validate q w re wae => simp only [Registry.run, inCharge, ih]

theorem validateIn_congr (rt : Runtime) (reg reg' : Registry) (q v : PyStr) (re wae : Bool) (h : reg.get v = reg'.get v) :
    validateIn rt reg q v re wae = validateIn rt reg' q v re wae := by
  unfold validateIn
  rw [h]

/-- **C100.** In every history of assignments to `VALIDATORS`, removals and calls of `validate`: a call answers with the validator
that is in charge of its version at that time (the last one assigned, if not removed since), and with nothing else of the
history; there is a `ValueError` with the version in its message exactly if no validator is in charge. -/
theorem C100_history (rt : Runtime) (before after : List RegOp) (q v : PyStr) (re wae : Bool) :
    ∃ r, ((initialRegistry rt.toPyRuntime).run rt (before ++ .validate q v re wae :: after)).2 =
        ((initialRegistry rt.toPyRuntime).run rt before).2 ++ r ::
          ((((initialRegistry rt.toPyRuntime).run rt before).1).run rt after).2 ∧
      match inCharge rt.toPyRuntime v before.reverse with
      | some cls => r = validateIn rt [(v, cls)] q v re wae ∧ ∃ x, r = .ok x
      | none => r = .error (py!"No validator found for version=" ++ rt.strRepr v ++ py!"!") := by
  refine ⟨validateIn rt ((initialRegistry rt.toPyRuntime).run rt before).1 q v re wae, ?_, ?_⟩
  · rw [run_append]; rfl
  · have h := get_run rt v before
    cases hc : inCharge rt.toPyRuntime v before.reverse with
    | none =>
      rw [hc] at h
      simp only
      unfold validateIn
      rw [h]
    | some cls =>
      rw [hc] at h
      refine ⟨validateIn_congr rt _ _ q v re wae (h.trans (by simp [Registry.get])), ?_⟩
      unfold validateIn
      rw [h]
      simp only
      generalize (QueryParser.new { defaultConfig with enableSourceLocations := true }).parse rt q = pr
      rcases pr with ⟨o | n, p⟩
      · simp only; split <;> exact ⟨_, rfl⟩
      · simp only
        rcases validateWith cls.visitor n none (VState.new (some q) (!re) wae cls.own) with ⟨o | b, s⟩ <;> exact ⟨_, rfl⟩

/-- **C100.** As long as nobody has changed `VALIDATORS`, this is the `validate` of C37-C40. -/
theorem C100_initial (rt : Runtime) (q v : PyStr) (re wae : Bool) :
    (validateIn rt (initialRegistry rt.toPyRuntime) q v re wae).toOption = (fcsqlValidate rt q v re wae).toOption := by
  unfold validateIn fcsqlValidate
  by_cases h : v = py!"2.2"
  · subst h
    have h1 : (initialRegistry rt.toPyRuntime).get py!"2.2" = some (builtinValidator rt.toPyRuntime) := by simp [Registry.get, initialRegistry]
    rw [h1, if_neg (by simp [knownVersions])]
    simp only [builtinValidator]
    generalize (QueryParser.new { defaultConfig with enableSourceLocations := true }).parse rt q = pr
    rcases pr with ⟨o | n, p⟩
    · cases re <;> rfl
    · simp only
      rcases validateWith (fcsqlValidator rt.toPyRuntime { allowedIdentifiers := none, allowedQualifiers := none }) n none
        (VState.new (some q) (!re) wae ()) with ⟨o | b, s⟩
      · rfl
      · cases wae
        · simp only [Bool.false_eq_true, if_false, List.append_nil]; rfl
        · rfl
  · have h1 : (initialRegistry rt.toPyRuntime).get v = none := by
      have : ¬ py!"2.2" = v := fun e => h e.symm
      simp [Registry.get, initialRegistry, this]
    rw [h1, if_pos (by simp [knownVersions, h])]
    rfl

theorem validateIn_one (rt : Runtime) (cls : ValidatorClass) (q v : PyStr) (re wae : Bool) :
    validateIn rt [(v, cls)] q v re wae =
      match (parseQuery rt locConfig q).1 with
      | .error _ => fcsqlValidate rt q py!"2.2" re wae |>.mapError fun _ => []
      | .ok n =>
        match validateWith cls.visitor n none (VState.new (some q) (!re) wae cls.own) with
        | (.error _, _) => .ok (.bool false)
        | (.ok _, s) =>
          .ok (if re then .list (if wae then s.errors ++ s.warnings else s.errors)
            else .bool (if wae then s.errors ++ s.warnings else s.errors).isEmpty) := by
  unfold validateIn fcsqlValidate
  have h1 : Registry.get [(v, cls)] v = some cls := by simp [Registry.get]
  rw [h1, if_neg (by simp [knownVersions])]
  have h2 : (QueryParser.new { defaultConfig with enableSourceLocations := true }).parse rt q =
      ((parseQuery rt locConfig q).1, { cfg := locConfig, errors := (parseQuery rt locConfig q).2 }) := rfl
  rw [h2]
  simp only
  cases (parseQuery rt locConfig q).1 with
  | error e => cases re <;> rfl
  | ok n => rfl

/-- **C100.** Queries that cannot be parsed are reported in the same way whatever validator is in charge: as by the library's own. -/
theorem C100_syntax (rt : Runtime) (cls : ValidatorClass) (q v : PyStr) (re wae : Bool) (h : ∀ n, fcsqlParse rt q ≠ .ok n) :
    (validateIn rt [(v, cls)] q v re wae).toOption = (fcsqlValidate rt q py!"2.2" re wae).toOption ∧
    (re = false → validateIn rt [(v, cls)] q v re wae = .ok (.bool false)) ∧
    (re = true → ∃ e es, validateIn rt [(v, cls)] q v re wae = .ok (.list (e :: es))) := by
  have hp : fcsqlParse rt q = (parseQuery rt locConfig q).1 := rfl
  rw [hp] at h
  rw [validateIn_one]
  cases he : (parseQuery rt locConfig q).1 with
  | ok n => exact absurd he (h n)
  | error e =>
    simp only
    refine ⟨?_, ?_, ?_⟩
    · cases fcsqlValidate rt q py!"2.2" re wae <;> rfl
    · rintro rfl
      obtain ⟨⟨b, hb⟩, -, -⟩ := C37_modes_agree rt q wae
      have hv := C37_verdict rt q wae
      rw [hb] at hv ⊢
      cases b with
      | false => rfl
      | true =>
        obtain ⟨n, hn, -⟩ := hv.1 rfl
        rw [hp, he] at hn
        cases hn
    · rintro rfl
      obtain ⟨⟨b, hb⟩, ⟨l, hl⟩, hi⟩ := C37_modes_agree rt q wae
      rw [hl] at hi ⊢
      cases l with
      | cons e es => exact ⟨e, es, rfl⟩
      | nil =>
        obtain ⟨n, hn, -⟩ := (C37_verdict rt q wae).1 (hi.2 rfl)
        rw [hp, he] at hn
        cases hn

theorem returned_nonempty (q : PyStr) {wae : Bool} {xs : List Issue} {x : Issue} (h2 : x ∈ xs) (h1 : x.counts wae = true) :
    (returned q wae xs).isEmpty = false := by
  rw [List.isEmpty_eq_false_iff]
  unfold returned
  intro hn
  rw [List.map_eq_nil_iff, List.append_eq_nil_iff, List.filter_eq_nil_iff] at hn
  rw [Issue.counts, Bool.or_eq_true] at h1
  rcases h1 with h1 | h1
  · exact hn.1 x h2 h1
  · subst h1
    have := hn.2
    rw [if_pos rfl, List.filter_eq_nil_iff] at this
    have h4 := this x h2
    have h5 := hn.1 x h2
    cases x.isError <;> simp_all

theorem returned_empty (q : PyStr) {wae : Bool} {xs : List Issue} (h : ∀ x ∈ xs, x.counts wae = false) :
    returned q wae xs = [] := by
  cases hr : returned q wae xs with
  | nil => rfl
  | cons d ds =>
    unfold returned at hr
    have hd : d ∈ ((xs.filter fun x => x.isError) ++ if wae then xs.filter fun x => !x.isError else []).map (Issue.detail (some q)) := by
      rw [hr]; simp
    obtain ⟨x, hx, -⟩ := List.mem_map.1 hd
    have hm : x ∈ xs ∧ (x.isError = true ∨ wae = true) := by
      rcases List.mem_append.1 hx with hx | hx
      · obtain ⟨a, b⟩ := List.mem_filter.1 hx; exact ⟨a, .inl b⟩
      · cases wae with
        | false => simp at hx
        | true => exact ⟨(List.mem_filter.1 hx).1, .inr rfl⟩
    have := h x hm.1
    rw [Issue.counts, Bool.or_eq_false_iff] at this
    rcases hm.2 with e | e <;> simp_all

/-- **C100.** A registered validator that reports issues, on a query that can be parsed: with `return_errors` the list of its errors, then
of its warnings if they count as errors, each in document order, with position and fragment in the query; without, `True`
exactly if that list is empty. -/
theorem C100_reporter (rt : Runtime) (issues : PyStr → Node → Option Node → List Issue) (q v : PyStr) (wae : Bool) (n : Node)
    (h : fcsqlParse rt q = .ok n) :
    validateIn rt [(v, reporterClass issues)] q v true wae = .ok (.list (returned q wae (foundIssues issues none n))) ∧
    validateIn rt [(v, reporterClass issues)] q v false wae = .ok (.bool (returned q wae (foundIssues issues none n)).isEmpty) := by
  have hp : (parseQuery rt locConfig q).1 = .ok n := h
  rw [validateIn_one, validateIn_one, hp]
  have hpar : ∀ re, (VState.new (some q) re wae ()).parentNode = none := fun _ => rfl
  constructor
  · simp only [reporterClass]
    rw [reporter_collect issues n none (VState.new (some q) (!true) wae ()) rfl]
    simp only [if_true, hpar]
    cases wae <;> simp [returned, VState.new]
  · simp only [reporterClass]
    obtain ⟨st, hr, -⟩ := reporter_raise issues n none (VState.new (some q) (!false) wae ()) rfl
    rw [hr]
    simp only [hpar]
    generalize foundIssues issues none n = xs
    cases hf : xs.find? (Issue.counts wae) with
    | some x =>
      have h1 := List.find?_some hf
      have h2 := List.mem_of_find?_eq_some hf
      have h3 : (VState.new (some q) (!false) wae ()).warningsAsErrors = wae := rfl
      simp only [h3, hf]
      rw [returned_nonempty q h2 h1]
    | none =>
      have h3 : (VState.new (some q) (!false) wae ()).warningsAsErrors = wae := rfl
      simp only [h3, hf]
      rw [List.find?_eq_none] at hf
      have he : (xs.filter fun x => x.isError) = [] := by
        rw [List.filter_eq_nil_iff]
        intro x hx hxe
        exact hf x hx (by simp [Issue.counts, hxe])
      cases wae with
      | false => simp [returned, he, VState.reset, VState.new]
      | true =>
        have hx : xs = [] := by
          cases xs with
          | nil => rfl
          | cons x xs => exact absurd (hf x (by simp)) (by simp [Issue.counts])
        subst hx
        simp [returned, VState.reset, VState.new]

/-- **C100.** The library's validator registered with options (lists of layers and qualifiers): the list of the issues of C34 under these
options, and `True` exactly if it is empty. -/
theorem C100_configured (rt : Runtime) (o : FcsqlOptions) (q v : PyStr) (wae : Bool) (n : Node) (h : fcsqlParse rt q = .ok n) :
    validateIn rt [(v, configuredValidator rt.toPyRuntime o)] q v true wae =
      .ok (.list (returned q wae (treeIssues rt.toPyRuntime o n))) ∧
    validateIn rt [(v, configuredValidator rt.toPyRuntime o)] q v false wae =
      .ok (.bool (returned q wae (treeIssues rt.toPyRuntime o n)).isEmpty) := by
  have hp : (parseQuery rt locConfig q).1 = .ok n := h
  rw [validateIn_one, validateIn_one, hp]
  constructor
  · simp only [configuredValidator]
    rw [validate_collect rt.toPyRuntime o n none (VState.new (some q) (!true) wae ()) rfl]
    simp only [if_true]
    cases wae <;> simp [returned, VState.new, VState.reset]
  · simp only [configuredValidator]
    obtain ⟨st, hr⟩ := validate_raise rt.toPyRuntime o n none (VState.new (some q) (!false) wae ()) rfl
    rw [hr]
    generalize treeIssues rt.toPyRuntime o n = xs
    have h3 : (VState.new (some q) (!false) wae ()).warningsAsErrors = wae := rfl
    cases hf : xs.find? (Issue.counts wae) with
    | some x =>
      have h1 := List.find?_some hf
      have h2 := List.mem_of_find?_eq_some hf
      simp only [h3, hf]
      rw [returned_nonempty q h2 h1]
    | none =>
      simp only [h3, hf]
      rw [List.find?_eq_none] at hf
      have hf' : ∀ x ∈ xs, x.counts wae = false := fun x hx => by simpa using hf x hx
      rw [returned_empty q hf']
      cases wae with
      | false => rfl
      | true =>
        cases xs with
        | nil => rfl
        | cons x xs => exact absurd (hf x (by simp)) (by simp [Issue.counts])

/-- **C100.** The promise "a list if `return_errors`" depends on the validator: one whose handlers raise
`SpecificationValidationError` themselves, instead of calling `validation_error`, makes `validate` return `False` in both modes,
for every query that has a node it objects to at its root. -/
theorem C100_own_raise (rt : Runtime) (cls : ValidatorClass) (q v : PyStr) (re wae : Bool) (n : Node) (h : fcsqlParse rt q = .ok n)
    (m : Node → List (Act Unit (VState cls.Own) SpecError) → Act Unit (VState cls.Own) SpecError)
    (hm : cls.visitor.method (methodName n) = some m) (hr : ∀ as s, ∃ e s', m n as s = (.error e, s')) :
    validateIn rt [(v, cls)] q v re wae = .ok (.bool false) := by
  have hp : (parseQuery rt locConfig q).1 = .ok n := h
  rw [validateIn_one, hp]
  simp only
  have : ∃ e s', validateWith cls.visitor n none (VState.new (some q) (!re) wae cls.own) = (.error e, s') := by
    unfold validateWith
    obtain ⟨k, cs, l⟩ := n
    simp only [visitNode, dispatch, hm]
    obtain ⟨e, s', he⟩ := hr (acceptAll cls.visitor cs) { (VState.new (some q) (!re) wae cls.own) with errors := [], warnings := [] }
    exact ⟨e, s', by rw [he]⟩
  obtain ⟨e, s', he⟩ := this
  rw [he]

/-! ### Examples -/

/-- A validator for version "3.0" that objects to sequences and warns about negations (as comparisons). -/
def strictClass : ValidatorClass := reporterClass fun name m _ =>
  if name = py!"visit_QuerySequence" then [⟨true, m, py!"no sequences"⟩]
  else if name = py!"visit_Expression" ∧ (match m.kind with | .expression _ _ .NOT_EQUALS _ _ => true | _ => false) = true then [⟨false, m, py!"negated"⟩] else []

-- unknown at first, then registered, replaced and removed; "2.2" is the library's all the time
example : ((initialRegistry rt0.toPyRuntime).run rt0 [.validate py!"'a'" py!"3.0" false false, .assign py!"3.0" strictClass,
      .validate py!"'a' [foo!='b']" py!"3.0" true true, .validate py!"[foo!='b']" py!"3.0" false false,
      .validate py!"[foo!='b']" py!"2.2" false false, .validate py!"[foo" py!"3.0" false true,
      .assign py!"3.0" (configuredValidator rt0.toPyRuntime ⟨some [py!"foo"], none⟩), .validate py!"[foo!='b']" py!"3.0" true true,
      .remove py!"3.0", .validate py!"'a'" py!"3.0" true true]).2 =
    [.error py!"No validator found for version='3.0'!",
     .ok (.list [⟨py!"no sequences", some py!"validation-error", .loc ⟨0, 14⟩, some py!"'a' [foo!='b']"⟩,
       ⟨py!"negated", some py!"validation-warning", .loc ⟨5, 13⟩, some py!"foo!='b'"⟩]),
     .ok (.bool true), .ok (.bool false), .ok (.bool false), .ok (.list []), .error py!"No validator found for version='3.0'!"] := by
  decide +kernel

/-- A validator that raises by itself at segments. -/
def raisingClass : ValidatorClass :=
  { Own := Unit, own := (), visitor := { method := fun name =>
      if name = py!"visit_QuerySegment" then some fun n _ s => (.error ⟨py!"no segments", n, none⟩, s) else none } }

-- a Boolean although a list is asked for; and other queries are fine
example : (∀ re wae, validateIn rt0 [(py!"3.0", raisingClass)] py!"[word='a']" py!"3.0" re wae = .ok (.bool false)) ∧
    validateIn rt0 [(py!"3.0", raisingClass)] py!"[" py!"3.0" false true = .ok (.bool false) := by decide +kernel

example : (match fcsqlParse rt0 py!"[word='a']" with
    | .ok n => (raisingClass.visitor.method (methodName n)).isSome
    | .error _ => false) = true := by decide +kernel

end Fcsql
