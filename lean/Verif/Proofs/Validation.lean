/-
The validator: its traversal reports the issues of the tree in document order.
-/
import Verif.Spec.Validation
import Verif.Proofs.Py

set_option autoImplicit false
set_option linter.unusedSimpArgs false

namespace Fcsql

variable {X : Type}

/-- Report an issue. -/
def report (x : Issue) : VAct X Unit :=
  if x.isError then validationError x.node x.msg else validationWarning x.node x.msg

/-- Report issues, one after the other. -/
def reportAll : List Issue → VAct X Unit
  | [] => VAct.skip
  | x :: xs => (report x).andThen fun _ => reportAll xs

theorem reportAll_append (a b : List Issue) :
    (reportAll (a ++ b) : VAct X Unit) = (reportAll a).andThen fun _ => reportAll b := by
  induction a with
  | nil => funext s; rfl
  | cons x a ih =>
    funext s
    simp only [List.cons_append, reportAll, VAct.andThen, ih]
    rcases report x s with ⟨r, s'⟩
    cases r <;> rfl

theorem reportAll_one (x : Issue) : (reportAll [x] : VAct X Unit) = report x := by
  funext s
  simp only [reportAll, VAct.andThen, VAct.skip]
  rcases report x s with ⟨r, s'⟩
  cases r <;> rfl

theorem andThen_assoc {α β γ : Type} (a : VAct X α) (b : α → VAct X β) (c : β → VAct X γ) :
    (a.andThen b).andThen c = a.andThen fun x => (b x).andThen c := by
  funext s
  simp only [VAct.andThen]
  rcases a s with ⟨r, s'⟩
  cases r <;> rfl

section rules
variable (rt : PyRuntime) (o : FcsqlOptions)

theorem joinStr_eq (sep : PyStr) (l : List PyStr) : joinStr sep l = sep.intercalate l := by
  induction l with
  | nil => rfl
  | cons a l ih =>
    cases l with
    | nil => simp [joinStr]
    | cons b l => simp [joinStr, ih]

theorem listRepr_eq (l : List PyStr) : listRepr rt l = shownList rt l := by
  rw [listRepr, shownList, joinStr_eq]

open Classical in
theorem checkIdentifier_eq (n : Node) (i : PyStr) : (checkIdentifier rt o n i : VAct X Unit) =
    reportAll (if BadIdentifier o i then [⟨true, n, badIdentifierMsg rt o i⟩]
      else if DubiousIdentifier o i then [⟨false, n, dubiousIdentifierMsg i⟩] else []) := by
  have hpre : ∀ {i : PyStr}, py!"x-" <+: i ↔ startsWith i py!"x-" = true := by
    intro i; rw [startsWith, List.isPrefixOf_iff_prefix]
  unfold checkIdentifier
  have hdefault : (o.allowedIdentifiers = none ∨ o.allowedIdentifiers = some []) →
      ((if i ∉ knownLayers then
        if i ∈ knownLegacy then
          validationWarning n (py!"Usage of legacy(?) layer '" ++ i ++ py!"'. Did you mean 'text' instead?")
        else if (!startsWith i py!"x-") = true then
          validationError n (py!"Unknown layer identifier '" ++ i ++ py!"'!")
        else validationWarning n (py!"Usage of custom layer with identifier '" ++ i ++ py!"'")
      else VAct.skip : VAct X Unit)) = reportAll (if BadIdentifier o i then [⟨true, n, badIdentifierMsg rt o i⟩]
        else if DubiousIdentifier o i then [⟨false, n, dubiousIdentifierMsg i⟩] else []) := by
    intro ho
    have hb : BadIdentifier o i ↔ i ∉ knownLayers ∧ i ≠ py!"word" ∧ startsWith i py!"x-" = false := by
      simp only [BadIdentifier, hpre]
      constructor
      · rintro (⟨a, as, h, -⟩ | ⟨-, h1, h2, h3⟩)
        · rcases ho with ho | ho <;> rw [ho] at h <;> cases h
        · exact ⟨h1, h2, by simpa using h3⟩
      · rintro ⟨h1, h2, h3⟩
        exact .inr ⟨ho, h1, h2, by simp [h3]⟩
    have hd : DubiousIdentifier o i ↔ i = py!"word" ∨ startsWith i py!"x-" = true := by
      simp only [DubiousIdentifier, hpre]
      exact ⟨fun h => h.2, fun h => ⟨ho, h⟩⟩
    have hmsg : badIdentifierMsg rt o i = py!"Unknown layer identifier '" ++ i ++ py!"'!" := by
      rcases ho with ho | ho <;> simp [badIdentifierMsg, ho]
    by_cases h1 : i ∈ knownLayers
    · have : ¬ BadIdentifier o i := fun h => (hb.1 h).1 h1
      have h2 : ¬ DubiousIdentifier o i := by
        rw [hd]
        simp only [knownLayers, List.mem_cons, List.not_mem_nil, or_false] at h1
        rcases h1 with rfl | rfl | rfl | rfl | rfl | rfl <;> decide
      simp [h1, this, h2, reportAll]
    · by_cases h2 : i = py!"word"
      · have : ¬ BadIdentifier o i := fun h => (hb.1 h).2.1 h2
        have h3 : DubiousIdentifier o i := hd.2 (.inl h2)
        have h4 : i ∈ knownLegacy := by rw [h2]; simp [knownLegacy]
        simp only [h1, not_false_eq_true, if_true, h4, this, if_false, h3, reportAll_one, report]
        subst h2
        simp [dubiousIdentifierMsg]
      · have h4 : i ∉ knownLegacy := by simpa [knownLegacy] using h2
        by_cases h5 : startsWith i py!"x-" = true
        · have : ¬ BadIdentifier o i := fun h => by have := (hb.1 h).2.2; rw [h5] at this; cases this
          have h3 : DubiousIdentifier o i := hd.2 (.inr h5)
          simp only [h1, not_false_eq_true, if_true, h4, this, if_false, h3, reportAll_one, report, h5]
          simp [dubiousIdentifierMsg, h2]
        · have h6 : startsWith i py!"x-" = false := by simpa using h5
          have : BadIdentifier o i := hb.2 ⟨h1, h2, h6⟩
          simp only [h1, not_false_eq_true, if_true, h4, this, if_false, reportAll_one, report, h6]
          simp [hmsg]
  split
  · rename_i a as ho
    have hb : BadIdentifier o i ↔ i ∉ a :: as := by
      simp only [BadIdentifier, ho]
      constructor
      · rintro (⟨a', as', h, h'⟩ | ⟨h, -⟩)
        · cases h; exact h'
        · simp at h
      · intro h; exact .inl ⟨a, as, rfl, h⟩
    have hd : ¬ DubiousIdentifier o i := by rintro ⟨h, -⟩; simp [ho] at h
    by_cases h : i ∉ a :: as
    · rw [if_pos h, if_pos (hb.2 h), reportAll_one, report]
      simp [badIdentifierMsg, ho, listRepr_eq]
    · rw [if_neg h, if_neg (fun h' => h (hb.1 h')), if_neg hd]; rfl
  · rename_i ho
    refine hdefault ?_
    cases h : o.allowedIdentifiers with
    | none => exact .inl rfl
    | some l =>
      cases l with
      | nil => exact .inr rfl
      | cons a as => exact absurd h (ho a as)

theorem lookup_eq (i : PyStr) : ∀ l, lookupQualifiers i l = ((l.find? fun p => p.1 = i).bind Prod.snd)
  | [] => rfl
  | (j, qs) :: l => by
    simp only [lookupQualifiers, List.find?_cons]
    by_cases h : j = i
    · simp [h]
    · simp [h, lookup_eq i l]

open Classical in
theorem checkQualifier_eq (n : Node) (i : PyStr) (q : Option PyStr) : (checkQualifier rt o n i q : VAct X Unit) =
    reportAll (if BadQualifier o q i then [⟨true, n, badQualifierMsg rt o q i⟩] else []) := by
  by_cases hc : ∃ c cs a as, q = some (c :: cs) ∧ o.allowedQualifiers = some (a :: as)
  · obtain ⟨c, cs, a, as, rfl, ha⟩ := hc
    unfold checkQualifier
    simp only [ha]
    rw [lookup_eq]
    have hb : BadQualifier o (some (c :: cs)) i ↔
        ∀ qs, (a :: as).find? (fun p => p.1 = i) = some (i, some qs) → (c :: cs) ∉ qs := by
      constructor
      · rintro ⟨s, as', h1, h2, h3, h4, h5⟩
        cases h1
        rw [ha] at h3; cases h3
        exact h5
      · intro h; exact ⟨_, _, rfl, by simp, ha, by simp, h⟩
    cases hf : (a :: as).find? (fun p => decide (p.1 = i)) with
    | none =>
      have : BadQualifier o (some (c :: cs)) i := hb.2 (by simp [hf])
      simp only [Option.bind_none, this, if_true, reportAll_one, report]
      simp [badQualifierMsg, ha, hf]
    | some p =>
      obtain ⟨j, qs⟩ := p
      have hj : j = i := by have := List.find?_some hf; simpa using this
      subst hj
      cases qs with
      | none =>
        have : BadQualifier o (some (c :: cs)) j := hb.2 (by simp [hf])
        simp only [Option.bind_some, this, if_true, reportAll_one, report]
        simp [badQualifierMsg, ha, hf]
      | some qs =>
        have hb' : BadQualifier o (some (c :: cs)) j ↔ (c :: cs) ∉ qs := by
          rw [hb]; simp [hf]
        simp only [Option.bind_some]
        by_cases hq : (c :: cs) ∉ qs
        · rw [if_pos hq, if_pos (hb'.2 hq), reportAll_one, report]
          simp [badQualifierMsg, ha, hf, listRepr_eq]
        · rw [if_neg hq, if_neg (fun h => hq (hb'.1 h))]; rfl
  · have hn : ¬ BadQualifier o q i := by
      rintro ⟨s, as, h1, h2, h3, h4, -⟩
      obtain ⟨c, cs, rfl⟩ := List.exists_cons_of_ne_nil h2
      obtain ⟨a, as, rfl⟩ := List.exists_cons_of_ne_nil h4
      exact hc ⟨c, cs, a, as, h1, h3⟩
    rw [if_neg hn]
    unfold checkQualifier
    rcases hq : q with _ | (_ | ⟨c, cs⟩) <;> rcases ha : o.allowedQualifiers with _ | (_ | ⟨a, as⟩) <;> first
      | rfl
      | exact absurd ⟨c, cs, a, as, hq, ha⟩ hc

theorem flags_none (fl : Option FlagSet) : (match fl with | none => true | some f => f.isEmpty) = true ↔
    ∀ fs, fl = some fs → ∀ f, fs.has f = false := by
  cases fl with
  | none => simp
  | some fs =>
    obtain ⟨a, b, c, d⟩ := fs
    simp only [FlagSet.isEmpty, Option.some.injEq]
    constructor
    · rintro h fs rfl f
      cases f <;> simp_all [FlagSet.has]
    · intro h
      have h1 := h _ rfl .CASE_INSENSITIVE
      have h2 := h _ rfl .CASE_SENSITIVE
      have h3 := h _ rfl .LITERAL_MATCHING
      have h4 := h _ rfl .IGNORE_DIACRITICS
      simp only [FlagSet.has] at h1 h2 h3 h4
      simp [h1, h2, h3, h4]

theorem isLikelyARegex_iff (s : PyStr) : isLikelyARegex s = true ↔ LooksLikeRegex s := by
  unfold LooksLikeRegex
  have hesc : ∀ t : PyStr, reEscape t = t ↔ ∀ c ∈ t, c ∉ reSpecial := by
    intro t
    have hlen : ∀ t : PyStr, t.length ≤ (reEscape t).length := by
      intro t
      induction t with
      | nil => simp
      | cons c t ih =>
        have e : reEscape (c :: t) = (if c ∈ reSpecial then [92, c] else [c]) ++ reEscape t := rfl
        rw [e, List.length_append, List.length_cons]
        split <;> simp only [List.length_cons, List.length_nil] <;> omega
    induction t with
    | nil => simp [reEscape]
    | cons c t ih =>
      by_cases hc : c ∈ reSpecial
      · have : reEscape (c :: t) ≠ c :: t := by
          intro h
          have := congrArg List.length h
          have h2 := hlen t
          simp only [reEscape, List.flatMap_cons, hc, if_true, List.length_append, List.length_cons, List.length_nil] at this h2
          omega
        simp [this, hc]
      · have : reEscape (c :: t) = c :: reEscape t := by simp [reEscape, hc]
        rw [this]
        simp [hc, ih]
  rw [isLikelyARegex, decide_eq_true_eq]
  rw [ne_eq, eq_comm, hesc]
  simp only [removeSpaces, List.mem_filter, decide_eq_true_eq, and_imp, Classical.not_forall, Classical.not_not]
  constructor
  · rintro ⟨c, h1, h2, h3⟩
    refine ⟨c, h1, ?_⟩
    simp only [reSpecial, List.mem_append, List.mem_cons, List.not_mem_nil, or_false] at h3 ⊢
    grind
  · rintro ⟨c, h1, h2⟩
    refine ⟨c, h1, ?_, ?_⟩
    · rintro rfl; simp at h2
    · simp only [reSpecial, List.mem_append, List.mem_cons, List.not_mem_nil, or_false] at h2 ⊢
      grind

open Classical in
theorem checkPos_eq (n : Node) (q : Option PyStr) (i r : PyStr) (fl : Option FlagSet) :
    (checkPos rt n q i r fl : VAct X Unit) =
    reportAll (if DubiousPos q i r fl then [⟨false, n, dubiousPosMsg rt r⟩] else []) := by
  unfold checkPos
  by_cases h1 : i = py!"pos" ∧ (q = none ∨ q = some [])
  · rw [if_pos h1]
    have hreg : isLikelyARegex r = false ↔ ¬ LooksLikeRegex r := by
      rw [← isLikelyARegex_iff]; simp
    by_cases h2 : r ∉ universalPosTags ∧ isLikelyARegex r = false ∧
        (match fl with | none => true | some f => f.isEmpty) = true
    · have : DubiousPos q i r fl := ⟨h1.1, h1.2, h2.1, hreg.1 h2.2.1, (flags_none fl).1 h2.2.2⟩
      refine (if_pos h2).trans ?_
      rw [if_pos this, reportAll_one, report, h1.1, listRepr_eq]
      rfl
    · have : ¬ DubiousPos q i r fl := fun h => h2 ⟨h.2.2.1, hreg.2 h.2.2.2.1, (flags_none fl).2 h.2.2.2.2⟩
      refine (if_neg h2).trans ?_
      rw [if_neg this]; rfl
  · have : ¬ DubiousPos q i r fl := fun h => h1 ⟨h.1, h.2.1⟩
    rw [if_neg h1, if_neg this]; rfl

theorem fcsqlCheckExpression_eq (n : Node) : (fcsqlCheckExpression rt o n : VAct X Unit) = reportAll (issuesAt rt o n) := by
  unfold fcsqlCheckExpression issuesAt
  cases n.kind with
  | expression q i op r fl =>
    simp only [checkIdentifier_eq, checkQualifier_eq, checkPos_eq, reportAll_append, andThen_assoc]
  | _ => rfl

/-- What `FCSQLValidator` does at a node before going on to the children. -/
theorem fcsql_check_eq (n : Node) :
    (if methodName n = py!"visit_Expression" then fcsqlCheckExpression rt o n else VAct.skip : VAct X Unit) =
      reportAll (issuesAt rt o n) := by
  by_cases h : methodName n = py!"visit_Expression"
  · rw [if_pos h, fcsqlCheckExpression_eq]
  · rw [if_neg h]
    have : issuesAt rt o n = [] := by
      unfold issuesAt
      obtain ⟨k, cs, l⟩ := n
      cases k <;> first | rfl | exact absurd rfl h
    rw [this]; rfl

theorem issuesAt_unhandled {n : Node} (h : methodName n ∉ adapterMethods) : issuesAt rt o n = [] := by
  unfold issuesAt
  obtain ⟨k, cs, l⟩ := n
  cases k <;> first | rfl | exact absurd (by simp [methodName, Node.nodeType, Node.kind, Kind.nodeType, NodeType.value, adapterMethods]) h

end rules

/-! ### Reporting does not look at the stack -/

/-- Replace the stack of the result. -/
def withStack {α : Type} (st : List Node) (r : Except SpecError α × VState X) : Except SpecError α × VState X :=
  (r.1, { r.2 with stack := st })

theorem report_stack (x : Issue) (s : VState X) (st : List Node) :
    report x { s with stack := st } = withStack st (report x s) := by
  unfold report validationError validationWarning withStack
  split <;> simp only <;> split <;> rfl

theorem report_keeps (x : Issue) (s : VState X) : (report x s).2.stack = s.stack := by
  unfold report validationError validationWarning
  split <;> simp only <;> split <;> rfl

theorem reportAll_stack (xs : List Issue) : ∀ (s : VState X) (st : List Node),
    reportAll xs { s with stack := st } = withStack st (reportAll xs s) := by
  induction xs with
  | nil => intro s st; rfl
  | cons x xs ih =>
    intro s st
    simp only [reportAll, VAct.andThen, report_stack]
    rcases hr : report x s with ⟨r, s'⟩
    cases r with
    | error e => rfl
    | ok u => simp only [withStack]; exact ih s' st

theorem reportAll_keeps (xs : List Issue) : ∀ (s : VState X), (reportAll xs s).2.stack = s.stack := by
  induction xs with
  | nil => intro s; rfl
  | cons x xs ih =>
    intro s
    simp only [reportAll, VAct.andThen]
    have := report_keeps x s
    rcases hr : report x s with ⟨r, s'⟩
    rw [hr] at this
    cases r with
    | error e => exact this
    | ok u => simp only; rw [ih]; exact this

/-! ### The traversal -/

/-- What the traversal of a tree with these issues does: report them all; the stack is restored unless an
exception is raised. -/
def Reports (a : Act Unit (VState X) SpecError) (xs : List Issue) : Prop :=
  ∀ s, match reportAll xs s with
    | (.ok _, s') => a s = (.ok none, s')
    | (.error e, s') => ∃ st, a s = (.error e, { s' with stack := st })

theorem reports_loop (v : Visitor Unit (VState X) SpecError) (issues : Node → List Issue) (node : Node) :
    ∀ cs : List Node, (∀ c ∈ cs, Reports (visitNode v c) (c.subnodes.flatMap issues)) →
    Reports (visitLoop {} node none (acceptAll v cs)) ((Node.subnodesL cs).flatMap issues) := by
  intro cs
  induction cs with
  | nil => intro _ s; rfl
  | cons c cs ih =>
    intro h s
    rw [Node.subnodesL, List.flatMap_append, reportAll_append]
    simp only [VAct.andThen, acceptAll, visitLoop, if_true]
    have h1 := h c (by simp) s
    rcases hr : reportAll (c.subnodes.flatMap issues) s with ⟨r, s'⟩
    rw [hr] at h1
    cases r with
    | error e =>
      obtain ⟨st, h1⟩ := h1
      exact ⟨st, by rw [h1]⟩
    | ok u =>
      simp only at h1
      rw [h1]
      exact ih (fun d hd => h d (by simp [hd])) s'

theorem reports_visit (node : Node) (accepts : List (Act Unit (VState X) SpecError)) (xs : List Issue)
    (h : Reports (visitLoop {} node none accepts) xs) : Reports (validatorVisit node accepts) xs := by
  intro s
  have h1 := h { s with stack := node :: s.stack }
  rw [reportAll_stack] at h1
  have hk := reportAll_keeps xs s
  simp only [validatorVisit, visitChildrenLoop]
  rcases hr : reportAll xs s with ⟨r, s'⟩
  rw [hr] at h1 hk
  simp only [withStack] at h1 hk
  cases r with
  | error e =>
    obtain ⟨st, h1⟩ := h1
    refine ⟨st, ?_⟩
    show (match visitLoop {} node none accepts { s with stack := node :: s.stack } with
      | (Except.ok r, s) => (Except.ok r, { s with stack := s.stack.tail })
      | (Except.error e, s) => (Except.error e, s)) = _
    rw [h1]
  | ok u =>
    simp only at h1
    show (match visitLoop {} node none accepts { s with stack := node :: s.stack } with
      | (Except.ok r, s) => (Except.ok r, { s with stack := s.stack.tail })
      | (Except.error e, s) => (Except.error e, s)) = _
    rw [h1]
    simp [← hk]

/-- A validator that reports issues at each node reports the issues of the tree in document order. -/
theorem reports_tree (check : PyStr → Node → VAct X Unit) (issues : Node → List Issue)
    (h1 : ∀ n, methodName n ∈ adapterMethods → check (methodName n) n = reportAll (issues n))
    (h2 : ∀ n, methodName n ∉ adapterMethods → issues n = []) (n : Node) :
    Reports (visitNode (subValidator check) n) (n.subnodes.flatMap issues) := by
  apply Node.rec (motive_1 := fun n => Reports (visitNode (subValidator check) n) (n.subnodes.flatMap issues))
    (motive_2 := fun cs => ∀ c ∈ cs, Reports (visitNode (subValidator check) c) (c.subnodes.flatMap issues))
  · intro k cs l ih
    have hl := reports_loop (subValidator check) issues (.mk k cs l) cs ih
    rw [visitNode, Node.subnodes, List.flatMap_cons]
    by_cases hm : methodName (.mk k cs l) ∈ adapterMethods
    · have hv := reports_visit _ _ _ hl
      intro s
      rw [reportAll_append, ← h1 _ hm]
      simp only [dispatch, subValidator, hm, if_true, VAct.andThen]
      rcases hr : check (methodName (.mk k cs l)) (.mk k cs l) s with ⟨r, s'⟩
      cases r with
      | error e => exact ⟨s'.stack, rfl⟩
      | ok u => exact hv s'
    · rw [h2 _ hm]
      simp only [List.nil_append, dispatch, subValidator, hm, if_false]
      exact hl
  · simp
  · intro c cs ih1 ih2 d hd
    rcases List.mem_cons.1 hd with rfl | hd
    · exact ih1
    · exact ih2 d hd

/-! ### Reporting in the two modes -/

theorem detail_error (x : Issue) (q : Option PyStr) (h : x.isError = true) : x.detail q =
    { message := x.msg, type := some py!"validation-error", position := issuePosition x.node,
      fragment := issueFragment q x.node } := by
  simp only [Issue.detail, h, if_true, issuePosition, issueFragment, slice_eq]
  congr 1
  cases q with
  | none => rfl
  | some q => cases x.node.loc <;> simp [List.isEmpty_iff]

theorem detail_warning (x : Issue) (q : Option PyStr) (h : x.isError = false) : x.detail q =
    { message := x.msg, type := some py!"validation-warning", position := issuePosition x.node,
      fragment := issueFragment q x.node } := by
  simp only [Issue.detail, h, issuePosition, issueFragment, slice_eq, Bool.false_eq_true, if_false]
  congr 1
  cases q with
  | none => rfl
  | some q => cases x.node.loc <;> simp [List.isEmpty_iff]

/-- Reporting when collecting: everything is recorded. -/
theorem reportAll_collect (xs : List Issue) : ∀ s : VState X, s.raiseAtFirst = false →
    reportAll xs s = (.ok (), { s with
      errors := s.errors ++ (xs.filter Issue.isError).map (Issue.detail s.query)
      warnings := s.warnings ++ (xs.filter fun x => !x.isError).map (Issue.detail s.query) }) := by
  induction xs with
  | nil => intro s _; simp [reportAll, VAct.skip]
  | cons x xs ih =>
    intro s hs
    simp only [reportAll, VAct.andThen, report]
    by_cases hx : x.isError = true
    · simp only [hx, if_true, validationError, hs, Bool.false_eq_true, if_false]
      rw [ih _ (by simp)]
      simp [hx, detail_error x s.query hx]
    · simp only [hx, if_false, validationWarning, hs, Bool.and_false, Bool.false_eq_true]
      rw [ih _ (by simp)]
      simp [hx, detail_warning x s.query (by simpa using hx)]

/-- Reporting when raising: the first issue that counts is raised, the warnings before it are recorded. -/
theorem reportAll_raise (xs : List Issue) : ∀ s : VState X, s.raiseAtFirst = true →
    reportAll xs s = (match xs.find? (Issue.counts s.warningsAsErrors) with
        | some x => .error ⟨x.msg, x.node, (x.detail s.query).fragment⟩
        | none => .ok (),
      { s with warnings := s.warnings ++
        (xs.takeWhile fun x => !x.counts s.warningsAsErrors).map (Issue.detail s.query) }) := by
  induction xs with
  | nil => intro s _; simp [reportAll, VAct.skip]
  | cons x xs ih =>
    intro s hs
    obtain ⟨st, q, raf, wae, es, ws, own⟩ := s
    subst hs
    simp only [reportAll, VAct.andThen]
    rcases hx : x.isError with _ | _
    · cases wae with
      | true =>
        rw [List.find?_cons_of_pos (by simp [Issue.counts]), List.takeWhile_cons_of_neg (by simp [Issue.counts])]
        simp [report, hx, validationWarning, detail_warning x q hx]
      | false =>
        rw [List.find?_cons_of_neg (by simp [Issue.counts, hx]),
          List.takeWhile_cons_of_pos (by simp [Issue.counts, hx])]
        simp only [report, hx, validationWarning, Bool.false_eq_true, if_false, Bool.false_and]
        rw [ih _ rfl]
        simp [detail_warning x q hx]
    · rw [List.find?_cons_of_pos (by simp [Issue.counts, hx]), List.takeWhile_cons_of_neg (by simp [Issue.counts, hx])]
      simp [report, hx, validationError, detail_error x q hx]

/-! ### `FCSQLValidator` -/

theorem fcsql_reports (rt : PyRuntime) (o : FcsqlOptions) (n : Node) :
    Reports (visitNode (fcsqlValidator (X := X) rt o) n) (treeIssues rt o n) :=
  reports_tree _ _ (fun n _ => fcsql_check_eq rt o n) (fun _ h => issuesAt_unhandled rt o h) n

/-- The object state `validate` starts the traversal with. -/
def VState.reset (s : VState X) (query : Option PyStr) : VState X :=
  { s with query := (match query with | some q => some q | none => s.query), errors := [], warnings := [] }

theorem validateWith_eq (v : Visitor Unit (VState X) SpecError) (n : Node) (query : Option PyStr) (s : VState X) :
    validateWith v n query s = match visitNode v n (s.reset query) with
      | (.ok _, s) => (.ok (decide (s.errors.length + (if s.warningsAsErrors then s.warnings.length else 0) = 0)), s)
      | (.error e, s) => (.error e, s) := by
  unfold validateWith VState.reset
  cases query <;> rfl

end Fcsql
