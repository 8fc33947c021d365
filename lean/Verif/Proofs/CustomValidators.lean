/-
Traversal of a tree by a validator whose handlers report issues depending on the node and its parent.
-/
import Verif.Spec.CustomValidators
import Verif.Proofs.Validation
import Verif.Props.Parents
import Verif.Props.Validation

set_option autoImplicit false
set_option linter.unusedSimpArgs false

namespace Fcsql

variable {X : Type}

theorem reportEach_eq (xs : List Issue) : (reportEach xs : VAct X Unit) = reportAll xs := by
  induction xs with
  | nil => rfl
  | cons x xs ih => rw [reportEach, reportAll, ih]; rfl

theorem handlerFor_tracked (n : Node) (h : tracked n) : handlerFor n.kind.clazz = some (methodName n) := by
  obtain ⟨k, cs, l⟩ := n
  revert h
  cases k <;> simp [tracked, Node.kind, Kind.clazz, handlerFor, methodName, Node.nodeType, Kind.nodeType, NodeType.value]

/-- What the traversal of a tree does, given the issues as a function of what `parent_node` is at the start. -/
def ReportsP (a : Act Unit (VState X) SpecError) (xs : Option Node → List Issue) : Prop :=
  ∀ s, match reportAll (xs s.parentNode) s with
    | (.ok _, s') => a s = (.ok none, s')
    | (.error e, s') => ∃ st, a s = (.error e, { s' with stack := st })

/-- The issues found in a list of trees. -/
def foundIssuesL (issues : PyStr → Node → Option Node → List Issue) (p : Option Node) (cs : List Node) : List Issue :=
  (trackedParentsL p cs).flatMap (handlerIssues issues)

theorem reportsP_loop (v : Visitor Unit (VState X) SpecError) (issues : PyStr → Node → Option Node → List Issue)
    (node : Node) : ∀ cs : List Node, (∀ c ∈ cs, ReportsP (visitNode v c) fun p => foundIssues issues p c) →
    ReportsP (visitLoop {} node none (acceptAll v cs)) fun p => foundIssuesL issues p cs := by
  intro cs
  induction cs with
  | nil => intro _ s; rfl
  | cons c cs ih =>
    intro h s
    have he : foundIssuesL issues s.parentNode (c :: cs) =
        foundIssues issues s.parentNode c ++ foundIssuesL issues s.parentNode cs := by
      simp only [foundIssuesL, foundIssues, trackedParentsL, List.flatMap_append]
    show match reportAll (foundIssuesL issues s.parentNode (c :: cs)) s with
      | (.ok _, s') => _
      | (.error e, s') => _
    rw [he, reportAll_append]
    simp only [VAct.andThen, acceptAll, visitLoop, if_true]
    have h1 := h c (by simp) s
    have hk := reportAll_keeps (foundIssues issues s.parentNode c) s
    rcases hr : reportAll (foundIssues issues s.parentNode c) s with ⟨r, s'⟩
    rw [hr] at hk
    simp only at h1 hk
    rw [hr] at h1
    cases r with
    | error e =>
      obtain ⟨st, h1⟩ := h1
      exact ⟨st, by rw [h1]⟩
    | ok u =>
      simp only at h1
      rw [h1]
      have hp : s'.parentNode = s.parentNode := by simp [VState.parentNode, hk]
      have := ih (fun d hd => h d (by simp [hd])) s'
      rw [hp] at this
      exact this

theorem reportsP_tree (issues : PyStr → Node → Option Node → List Issue) (n : Node) :
    ReportsP (visitNode (reporter (X := X) issues) n) fun p => foundIssues issues p n := by
  apply Node.rec (motive_1 := fun n => ReportsP (visitNode (reporter (X := X) issues) n) fun p => foundIssues issues p n)
    (motive_2 := fun cs => ∀ c ∈ cs, ReportsP (visitNode (reporter (X := X) issues) c) fun p => foundIssues issues p c)
  · intro k cs l ih
    have hl := reportsP_loop (reporter (X := X) issues) issues (.mk k cs l) cs ih
    rw [visitNode]
    by_cases hm : methodName (.mk k cs l) ∈ adapterMethods
    · have ht : tracked (.mk k cs l) := (tracked_iff _).2 hm
      intro s
      have he : foundIssues issues s.parentNode (.mk k cs l) =
          issues (methodName (.mk k cs l)) (.mk k cs l) s.parentNode ++ foundIssuesL issues (some (.mk k cs l)) cs := by
        simp only [foundIssues, foundIssuesL, trackedParents, if_pos ht, List.flatMap_cons, handlerIssues, handlerFor_tracked _ ht]
      have hd : (reporter (X := X) issues).method (methodName (.mk k cs l)) = some fun n accepts =>
          VAct.andThen (fun s => reportEach (issues (methodName (.mk k cs l)) n s.parentNode) s) fun _ => validatorVisit n accepts := by
        simp only [reporter, subValidator, hm, if_true]
      show match reportAll (foundIssues issues s.parentNode (.mk k cs l)) s with
        | (.ok _, s') => _
        | (.error e, s') => _
      rw [he, reportAll_append, dispatch, hd]
      simp only [VAct.andThen, reportEach_eq]
      rcases hr : reportAll (issues (methodName (.mk k cs l)) (.mk k cs l) s.parentNode) s with ⟨r, s'⟩
      cases r with
      | error e => exact ⟨s'.stack, rfl⟩
      | ok u =>
        have h1 := hl { s' with stack := .mk k cs l :: s'.stack }
        have hp : ({ s' with stack := .mk k cs l :: s'.stack } : VState X).parentNode = some (.mk k cs l) := rfl
        simp only [hp] at h1
        rw [reportAll_stack] at h1
        have hk := reportAll_keeps (foundIssuesL issues (some (.mk k cs l)) cs) s'
        simp only [validatorVisit, visitChildrenLoop]
        rcases hr' : reportAll (foundIssuesL issues (some (.mk k cs l)) cs) s' with ⟨r', s''⟩
        rw [hr'] at h1 hk
        simp only [withStack] at h1 hk
        cases r' with
        | error e =>
          obtain ⟨st, h1⟩ := h1
          exact ⟨st, by rw [h1]⟩
        | ok u =>
          simp only at h1
          simp only
          rw [h1]
          simp [← hk]
    · have ht : ¬ tracked (.mk k cs l) := fun h => hm ((tracked_iff _).1 h)
      intro s
      have he : foundIssues issues s.parentNode (.mk k cs l) = foundIssuesL issues s.parentNode cs := by
        simp only [foundIssues, foundIssuesL, trackedParents, if_neg ht]
      have hd : (reporter (X := X) issues).method (methodName (.mk k cs l)) = none := by
        simp only [reporter, subValidator, hm, if_false]
      have := hl s
      rw [dispatch, hd]
      show match reportAll (foundIssues issues s.parentNode (.mk k cs l)) s with
        | (.ok _, s') => _
        | (.error e, s') => _
      rw [he]
      exact this
  · simp
  · intro c cs ih1 ih2 d hd
    rcases List.mem_cons.1 hd with rfl | hd
    · exact ih1
    · exact ih2 d hd

theorem reset_query (s : VState X) (query : Option PyStr) : (s.reset query).query = query.or s.query := by
  cases query <;> rfl

open Classical in
theorem reporter_collect (issues : PyStr → Node → Option Node → List Issue) (n : Node) (query : Option PyStr) (s : VState X)
    (hs : s.raiseAtFirst = false) :
    validateWith (reporter issues) n query s =
      (.ok (decide (∀ x ∈ foundIssues issues s.parentNode n, x.counts s.warningsAsErrors = false)), { s.reset query with
        errors := ((foundIssues issues s.parentNode n).filter Issue.isError).map (Issue.detail (query.or s.query))
        warnings := ((foundIssues issues s.parentNode n).filter fun x => !x.isError).map (Issue.detail (query.or s.query)) }) := by
  rw [validateWith_eq]
  have h := reportsP_tree issues n (s.reset query)
  rw [reportAll_collect _ (s.reset query) hs] at h
  simp only at h
  rw [h]
  have hp : (s.reset query).parentNode = s.parentNode := rfl
  rw [hp, reset_query]
  simp only [Prod.mk.injEq]
  simp only [VState.reset, List.nil_append]
  refine ⟨?_, by cases query <;> rfl⟩
  congr 1
  exact decide_eq_decide.2 (count_zero _ _ _)

theorem reporter_raise (issues : PyStr → Node → Option Node → List Issue) (n : Node) (query : Option PyStr) (s : VState X)
    (hs : s.raiseAtFirst = true) : ∃ st,
    validateWith (reporter issues) n query s =
      (match (foundIssues issues s.parentNode n).find? (Issue.counts s.warningsAsErrors) with
        | some x => .error ⟨x.msg, x.node, (x.detail (query.or s.query)).fragment⟩
        | none => .ok true, { s.reset query with
        stack := st
        warnings := ((foundIssues issues s.parentNode n).takeWhile fun x => !x.counts s.warningsAsErrors).map
          (Issue.detail (query.or s.query)) }) ∧
      ((∀ x ∈ foundIssues issues s.parentNode n, x.counts s.warningsAsErrors = false) → st = s.stack) := by
  rw [validateWith_eq, ← reset_query]
  have h := reportsP_tree issues n (s.reset query)
  have hp : (s.reset query).parentNode = s.parentNode := rfl
  simp only [hp] at h
  generalize foundIssues issues s.parentNode n = xs at h ⊢
  rw [reportAll_raise _ (s.reset query) hs] at h
  cases hf : xs.find? (Issue.counts s.warningsAsErrors) with
  | some x =>
    have hf' : xs.find? (Issue.counts (s.reset query).warningsAsErrors) = some x := hf
    rw [hf'] at h
    simp only at h
    obtain ⟨st, h⟩ := h
    refine ⟨st, ?_, ?_⟩
    · rw [h]
      rfl
    · intro hall
      have h1 := List.find?_some hf
      rw [hall x (List.mem_of_find?_eq_some hf)] at h1
      cases h1
  | none =>
    have hf' : xs.find? (Issue.counts (s.reset query).warningsAsErrors) = none := hf
    rw [hf'] at h
    simp only at h
    refine ⟨s.stack, ?_, fun _ => rfl⟩
    rw [h]
    simp only [Prod.mk.injEq, Except.ok.injEq, decide_eq_true_eq]
    refine ⟨?_, rfl⟩
    simp only [VState.reset, List.length_nil, Nat.zero_add, List.nil_append]
    by_cases hw : s.warningsAsErrors = true
    · have : xs = [] := by
        rw [List.find?_eq_none] at hf
        cases hx : xs with
        | nil => rfl
        | cons x xs => exact absurd (hf x (by rw [hx]; simp)) (by simp [Issue.counts, hw])
      simp [this]
    · exact if_neg hw

end Fcsql
