/-
C72: validators written by users of the library.
-/
import Verif.Proofs.CustomValidators
import Verif.Props.Examples

set_option autoImplicit false
set_option linter.unusedSimpArgs false

namespace Fcsql

attribute [local irreducible] parseQuery

variable {X : Type}

/-- **C72.** In collecting mode: `errors` and `warnings` are exactly the errors and the warnings of the handlers, in
document order; the result is `True` exactly if there is no error and, with `warnings_as_errors`, no warning; the stack
is as before. -/
theorem C72_collects (issues : PyStr → Node → Option Node → List Issue) (n : Node) (query : Option PyStr) (s : VState X)
    (hs : s.raiseAtFirst = false) : ∃ b s', validateWith (reporter issues) n query s = (.ok b, s') ∧
      (b = true ↔ ∀ x ∈ foundIssues issues s.parentNode n, x.isError = false ∧ s.warningsAsErrors = false) ∧
      s'.errors = ((foundIssues issues s.parentNode n).filter fun x => x.isError).map (Issue.detail (query.or s.query)) ∧
      s'.warnings = ((foundIssues issues s.parentNode n).filter fun x => !x.isError).map (Issue.detail (query.or s.query)) ∧
      s'.stack = s.stack := by
  refine ⟨_, _, reporter_collect issues n query s hs, ?_, rfl, rfl, rfl⟩
  rw [decide_eq_true_eq]
  simp only [Issue.counts, Bool.or_eq_false_iff]

/-- **C72.** With `raise_at_first_violation`: the first issue in document order that counts as an error is raised, with
its message, node and fragment; if there is none the result is `True`; the warnings before it are recorded. -/
theorem C72_raises_first (issues : PyStr → Node → Option Node → List Issue) (n : Node) (query : Option PyStr) (s : VState X)
    (hs : s.raiseAtFirst = true) :
    (validateWith (reporter issues) n query s).1 =
      (match (foundIssues issues s.parentNode n).find? fun x => x.isError || s.warningsAsErrors with
      | some x => .error ⟨x.msg, x.node, (x.detail (query.or s.query)).fragment⟩
      | none => .ok true) ∧
    (validateWith (reporter issues) n query s).2.errors = [] ∧
    (validateWith (reporter issues) n query s).2.warnings =
      ((foundIssues issues s.parentNode n).takeWhile fun x => !(x.isError || s.warningsAsErrors)).map
        (Issue.detail (query.or s.query)) := by
  obtain ⟨st, h, -⟩ := reporter_raise issues n query s hs
  rw [h]
  exact ⟨rfl, rfl, rfl⟩

/-- **C72.** The two modes agree: one raises exactly if the other gives `False`, and `is_valid` is the same. -/
theorem C72_modes_agree (issues : PyStr → Node → Option Node → List Issue) (n : Node) (query : Option PyStr) (s t : VState X)
    (hs : s.raiseAtFirst = true) (ht : t.raiseAtFirst = false) (hw : s.warningsAsErrors = t.warningsAsErrors)
    (hp : s.parentNode = t.parentNode) :
    ((∃ e, (validateWith (reporter issues) n query s).1 = .error e) ↔
      (validateWith (reporter issues) n query t).1 = .ok false) ∧
    ((validateWith (reporter issues) n query s).1 = .ok true ↔
      (validateWith (reporter issues) n query t).1 = .ok true) ∧
    (isValidWith (reporter issues) n query s).1 = (isValidWith (reporter issues) n query t).1 := by
  have key : ((∃ e, (validateWith (reporter issues) n query s).1 = .error e) ∧
      (validateWith (reporter issues) n query t).1 = .ok false) ∨
    ((validateWith (reporter issues) n query s).1 = .ok true ∧
      (validateWith (reporter issues) n query t).1 = .ok true) := by
    rw [(C72_raises_first issues n query s hs).1, reporter_collect issues n query t ht]
    simp only [Except.ok.injEq, decide_eq_false_iff_not, decide_eq_true_eq, hw, hp]
    cases hf : (foundIssues issues t.parentNode n).find? fun x => x.isError || t.warningsAsErrors with
    | some x =>
      refine .inl ⟨⟨_, rfl⟩, fun h => ?_⟩
      have h1 := List.find?_some hf
      have := h x (List.mem_of_find?_eq_some hf)
      rw [Issue.counts, h1] at this
      cases this
    | none =>
      rw [List.find?_eq_none] at hf
      exact .inr ⟨rfl, fun x hx => by simpa [Issue.counts] using hf x hx⟩
  unfold isValidWith
  rcases hr : validateWith (reporter issues) n query s with ⟨r, s'⟩
  rcases hr' : validateWith (reporter issues) n query t with ⟨r', t'⟩
  rw [hr, hr'] at key
  simp only at key
  rcases key with ⟨⟨e, rfl⟩, rfl⟩ | ⟨rfl, rfl⟩ <;> simp

/-- **C72.** Which handlers are called: a handler under a name that is looked up for no class (`visit_ExpressionWildcard`,
`visit_ExpressionGroup`, `visit_ExpressionNot`, `visit_ExpressionAnd`, `visit_ExpressionOr`, `visit_QueryGroup`) has no
effect. -/
theorem C72_unused_handlers (issues issues' : PyStr → Node → Option Node → List Issue)
    (h : ∀ c name, handlerFor c = some name → ∀ n p, n.kind.clazz = c → issues name n p = issues' name n p)
    (n : Node) (query : Option PyStr) (s : VState X) :
    let a := validateWith (reporter issues) n query s
    let b := validateWith (reporter issues') n query s
    a.1 = b.1 ∧ a.2.errors = b.2.errors ∧ a.2.warnings = b.2.warnings := by
  have he : foundIssues issues s.parentNode n = foundIssues issues' s.parentNode n := by
    unfold foundIssues
    congr 1
    funext mp
    unfold handlerIssues
    cases hh : handlerFor mp.1.kind.clazz with
    | none => rfl
    | some name => exact h _ name hh _ _ rfl
  intro a b
  cases hs : s.raiseAtFirst with
  | false =>
    simp only [a, b, reporter_collect _ n query s hs, he]
    exact ⟨trivial, trivial, trivial⟩
  | true =>
    obtain ⟨st, h1, -⟩ := reporter_raise issues n query s hs
    obtain ⟨st', h2, -⟩ := reporter_raise issues' n query s hs
    simp only [a, b, h1, h2, he]
    exact ⟨trivial, trivial, trivial⟩

theorem trackedParents_nodes (n : Node) : ∀ p, (trackedParents p n).map Prod.fst = n.subnodes.filter fun m => decide (tracked m) := by
  apply Node.rec (motive_1 := fun n => ∀ p, (trackedParents p n).map Prod.fst = n.subnodes.filter fun m => decide (tracked m))
    (motive_2 := fun cs => ∀ p, (trackedParentsL p cs).map Prod.fst = (Node.subnodesL cs).filter fun m => decide (tracked m))
  · intro k cs l ih p
    rw [trackedParents, Node.subnodes]
    by_cases ht : tracked (.mk k cs l)
    · simp [ht, ih]
    · simp [ht, ih]
  · intro p; rfl
  · intro c cs ih1 ih2 p
    simp [trackedParentsL, Node.subnodesL, ih1, ih2]

theorem handlerFor_untracked (n : Node) (h : ¬ tracked n) : handlerFor n.kind.clazz = none := by
  obtain ⟨k, cs, l⟩ := n
  revert h
  cases k <;> simp [tracked, Node.kind, Kind.clazz, handlerFor]

/-- **C72.** If the handlers do not look at `parent_node`, the issues are those of all nodes of the tree in document order
(for whose class there is a handler). -/
theorem C72_found (issues : PyStr → Node → List Issue) (p : Option Node) (n : Node) :
    foundIssues (fun name m _ => issues name m) p n = n.subnodes.flatMap fun m =>
      match handlerFor m.kind.clazz with
      | some name => issues name m
      | none => [] := by
  have h1 : foundIssues (fun name m _ => issues name m) p n = ((trackedParents p n).map Prod.fst).flatMap fun m =>
      match handlerFor m.kind.clazz with
      | some name => issues name m
      | none => [] := by
    unfold foundIssues
    rw [List.flatMap_map]
    rfl
  rw [h1, trackedParents_nodes]
  generalize n.subnodes = ns
  induction ns with
  | nil => rfl
  | cons m ns ih =>
    by_cases ht : tracked m
    · rw [List.filter_cons_of_pos (by simpa using ht), List.flatMap_cons, List.flatMap_cons, ih]
    · rw [List.filter_cons_of_neg (by simpa using ht), List.flatMap_cons, handlerFor_untracked m ht, ih]
      rfl

/-- **C72.** If the handlers do not look at `parent_node`, what `validate(node, query=q)` gives does not depend on the
history of the validator object. -/
theorem C72_reusable (issues : PyStr → Node → List Issue) (n : Node) (q : PyStr) (s t : VState X)
    (hr : s.raiseAtFirst = t.raiseAtFirst) (hw : s.warningsAsErrors = t.warningsAsErrors) :
    let v := reporter fun name m _ => issues name m
    let a := validateWith v n (some q) s
    let b := validateWith v n (some q) t
    a.1 = b.1 ∧ a.2.errors = b.2.errors ∧ a.2.warnings = b.2.warnings := by
  intro v a b
  have he : foundIssues (fun name m _ => issues name m) s.parentNode n =
      foundIssues (fun name m _ => issues name m) t.parentNode n := by rw [C72_found, C72_found]
  cases hs : s.raiseAtFirst with
  | false =>
    have ht := hr.symm.trans hs
    simp only [a, b, v, reporter_collect _ n (some q) s hs, reporter_collect _ n (some q) t ht, hw, he]
    exact ⟨trivial, rfl, rfl⟩
  | true =>
    have ht := hr.symm.trans hs
    obtain ⟨st, h1, -⟩ := reporter_raise (fun name m _ => issues name m) n (some q) s hs
    obtain ⟨st', h2, -⟩ := reporter_raise (fun name m _ => issues name m) n (some q) t ht
    simp only [a, b, v, h1, h2, hw, he]
    exact ⟨rfl, rfl, rfl⟩

/-- **C72.** If they do, it depends only on what `parent_node` is before, and this changes only by a call that raises. -/
theorem C72_reusable_parent (issues : PyStr → Node → Option Node → List Issue) (n : Node) (q : PyStr) (s t : VState X)
    (hr : s.raiseAtFirst = t.raiseAtFirst) (hw : s.warningsAsErrors = t.warningsAsErrors) :
    (s.parentNode = t.parentNode →
      let a := validateWith (reporter issues) n (some q) s
      let b := validateWith (reporter issues) n (some q) t
      a.1 = b.1 ∧ a.2.errors = b.2.errors ∧ a.2.warnings = b.2.warnings) ∧
    ∀ query r s', validateWith (reporter issues) n query s = (.ok r, s') → s'.parentNode = s.parentNode := by
  refine ⟨fun hp => ?_, fun query r s' h => ?_⟩
  · intro a b
    cases hs : s.raiseAtFirst with
    | false =>
      have ht := hr.symm.trans hs
      simp only [a, b, reporter_collect _ n (some q) s hs, reporter_collect _ n (some q) t ht, hw, hp]
      exact ⟨trivial, rfl, rfl⟩
    | true =>
      have ht := hr.symm.trans hs
      obtain ⟨st, h1, -⟩ := reporter_raise issues n (some q) s hs
      obtain ⟨st', h2, -⟩ := reporter_raise issues n (some q) t ht
      simp only [a, b, h1, h2, hw, hp]
      exact ⟨rfl, rfl, rfl⟩
  · cases hs : s.raiseAtFirst with
    | false =>
      rw [reporter_collect _ n query s hs] at h
      cases h
      rfl
    | true =>
      obtain ⟨st, h1, h2⟩ := reporter_raise issues n query s hs
      rw [h1] at h
      simp only [Prod.mk.injEq] at h
      obtain ⟨ha, rfl⟩ := h
      cases hf : (foundIssues issues s.parentNode n).find? (Issue.counts s.warningsAsErrors) with
      | some x => rw [hf] at ha; cases ha
      | none =>
        rw [List.find?_eq_none] at hf
        have := h2 fun x hx => by simpa using hf x hx
        subst this
        rfl

/-- **C72.** A call that raises leaves the object with the nodes it was in: `parent_node` of the next root is then one of
those, so that a validator that looks at `parent_node` can give a different answer than a new object. -/
theorem C72_stale_parent : ∃ (issues : PyStr → Node → Option Node → List Issue) (n1 n2 : Node) (s : VState Unit),
    s = VState.new none true false () ∧
    (isValidWith (reporter issues) n2 none s).1 = true ∧
    (isValidWith (reporter issues) n2 none (isValidWith (reporter issues) n1 none s).2).1 = false := by
  refine ⟨fun name m p => if name = py!"visit_Expression" then [⟨true, m, py!"bad"⟩] else
      if name = py!"visit_QuerySegment" ∧ p.isSome then [⟨true, m, py!"nested"⟩] else [],
    .mk (.segment 1 1) [.mk (.expression none py!"foo" .EQUALS py!"a" none) [] none] none,
    .mk (.segment 1 1) [.mk .wildcard [] none] none, _, rfl, ?_, ?_⟩ <;> decide +kernel

-- a validator that forbids quantified segments below a sequence and warns about every sequence; `visit_QueryGroup` is
-- never called, the group is handled as a segment
example : let v : Visitor Unit (VState Unit) SpecError := reporter fun name m p =>
      if name = py!"visit_QuerySequence" then [⟨false, m, py!"sequence"⟩]
      else if name = py!"visit_QueryGroup" then [⟨true, m, py!"group"⟩]
      else if name = py!"visit_QuerySegment" ∧ (p.map fun p => p.kind.clazz) = some .QuerySequence then
        [⟨true, m, py!"below a sequence"⟩] else []
    let n := (parseQuery rt0 locConfig py!"'a' ('b' 'c')").1.toOption.get (by decide +kernel)
    let r := validateWith v n (some py!"'a' ('b' 'c')") (VState.new none false true ())
    r.1.toOption = some false ∧
    r.2.errors.map (fun e => (e.message, e.fragment)) = [(py!"below a sequence", some py!"'a'"),
      (py!"below a sequence", some py!"('b' 'c')"), (py!"below a sequence", some py!"'b'"), (py!"below a sequence", some py!"'c'")] ∧
    r.2.warnings.map (fun e => (e.message, e.fragment)) = [(py!"sequence", some py!"'a' ('b' 'c')"), (py!"sequence", some py!"'b' 'c'")] := by
  decide +kernel

end Fcsql
