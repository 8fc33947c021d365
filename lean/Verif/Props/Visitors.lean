/-
C31, C32, C43: visitors.
-/
import Verif.Spec.Tree
import Verif.Props.Examples

set_option autoImplicit false
set_option linter.unusedSimpArgs false

namespace Fcsql

/-! ### C31 -/

/-- **C31, partial.** `visit` looks up the documented method for exactly these six node classes. -/
theorem C31_dispatch_partial (n : Node) :
    methodName n = documentedMethod n.kind.clazz ↔
      n.kind.clazz ∈ [Clazz.Expression, .QueryDisjunction, .QuerySequence, .QueryWithWithin, .QuerySegment,
        .SimpleWithin] := by
  obtain ⟨k, cs, l⟩ := n
  cases k <;> simp [methodName, Node.nodeType, Node.kind, Kind.nodeType, Kind.clazz, documentedMethod, NodeType.value]

/-- **C31.** For these classes, the documented handler (if the visitor has it) is what runs. -/
theorem C31_handler_runs_partial {R σ ε : Type} (v : Visitor R σ ε) (n : Node)
    (h : n.kind.clazz ∈ [Clazz.Expression, .QueryDisjunction, .QuerySequence, .QueryWithWithin, .QuerySegment,
      .SimpleWithin]) (m : Node → List (Act R σ ε) → Act R σ ε) (hm : v.method (documentedMethod n.kind.clazz) = some m) :
    visitNode v n = m n (acceptAll v n.children) := by
  rw [← (C31_dispatch_partial n).2 h] at hm
  obtain ⟨k, cs, l⟩ := n
  rw [visitNode, dispatch, hm]
  rfl

/-- **C31 is false as documented.** For `ExpressionWildcard`, `ExpressionGroup`, `ExpressionNot`, `ExpressionAnd`
and `ExpressionOr` nodes the method looked up is not one `QueryVisitorAdapter` has: an overridden documented
method is never called. -/
theorem C31_expression_classes_refuted (n : Node)
    (h : n.kind.clazz ∈ [Clazz.ExpressionWildcard, .ExpressionGroup, .ExpressionNot, .ExpressionAnd, .ExpressionOr]) :
    methodName n ∉ adapterMethods := by
  obtain ⟨k, cs, l⟩ := n
  cases k <;> revert h <;> simp [Node.kind, Kind.clazz] <;>
    simp [methodName, Node.nodeType, Node.kind, Kind.nodeType, NodeType.value, adapterMethods]

/-- **C31 is false as documented.** For a `QueryGroup` node the method of `QuerySegment` nodes is called, and
`visit_QueryGroup` is not called for any node. -/
theorem C31_query_group_refuted (n : Node) :
    (n.kind.clazz = .QueryGroup → methodName n = py!"visit_QuerySegment") ∧ methodName n ≠ py!"visit_QueryGroup" := by
  obtain ⟨k, cs, l⟩ := n
  cases k <;> simp [methodName, Node.nodeType, Node.kind, Kind.nodeType, Kind.clazz, NodeType.value]

/-- The name of a class. -/
def Clazz.name : Clazz → PyStr
  | .QueryNode => py!"QueryNode"
  | .Expression => py!"Expression"
  | .ExpressionWildcard => py!"ExpressionWildcard"
  | .ExpressionGroup => py!"ExpressionGroup"
  | .ExpressionNot => py!"ExpressionNot"
  | .ExpressionAnd => py!"ExpressionAnd"
  | .ExpressionOr => py!"ExpressionOr"
  | .QueryDisjunction => py!"QueryDisjunction"
  | .QuerySequence => py!"QuerySequence"
  | .QueryWithWithin => py!"QueryWithWithin"
  | .QuerySegment => py!"QuerySegment"
  | .QueryGroup => py!"QueryGroup"
  | .SimpleWithin => py!"SimpleWithin"

theorem documentedMethod_eq (c : Clazz) (h : c ≠ .QueryNode) : documentedMethod c = py!"visit_" ++ c.name := by
  revert h
  cases c <;> decide

/-- **C31.** What `QueryVisitorAdapter` documents: it has a method for every class of nodes, `visit_` and the class name,
and no other `visit_*` methods. -/
theorem C31_adapter_methods (name : PyStr) :
    name ∈ adapterMethods ↔ ∃ c : Clazz, c ≠ .QueryNode ∧ name = py!"visit_" ++ c.name := by
  constructor
  · intro h
    simp only [adapterMethods, List.mem_cons, List.not_mem_nil, or_false] at h
    rcases h with h | h | h | h | h | h | h | h | h | h | h | h
    · exact ⟨.Expression, by simp, h⟩
    · exact ⟨.ExpressionWildcard, by simp, h⟩
    · exact ⟨.ExpressionGroup, by simp, h⟩
    · exact ⟨.ExpressionNot, by simp, h⟩
    · exact ⟨.ExpressionAnd, by simp, h⟩
    · exact ⟨.ExpressionOr, by simp, h⟩
    · exact ⟨.QueryDisjunction, by simp, h⟩
    · exact ⟨.QuerySequence, by simp, h⟩
    · exact ⟨.QueryWithWithin, by simp, h⟩
    · exact ⟨.QuerySegment, by simp, h⟩
    · exact ⟨.QueryGroup, by simp, h⟩
    · exact ⟨.SimpleWithin, by simp, h⟩
  · rintro ⟨c, hc, rfl⟩
    revert hc
    cases c <;> decide

-- all the classes occur in trees of parsed queries
example : (parseQuery rt0 defaultConfig py!"([])[!(a='b' & c='d' | e='f')]").1 = .ok (.mk .sequence [.mk (.qgroup 1 1)
      [.mk .sequence [.mk (.segment 1 1) [.mk .wildcard [] none] none] none] none,
      .mk (.segment 1 1) [.mk .not [.mk .group [.mk .or [.mk .and
        [.mk (.expression none py!"a" .EQUALS py!"b" none) [] none, .mk (.expression none py!"c" .EQUALS py!"d" none) [] none] none,
        .mk (.expression none py!"e" .EQUALS py!"f" none) [] none] none] none] none] none] none) := by decide +kernel

/-! ### C32 -/

/-- Doing work at the nodes of a list, one after the other, stopping at the first exception. -/
def runWork {σ ε : Type} (work : Node → σ → Except ε Unit × σ) : List Node → σ → Except ε Unit × σ
  | [], s => (.ok (), s)
  | n :: ns, s =>
    match work n s with
    | (.ok _, s) => runWork work ns s
    | (.error e, s) => (.error e, s)

theorem runWork_append {σ ε : Type} (work : Node → σ → Except ε Unit × σ) (a b : List Node) (s : σ) :
    runWork work (a ++ b) s = match runWork work a s with
      | (.ok _, s) => runWork work b s
      | (.error e, s) => (.error e, s) := by
  induction a generalizing s with
  | nil => rfl
  | cons x a ih =>
    simp only [List.cons_append, runWork]
    rcases work x s with ⟨r, s'⟩
    cases r with
    | error e => rfl
    | ok _ => exact ih s'

/-- A visitor of which every handler (for the names in `handled`) does its work and then calls `visitChildren`. -/
def workVisitor {R σ ε : Type} (handled : PyStr → Bool) (work : Node → σ → Except ε Unit × σ) : Visitor R σ ε :=
  { method := fun name =>
      if handled name then some fun node accepts s =>
        match work node s with
        | (.ok _, s) => visitChildrenLoop {} node accepts s
        | (.error e, s) => (.error e, s)
      else none }

/-- The value a visitor returns that way. -/
def asNone {R σ ε : Type} : Except ε Unit × σ → Except ε (Option R) × σ
  | (.ok _, s) => (.ok none, s)
  | (.error e, s) => (.error e, s)

theorem visitLoop_none {R σ ε : Type} (v : Visitor R σ ε) (f : Node → Bool)
    (work : Node → σ → Except ε Unit × σ) (node : Node) : ∀ (cs : List Node),
    (∀ c ∈ cs, ∀ s, visitNode v c s = asNone (runWork work (c.subnodes.filter f) s)) → ∀ s,
    visitLoop ({} : VisitorBase R σ ε) node none (acceptAll v cs) s = asNone (runWork work ((Node.subnodesL cs).filter f) s) := by
  intro cs
  induction cs with
  | nil => intro _ s; rfl
  | cons c cs ih =>
    intro h s
    rw [acceptAll, visitLoop, Node.subnodesL, List.filter_append, runWork_append]
    simp only [if_true, h c (by simp)]
    rcases runWork work (c.subnodes.filter f) s with ⟨r, s'⟩
    cases r with
    | error e => rfl
    | ok u => exact ih (fun d hd => h d (by simp [hd])) s'

/-- **C32.** Such a visitor does the work at exactly the handled nodes of the tree, once each, parents before
children and children left to right (`subnodes`), and returns `None`; an exception in the work stops it. -/
theorem C32_preorder {R σ ε : Type} (handled : PyStr → Bool) (work : Node → σ → Except ε Unit × σ) (n : Node) (s : σ) :
    visitNode (workVisitor (R := R) handled work) n s =
      asNone (runWork work (n.subnodes.filter fun m => handled (methodName m)) s) := by
  revert s
  apply Node.rec (motive_1 := fun n => ∀ s, visitNode (workVisitor (R := R) handled work) n s =
      asNone (runWork work (n.subnodes.filter fun m => handled (methodName m)) s))
    (motive_2 := fun cs => ∀ c ∈ cs, ∀ s, visitNode (workVisitor (R := R) handled work) c s =
      asNone (runWork work (c.subnodes.filter fun m => handled (methodName m)) s))
  · intro k cs l ih s
    rw [visitNode, dispatch, Node.subnodes]
    have hloop := visitLoop_none (workVisitor (R := R) handled work) (fun m => handled (methodName m)) work
      (.mk k cs l) cs ih
    by_cases hh : handled (methodName (.mk k cs l)) = true
    · rw [List.filter_cons_of_pos (by simpa using hh)]
      simp only [workVisitor, hh, if_true, runWork]
      rcases work (.mk k cs l) s with ⟨r, s'⟩
      cases r with
      | error e => rfl
      | ok u => exact hloop s'
    · rw [List.filter_cons_of_neg (by simpa using hh)]
      simp only [workVisitor, hh, if_false]
      exact hloop s
  · simp
  · intro c cs ih1 ih2 d hd
    rcases List.mem_cons.1 hd with rfl | hd
    · exact ih1
    · exact ih2 d hd

/-- **C32.** A visitor that handles everything sees every node. -/
theorem C32_sees_every_node (n : Node) : ∀ (R ε : Type) (seen : List Node),
    visitNode (workVisitor (R := R) (ε := ε) (fun _ => true) fun m s => (.ok (), s ++ [m])) n seen =
      (.ok none, seen ++ n.subnodes) := by
  intro R ε seen
  have : ∀ (l seen : List Node), runWork (ε := ε) (fun m s => (.ok (), s ++ [m])) l seen = (.ok (), seen ++ l) := by
    intro l
    induction l with
    | nil => intro s; simp [runWork]
    | cons x l ih => intro s; simp [runWork, ih]
  rw [C32_preorder, this]
  simp [asNone]

/-- **C32.** `QueryVisitorAdapter` without overridden methods does nothing and returns `None`. -/
theorem C32_adapter_noop (R σ ε : Type) (n : Node) (s : σ) : visitNode (adapter R σ ε) n s = (.ok none, s) := by
  have e : adapter R σ ε = workVisitor (fun name => decide (name ∈ adapterMethods)) fun _ s => (.ok (), s) := by
    simp only [adapter, workVisitor]
    congr
    funext name
    by_cases h : name ∈ adapterMethods <;> simp [h]
  have : ∀ (l : List Node) (s : σ), runWork (ε := ε) (fun _ s => (.ok (), s)) l s = (.ok (), s) := by
    intro l
    induction l with
    | nil => intro s; rfl
    | cons x l ih => intro s; simp [runWork, ih]
  rw [e, C32_preorder, this]
  rfl

example : (visitNode (workVisitor (R := Unit) (ε := Unit) (fun name => name = py!"visit_Expression")
      fun m s => (.ok (), s ++ [m.kind])) (.mk .and [.mk (.expression none py!"a" .EQUALS py!"b" none) [] none,
        .mk .not [.mk (.expression none py!"c" .EQUALS py!"d" none) [] none] none] none) []).2 =
    [.expression none py!"a" .EQUALS py!"b" none, .expression none py!"c" .EQUALS py!"d" none] := by decide +kernel

end Fcsql
