/-
C43: the parent tracking of `Validator`.
-/
import Verif.Spec.Parents
import Verif.Proofs.Validation
import Verif.Props.Tree

set_option autoImplicit false
set_option linter.unusedSimpArgs false

namespace Fcsql

attribute [local irreducible] parseQuery

variable {X : Type}

/-- A subclass of `Validator` with handlers that look at the node and at `self.parent_node` (and change only
attributes of the subclass), then call the super method. -/
def tracker (f : Node → Option Node → X → X) : Visitor Unit (VState X) SpecError :=
  subValidator fun _ n s => (.ok (), { s with own := f n s.parentNode s.own })

theorem tracked_iff (n : Node) : tracked n ↔ methodName n ∈ adapterMethods := by
  obtain ⟨k, cs, l⟩ := n
  cases k <;>
    simp [tracked, methodName, Node.nodeType, Node.kind, Kind.nodeType, Kind.clazz, NodeType.value, adapterMethods]

/-- What the handlers do, one after the other. -/
def runTracked (f : Node → Option Node → X → X) (l : List (Node × Option Node)) (x : X) : X :=
  l.foldl (fun x mp => f mp.1 mp.2 x) x

theorem tracker_loop (f : Node → Option Node → X → X) (node : Node) : ∀ cs : List Node,
    (∀ c ∈ cs, ∀ s, visitNode (tracker f) c s = (.ok none, { s with own := runTracked f (trackedParents s.parentNode c) s.own })) →
    ∀ s, visitLoop {} node none (acceptAll (tracker f) cs) s =
      (.ok none, { s with own := runTracked f (trackedParentsL s.parentNode cs) s.own }) := by
  intro cs
  induction cs with
  | nil => intro _ s; rfl
  | cons c cs ih =>
    intro h s
    simp only [acceptAll, visitLoop, if_true]
    rw [h c (by simp)]
    simp only
    rw [ih fun d hd => h d (by simp [hd])]
    simp only [trackedParentsL, runTracked, List.foldl_append, VState.parentNode]

theorem tracker_visit (f : Node → Option Node → X → X) (n : Node) : ∀ s,
    visitNode (tracker f) n s = (.ok none, { s with own := runTracked f (trackedParents s.parentNode n) s.own }) := by
  apply Node.rec (motive_1 := fun n => ∀ s, visitNode (tracker f) n s =
      (.ok none, { s with own := runTracked f (trackedParents s.parentNode n) s.own }))
    (motive_2 := fun cs => ∀ c ∈ cs, ∀ s, visitNode (tracker f) c s =
      (.ok none, { s with own := runTracked f (trackedParents s.parentNode c) s.own }))
  · intro k cs l ih s
    have hl := tracker_loop f (.mk k cs l) cs ih
    rw [visitNode, trackedParents]
    by_cases hm : methodName (.mk k cs l) ∈ adapterMethods
    · rw [if_pos ((tracked_iff _).2 hm)]
      have hd : (tracker f).method (methodName (.mk k cs l)) = some fun n accepts s =>
          validatorVisit n accepts { s with own := f n s.parentNode s.own } := by
        simp only [tracker, subValidator, hm, if_true]; rfl
      rw [dispatch, hd]
      simp only [validatorVisit, visitChildrenLoop]
      rw [hl]
      simp [VState.parentNode, runTracked]
    · rw [if_neg (fun h => hm ((tracked_iff _).1 h))]
      have hd : (tracker f).method (methodName (.mk k cs l)) = none := by
        simp only [tracker, subValidator, hm, if_false]
      rw [dispatch, hd]
      exact hl s
  · simp
  · intro c cs ih1 ih2 d hd
    rcases List.mem_cons.1 hd with rfl | hd
    · exact ih1
    · exact ih2 d hd

/-- **C43.** The handlers of a subclass run for exactly the tracked nodes, in document order, and `parent_node` is
then the nearest tracked ancestor; afterwards the stack is as before (empty for a new object). -/
theorem C43_parent_node_partial (f : Node → Option Node → X → X) (n : Node) (query : Option PyStr) (x : X) (re wae : Bool)
    (q : Option PyStr) :
    ∃ s', validateWith (tracker f) n query (VState.new q re wae x) = (.ok true, s') ∧ s'.stack = [] ∧
      s'.own = (trackedParents none n).foldl (fun x mp => f mp.1 mp.2 x) x := by
  rw [validateWith_eq, tracker_visit]
  exact ⟨_, by simp only [VState.reset, VState.new]; simp; exact ⟨by cases wae <;> rfl, rfl⟩, rfl, rfl⟩

/-! ### Trees of parsed queries -/

theorem expr_untracked {n : Node} (hs : ∀ m ∈ n.subnodes, ShapeAt m.kind (m.children.map Node.kind))
    (h : n.kind.isExpr ∨ n.kind = .wildcard) (p : Option Node) :
    ∀ mp ∈ trackedParents p n, mp.2 = p ∧ mp.1 ∈ n.subnodes ∧ mp.1.kind.clazz = .Expression := by
  revert hs h
  apply Node.rec (motive_1 := fun n => (∀ m ∈ n.subnodes, ShapeAt m.kind (m.children.map Node.kind)) →
      n.kind.isExpr ∨ n.kind = .wildcard →
      ∀ mp ∈ trackedParents p n, mp.2 = p ∧ mp.1 ∈ n.subnodes ∧ mp.1.kind.clazz = .Expression)
    (motive_2 := fun cs => (∀ m ∈ Node.subnodesL cs, ShapeAt m.kind (m.children.map Node.kind)) →
      (∀ c ∈ cs, c.kind.isExpr) →
      ∀ mp ∈ trackedParentsL p cs, mp.2 = p ∧ mp.1 ∈ Node.subnodesL cs ∧ mp.1.kind.clazz = .Expression)
  · intro k cs l ih hs h mp hmp
    rw [Node.subnodes] at hs
    have h0 := hs _ List.mem_cons_self
    have h1 : ∀ m ∈ Node.subnodesL cs, ShapeAt m.kind (m.children.map Node.kind) :=
      fun m hm => hs m (List.mem_cons_of_mem _ hm)
    simp only [Node.kind, Node.children] at h0 h
    rw [trackedParents] at hmp
    rw [Node.subnodes]
    have hkids : ∀ (_ : ∀ c ∈ cs.map Node.kind, c.isExpr), mp ∈ trackedParentsL p cs →
        mp.2 = p ∧ mp.1 ∈ (Node.mk k cs l) :: Node.subnodesL cs ∧ mp.1.kind.clazz = .Expression := by
      intro hc hmp
      obtain ⟨a, b, c⟩ := ih h1 (fun c hcm => hc _ (List.mem_map_of_mem hcm)) mp hmp
      exact ⟨a, List.mem_cons_of_mem _ b, c⟩
    cases k with
    | expression q i op r fl =>
      have : cs = [] := by simpa [ShapeAt] using h0
      subst this
      rw [if_pos (by simp [tracked, Node.kind, Kind.clazz])] at hmp
      simp only [trackedParentsL, List.mem_cons, List.not_mem_nil, or_false] at hmp
      subst hmp
      exact ⟨rfl, by simp, rfl⟩
    | wildcard =>
      have : cs = [] := by simpa [ShapeAt] using h0
      subst this
      rw [if_neg (by simp [tracked, Node.kind, Kind.clazz])] at hmp
      simp [trackedParentsL] at hmp
    | group =>
      rw [if_neg (by simp [tracked, Node.kind, Kind.clazz])] at hmp
      obtain ⟨c, e, hc⟩ := h0
      exact hkids (by rw [e]; simpa using hc) hmp
    | not =>
      rw [if_neg (by simp [tracked, Node.kind, Kind.clazz])] at hmp
      obtain ⟨c, e, hc⟩ := h0
      exact hkids (by rw [e]; simpa using hc) hmp
    | and =>
      rw [if_neg (by simp [tracked, Node.kind, Kind.clazz])] at hmp
      exact hkids (fun c hc => (h0.2.1 c hc).1) hmp
    | or =>
      rw [if_neg (by simp [tracked, Node.kind, Kind.clazz])] at hmp
      exact hkids (fun c hc => (h0.2 c hc).1) hmp
    | _ => simp [Kind.isExpr] at h
  · intro _ _ mp h; simp [trackedParentsL] at h
  · intro c cs ih1 ih2 hs h mp hmp
    rw [Node.subnodesL] at hs ⊢
    rw [trackedParentsL] at hmp
    rcases List.mem_append.1 hmp with hmp | hmp
    · obtain ⟨a, b, d⟩ := ih1 (fun m hm => hs m (by simp [hm])) (.inl (h c (by simp))) mp hmp
      exact ⟨a, by simp [b], d⟩
    · obtain ⟨a, b, d⟩ := ih2 (fun m hm => hs m (by simp [hm])) (fun c hc => h c (by simp [hc])) mp hmp
      exact ⟨a, by simp [b], d⟩

/-- What `parent_node` is for a node of a well-shaped tree. -/
def TrackedOk (root : List Node) (real : List (Node × Option Node)) (mp : Node × Option Node) : Prop :=
  (mp.1.kind.clazz ≠ .Expression → mp ∈ real) ∧
  (mp.1.kind.clazz = .Expression → ∃ seg ∈ root, mp.2 = some seg ∧ seg.kind.clazz = .QuerySegment ∧ mp.1 ∈ seg.subnodes)

theorem TrackedOk.mono {r r' : List Node} {a a' : List (Node × Option Node)} {mp : Node × Option Node}
    (h : TrackedOk r a mp) (h1 : ∀ x ∈ r, x ∈ r') (h2 : ∀ x ∈ a, x ∈ a') : TrackedOk r' a' mp :=
  ⟨fun hm => h2 _ (h.1 hm), fun hm => by
    obtain ⟨seg, hs, h3⟩ := h.2 hm
    exact ⟨seg, h1 _ hs, h3⟩⟩

theorem query_tracked (n : Node) : (∀ m ∈ n.subnodes, ShapeAt m.kind (m.children.map Node.kind)) →
    n.kind.isQuery ∨ n.kind = .withWithin ∨ (∃ s, n.kind = .within s) → ∀ p,
    ∀ mp ∈ trackedParents p n, TrackedOk n.subnodes (realParents p n) mp := by
  apply Node.rec (motive_1 := fun n => (∀ m ∈ n.subnodes, ShapeAt m.kind (m.children.map Node.kind)) →
      n.kind.isQuery ∨ n.kind = .withWithin ∨ (∃ s, n.kind = .within s) → ∀ p,
      ∀ mp ∈ trackedParents p n, TrackedOk n.subnodes (realParents p n) mp)
    (motive_2 := fun cs => (∀ m ∈ Node.subnodesL cs, ShapeAt m.kind (m.children.map Node.kind)) →
      (∀ c ∈ cs, c.kind.isQuery ∨ c.kind = .withWithin ∨ (∃ s, c.kind = .within s)) → ∀ p,
      ∀ mp ∈ trackedParentsL p cs, TrackedOk (Node.subnodesL cs) (realParentsL p cs) mp)
  · intro k cs l ih hs h p mp hmp
    rw [Node.subnodes] at hs
    have h0 := hs _ List.mem_cons_self
    have h1 : ∀ m ∈ Node.subnodesL cs, ShapeAt m.kind (m.children.map Node.kind) :=
      fun m hm => hs m (List.mem_cons_of_mem _ hm)
    simp only [Node.kind, Node.children] at h0 h
    rw [trackedParents] at hmp
    rw [Node.subnodes, realParents]
    have hkids : tracked (.mk k cs l) → k.clazz ≠ .Expression →
        (∀ c ∈ cs.map Node.kind, c.isQuery ∨ c = .withWithin ∨ ∃ s, c = .within s) →
        TrackedOk (.mk k cs l :: Node.subnodesL cs) ((.mk k cs l, p) :: realParentsL (some (.mk k cs l)) cs) mp := by
      intro ht hne hc
      rw [if_pos ht] at hmp
      rcases List.mem_cons.1 hmp with rfl | hmp
      · exact ⟨fun _ => List.mem_cons_self, fun h => absurd h hne⟩
      · exact (ih h1 (fun c hcm => hc _ (List.mem_map_of_mem hcm)) _ mp hmp).mono
          (fun _ h => List.mem_cons_of_mem _ h) (fun _ h => List.mem_cons_of_mem _ h)
    cases k with
    | segment mn mx =>
      rw [if_pos (by simp [tracked, Node.kind, Kind.clazz])] at hmp
      obtain ⟨c, e, hc⟩ := h0
      obtain ⟨d, rfl, rfl⟩ := List.map_eq_singleton_iff.1 e
      rcases List.mem_cons.1 hmp with rfl | hmp
      · exact ⟨fun _ => List.mem_cons_self, fun h => by simp [Node.kind, Kind.clazz] at h⟩
      · simp only [trackedParentsL, List.append_nil] at hmp
        simp only [Node.subnodesL, List.append_nil] at h1
        obtain ⟨a, b, e⟩ := expr_untracked h1 hc _ mp hmp
        refine ⟨fun h => absurd e h, fun _ => ⟨_, List.mem_cons_self, a, rfl, ?_⟩⟩
        rw [Node.subnodes]
        exact List.mem_cons_of_mem _ (by simpa [Node.subnodesL] using b)
    | qgroup mn mx =>
      refine hkids (by simp [tracked, Node.kind, Kind.clazz]) (by simp [Kind.clazz]) ?_
      obtain ⟨c, e, hc⟩ := h0
      rw [e]
      rcases hc with rfl | rfl <;> simp [Kind.isQuery]
    | sequence =>
      refine hkids (by simp [tracked, Node.kind, Kind.clazz]) (by simp [Kind.clazz]) ?_
      intro c hc
      have := h0.2 c hc
      cases c <;> simp [Kind.isItem, Kind.isQuery] at this ⊢
    | disjunction =>
      refine hkids (by simp [tracked, Node.kind, Kind.clazz]) (by simp [Kind.clazz]) ?_
      intro c hc
      exact .inl (h0.2 c hc).1
    | withWithin =>
      refine hkids (by simp [tracked, Node.kind, Kind.clazz]) (by simp [Kind.clazz]) ?_
      obtain ⟨m, s, e, hm⟩ := h0
      rw [e]
      simp [hm]
    | within s =>
      refine hkids (by simp [tracked, Node.kind, Kind.clazz]) (by simp [Kind.clazz]) ?_
      have e : cs.map Node.kind = [] := h0
      rw [e]; simp
    | _ => simp [Kind.isQuery] at h
  · intro _ _ p mp h; simp [trackedParentsL] at h
  · intro c cs ih1 ih2 hs h p mp hmp
    rw [Node.subnodesL] at hs ⊢
    rw [trackedParentsL] at hmp
    rw [realParentsL]
    rcases List.mem_append.1 hmp with hmp | hmp
    · exact (ih1 (fun m hm => hs m (by simp [hm])) (h c (by simp)) p mp hmp).mono (by simp +contextual) (by simp +contextual)
    · exact (ih2 (fun m hm => hs m (by simp [hm])) (fun c hc => h c (by simp [hc])) p mp hmp).mono
        (by simp +contextual) (by simp +contextual)

/-- **C43, partial.** For the tree of a parsed query: when the handler of a node that is not an `Expression` runs,
`parent_node` is its parent (`None` for the root); when the handler of an `Expression` runs, it is the
`QuerySegment` the `Expression` is in. -/
theorem C43_parsed_partial (rt : Runtime) (cfg : Config) (q : PyStr) (n : Node) (h : (parseQuery rt cfg q).1 = .ok n) :
    ∀ mp ∈ trackedParents none n, (mp.1.kind.clazz ≠ .Expression → mp ∈ realParents none n) ∧
      (mp.1.kind.clazz = .Expression →
        ∃ seg ∈ n.subnodes, mp.2 = some seg ∧ seg.kind.clazz = .QuerySegment ∧ mp.1 ∈ seg.subnodes) := by
  have hw := C14_shape rt cfg q n h
  exact query_tracked n hw.inner (hw.root.imp id .inl) none

-- `('a' [])` has five tracked nodes (the group, the sequence, two segments and the expression; a wildcard has no handler)
example : ∃ n, (parseQuery rt0 defaultConfig py!"('a' [])").1 = .ok n ∧
    (trackedParents none n).map (fun mp => (mp.1.kind.clazz, mp.2.map fun p => p.kind.clazz)) =
      [(.QueryGroup, none), (.QuerySequence, some .QueryGroup), (.QuerySegment, some .QuerySequence),
       (.Expression, some .QuerySegment), (.QuerySegment, some .QuerySequence)] := by
  refine ⟨.mk (.qgroup 1 1) [.mk .sequence [.mk (.segment 1 1) [.mk (.expression none py!"text" .EQUALS py!"a" none) [] none] none,
    .mk (.segment 1 1) [.mk .wildcard [] none] none] none] none, by decide +kernel, by decide +kernel⟩

/-- **C43 is false as documented.** Inside `[a='1' & b='2']` the parent of the `Expression`s is the `ExpressionAnd`,
but `parent_node` is the `QuerySegment`. -/
theorem C43_expression_parent_refuted : ∃ n, (parseQuery rt0 defaultConfig py!"[a='1' & b='2']").1 = .ok n ∧
    ∃ m and seg, (m, some and) ∈ realParents none n ∧ m.kind.clazz = .Expression ∧ and.kind = .and ∧
      (m, some seg) ∈ trackedParents none n ∧ seg.kind = .segment 1 1 ∧ (m, some and) ∉ trackedParents none n := by
  refine ⟨.mk (.segment 1 1) [.mk .and [.mk (.expression none py!"a" .EQUALS py!"1" none) [] none,
    .mk (.expression none py!"b" .EQUALS py!"2" none) [] none] none] none, by decide +kernel,
    .mk (.expression none py!"a" .EQUALS py!"1" none) [] none,
    .mk .and [.mk (.expression none py!"a" .EQUALS py!"1" none) [] none,
      .mk (.expression none py!"b" .EQUALS py!"2" none) [] none] none,
    .mk (.segment 1 1) [.mk .and [.mk (.expression none py!"a" .EQUALS py!"1" none) [] none,
    .mk (.expression none py!"b" .EQUALS py!"2" none) [] none] none] none, ?_⟩
  decide +kernel

/-- **C43 is false after an exception.** The stack is not reset by `validate`: after `validate` has raised, the
stack is not empty, and in the next call `parent_node` is a node of the previous tree while the root is visited. -/
theorem C43_after_exception_refuted :
    let v := subValidator (X := List (Option Node)) fun _ n s =>
      match n.kind with
      | .expression .. => (.error ⟨[], n, none⟩, s)
      | _ => (.ok (), { s with own := s.own ++ [s.parentNode] })
    let n1 : Node := .mk (.segment 1 1) [.mk (.expression none py!"foo" .EQUALS py!"a" none) [] none] none
    let n2 : Node := .mk (.segment 1 1) [.mk .wildcard [] none] none
    let s := (validateWith v n1 none (VState.new none true false [])).2
    s.stack = [n1] ∧ (validateWith v n2 none s).2.own = [none, some n1] := by decide +kernel

end Fcsql
