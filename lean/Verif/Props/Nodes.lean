/-
C55, C56, C57: node types, typed accessors, the `Expression` constructor.
-/
import Verif.Model.Accessors
import Verif.Spec.Nodes
import Verif.Props.Tree
import Verif.Props.Examples

set_option autoImplicit false
set_option linter.unusedSimpArgs false

namespace Fcsql

attribute [local irreducible] parseQuery

/-! ### C55 -/

/-- **C55, partial.** For every node that is not a `QueryGroup`, `has_node_type(t)` is true exactly if the node is
an instance of the class documented for `t`. -/
theorem C55_node_type_partial (n : Node) (h : n.kind.clazz ≠ .QueryGroup) (t : NodeType) :
    ∃ b, n.hasNodeTypeArg (some t) = .ok b ∧ (b = true ↔ n.kind.clazz = t.documentedClass) := by
  refine ⟨_, rfl, ?_⟩
  obtain ⟨k, cs, l⟩ := n
  cases k <;> cases t <;>
    simp_all [Node.hasNodeType, Node.nodeType, Node.kind, Kind.nodeType, Kind.clazz, NodeType.documentedClass]

/-- **C55 is false for `QueryGroup`**: a `QueryGroup` has the node type of segments and not its own, and no node has
the node type `QUERY_GROUP`. -/
theorem C55_query_group_refuted (n : Node) :
    (n.kind.clazz = .QueryGroup → n.hasNodeTypeArg (some .QUERY_SEGMENT) = .ok true) ∧
    n.hasNodeTypeArg (some .QUERY_GROUP) = .ok false := by
  obtain ⟨k, cs, l⟩ := n
  cases k <;> simp [Node.hasNodeTypeArg, Node.hasNodeType, Node.nodeType, Node.kind, Kind.nodeType, Kind.clazz]

/-- **C55.** `None` as argument of the predicates raises `TypeError`. -/
theorem C55_none_raises (n : Node) (e : ExprAttrs) :
    n.hasNodeTypeArg none = .error .mk ∧ e.hasLayerIdentifierArg none = .error .mk ∧
    e.hasLayerQualifierArg none = .error .mk ∧ e.hasOperatorArg none = .error .mk ∧
    e.hasRegexFlagArg none = .error .mk := ⟨rfl, rfl, rfl, rfl, rfl⟩

-- the root of `('a')+` is a `QueryGroup`, its child a `QuerySequence`
example : ∃ n c, (parseQuery rt0 defaultConfig py!"('a')+").1 = .ok n ∧ n.children = [c] ∧ n.kind.clazz = .QueryGroup ∧
    n.hasNodeTypeArg (some .QUERY_GROUP) = .ok false ∧ c.hasNodeTypeArg (some .QUERY_SEQUENCE) = .ok true := by
  have h : (parseQuery rt0 defaultConfig py!"('a')+").1 = .ok (.mk (.qgroup 1 (-1)) [.mk .sequence [.mk (.segment 1 1)
      [.mk (.expression none py!"text" .EQUALS py!"a" none) [] none] none] none] none) := by decide +kernel
  exact ⟨_, _, h, rfl, rfl, rfl, rfl⟩

/-! ### C56 -/

/-- **C56.** In every tree `parse` returns, at every node, the accessors of the node's class return its parts and do
not raise: a `QueryWithWithin` consists of its query and its within clause, a `QuerySegment` of its expression, a
`QueryGroup` of its content, and And/Or have at least two operands, which are expressions. -/
theorem C56_accessors_of_parsed (rt : Runtime) (cfg : Config) (q : PyStr) (n : Node)
    (h : (parseQuery rt cfg q).1 = .ok n) (m : Node) (hm : m ∈ n.subnodes) :
    (m.kind.clazz = .QueryWithWithin → ∃ a b s, m.getQuery = .ok a ∧ m.getWithin = .ok (some b) ∧ m.children = [a, b] ∧
      a.kind.isQuery ∧ b.kind = .within s) ∧
    (m.kind.clazz = .QuerySegment → ∃ e, m.getExpression = .ok e ∧ m.children = [e] ∧ (e.kind.isExpr ∨ e.kind = .wildcard)) ∧
    (m.kind.clazz = .QueryGroup → ∃ c, m.getContent = .ok c ∧ m.children = [c] ∧ (c.kind = .sequence ∨ c.kind = .disjunction)) ∧
    (m.kind.clazz = .ExpressionAnd ∨ m.kind.clazz = .ExpressionOr →
      2 ≤ m.operands.length ∧ m.operands = m.children ∧ ∀ c ∈ m.operands, c.kind.isExpr) := by
  have hs := (C14_shape rt cfg q n h).inner m hm
  obtain ⟨k, cs, l⟩ := m
  simp only [Node.kind, Node.children] at hs
  have one : ∀ {x : Kind}, cs.map Node.kind = [x] → ∃ e, cs = [e] ∧ e.kind = x := by
    intro x hx
    rcases cs with _ | ⟨e, _ | ⟨e', r⟩⟩ <;> simp at hx
    exact ⟨e, rfl, hx⟩
  have all : (∀ c ∈ cs.map Node.kind, c.isExpr) → ∀ c ∈ cs, c.kind.isExpr :=
    fun hx c hc => hx _ (List.mem_map_of_mem hc)
  cases k with
  | withWithin =>
    obtain ⟨a, s, he, ha⟩ := hs
    rcases cs with _ | ⟨x, _ | ⟨y, _ | ⟨z, r⟩⟩⟩ <;> simp at he
    obtain ⟨rfl, hy⟩ := he
    refine ⟨fun _ => ⟨x, y, s, rfl, rfl, rfl, ha, hy⟩, ?_, ?_, ?_⟩ <;> simp [Node.kind, Kind.clazz]
  | segment mn mx =>
    obtain ⟨x, he, hx⟩ := hs
    obtain ⟨e, rfl, rfl⟩ := one he
    refine ⟨?_, fun _ => ⟨e, rfl, rfl, hx⟩, ?_, ?_⟩ <;> simp [Node.kind, Kind.clazz]
  | qgroup mn mx =>
    obtain ⟨x, he, hx⟩ := hs
    obtain ⟨e, rfl, rfl⟩ := one he
    refine ⟨?_, ?_, fun _ => ⟨e, rfl, rfl, hx⟩, ?_⟩ <;> simp [Node.kind, Kind.clazz]
  | and =>
    refine ⟨?_, ?_, ?_, fun _ => ⟨by simpa [Node.operands, Node.children] using hs.1, rfl, all fun c hc => (hs.2.1 c hc).1⟩⟩ <;> simp [Node.kind, Kind.clazz]
  | or =>
    refine ⟨?_, ?_, ?_, fun _ => ⟨by simpa [Node.operands, Node.children] using hs.1, rfl, all fun c hc => (hs.2 c hc).1⟩⟩ <;> simp [Node.kind, Kind.clazz]
  | _ => simp [Node.kind, Kind.clazz]

/-- **C56.** The constructors give back their arguments through the accessors. -/
theorem C56_accessors_of_constructed (a b : Node) (mn mx : Int) :
    (mkWithWithin a (some b)).getQuery = .ok a ∧ (mkWithWithin a (some b)).getWithin = .ok (some b) ∧
    (mkWithWithin a none).getQuery = .ok a ∧
    (mkSegment a mn mx).getExpression = .ok a ∧ (mkSegment a mn mx).kind = .segment mn mx ∧
    (mkQueryGroup a mn mx).getContent = .ok a ∧ (mkQueryGroup a mn mx).kind = .qgroup mn mx := by
  refine ⟨?_, ?_, ?_, ?_, ?_, ?_, ?_⟩ <;> rfl

/-- **C56.** The children of a new node are the nodes given to the constructor, in the order given and with nothing
left out or added: `children` first, then `child`; a new node has no location. -/
theorem C56_children_of_constructed (a b : Node) (cs : List Node) (mn mx : Int) (scope : Scope) :
    mkWildcard none none = .mk .wildcard [] none ∧ mkWildcard (some cs) none = .mk .wildcard cs none ∧
    mkWildcard none (some a) = .mk .wildcard [a] none ∧ mkWildcard (some cs) (some a) = .mk .wildcard (cs ++ [a]) none ∧
    mkExprGroup a = .mk .group [a] none ∧ mkNot a = .mk .not [a] none ∧
    (mkAnd cs).operands = cs ∧ mkAnd cs = .mk .and cs none ∧ (mkOr cs).operands = cs ∧ mkOr cs = .mk .or cs none ∧
    mkDisjunction cs = .mk .disjunction cs none ∧ mkSequence cs = .mk .sequence cs none ∧
    mkWithWithin a (some b) = .mk .withWithin [a, b] none ∧ mkWithWithin a none = .mk .withWithin [a] none ∧
    mkSegment a mn mx = .mk (.segment mn mx) [a] none ∧ mkQueryGroup a mn mx = .mk (.qgroup mn mx) [a] none ∧
    mkSimpleWithin scope = .mk (.within scope) [] none := by
  simp [mkWildcard, mkExprGroup, mkNot, mkAnd, mkOr, mkDisjunction, mkSequence, mkWithWithin, mkSegment, mkQueryGroup,
    mkSimpleWithin, initChildren, Node.operands, Node.children]

/-- **C56 is false of `QueryWithWithin(query, None)`**: `get_within` is declared to return `None` if there is no
within clause, but raises `IndexError`. -/
theorem C56_no_within_refuted (a : Node) : (mkWithWithin a none).getWithin = .error .mk := rfl

example : ∃ n a b, (parseQuery rt0 defaultConfig py!"[a='b' & c='d'] within s").1 = .ok n ∧ n.getQuery = .ok a ∧
    n.getWithin = .ok (some b) ∧ a.getExpression.toOption.map (fun e => e.operands.length) = some 2 ∧
    b.kind = .within .SENTENCE := by
  have h : (parseQuery rt0 defaultConfig py!"[a='b' & c='d'] within s").1 = .ok (.mk .withWithin [.mk (.segment 1 1)
      [.mk .and [.mk (.expression none py!"a" .EQUALS py!"b" none) [] none,
        .mk (.expression none py!"c" .EQUALS py!"d" none) [] none] none] none, .mk (.within .SENTENCE) [] none] none) := by
    decide +kernel
  exact ⟨_, _, _, h, rfl, rfl, rfl, rfl⟩

/-! ### C57 -/

theorem isPySpace_iff (c : Nat) : isPySpace c = true ↔ c ∈ blankChars := by
  simp only [isPySpace, blankChars, Bool.or_eq_true, Bool.and_eq_true, decide_eq_true_eq, beq_iff_eq, List.mem_cons,
    List.not_mem_nil, or_false]
  omega

/-- **C57.** A new `Expression` has the identifier, operator and regex it was given, no children and no location;
its qualifier is the one given, or `None` if that was `None`, empty or blank; its flags are those given, or `None`
if that was `None` or empty. -/
theorem C57_expression (qualifier : Option PyStr) (i : PyStr) (o : Operator) (r : PyStr) (flags : Option FlagSet) :
    ∃ q' f', mkExpression qualifier i o r flags = .mk (.expression q' i o r f') [] none ∧
      (∀ x, q' = some x ↔ qualifier = some x ∧ ¬ Blank x) ∧
      (∀ s, f' = some s ↔ flags = some s ∧ ∃ f, s.has f = true) := by
  refine ⟨_, _, rfl, ?_, ?_⟩
  · have hb : ∀ q : PyStr, (q.isEmpty || isSpaceStr q) = true ↔ Blank q := by
      intro q
      cases q with
      | nil => simp [Blank]
      | cons c q => simp [isSpaceStr, Blank, isPySpace_iff]
    intro x
    cases qualifier with
    | none => simp
    | some q =>
      simp only
      by_cases h : (q.isEmpty || isSpaceStr q) = true
      · rw [if_pos h]
        simp only [reduceCtorEq, Option.some.injEq, false_iff, not_and, Classical.not_not]
        rintro rfl
        exact (hb q).1 h
      · rw [if_neg h]
        simp only [Option.some.injEq]
        exact ⟨fun e => ⟨e, e ▸ fun h' => h ((hb q).2 h')⟩, fun e => e.1⟩
  · intro s
    cases flags with
    | none => simp
    | some f =>
      have he : f.isEmpty = true ↔ ¬ ∃ x, f.has x = true := by
        rw [FlagSet.isEmpty_iff]; simp
      simp only
      by_cases h : f.isEmpty = true
      · rw [if_pos h]
        simp only [reduceCtorEq, Option.some.injEq, false_iff, not_and]
        rintro rfl
        exact he.1 h
      · rw [if_neg h]
        simp only [Option.some.injEq]
        refine ⟨fun e => ⟨e, e ▸ ?_⟩, fun e => e.1⟩
        exact Classical.not_not.1 fun h' => h (he.2 h')

example : mkExpression (some [0x2003, 32]) py!"pos" .NOT_EQUALS py!"x" (some .empty) =
      .mk (.expression none py!"pos" .NOT_EQUALS py!"x" none) [] none ∧
    mkExpression (some [32, 120]) py!"pos" .NOT_EQUALS py!"x" (some (FlagSet.empty.add .LITERAL_MATCHING)) =
      .mk (.expression (some [32, 120]) py!"pos" .NOT_EQUALS py!"x" (some ⟨false, false, true, false⟩)) [] none := by
  decide +kernel

end Fcsql
