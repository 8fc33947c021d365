/-
C73, C74, C75: what accessors, dispatch and lexical error records do, exactly (where it is not what is documented).
-/
import Verif.Props.Api
import Verif.Props.Nodes
import Verif.Props.Visitors
import Verif.Props.Errors
import Verif.Spec.CustomValidators

set_option autoImplicit false
set_option linter.unusedSimpArgs false

namespace Fcsql

attribute [local irreducible] parseQuery

/-! ### C73 -/

/-- **C73.** `get_child(i, clazz)` for every node, index and class: it raises `IndexError` exactly if no class is given, the
node has children and the index is their number; otherwise it returns the `i`-th child (of the class), `None` if there is
none. -/
theorem C73_get_child (n : Node) (i : Int) (c : Option Clazz) : n.getChild i c =
    if c = none ∧ n.children ≠ [] ∧ i = n.children.length then .error .mk else .ok (specChild n i c) := by
  split
  · rename_i h
    obtain ⟨rfl, h1, rfl⟩ := h
    exact C28_refuted n h1
  · rename_i h
    exact C28_get_child_partial n i c h

/-- **C73.** `get_first_child` and `get_last_child` for every node and class: they never raise; with a class,
`get_last_child` gives the last child if all children are of that class and `None` otherwise. -/
theorem C73_first_last (n : Node) (c : Clazz) :
    n.getFirstChild = .ok n.children.head? ∧ n.getFirstChild (some c) = .ok (n.children.find? fun x => IsA x c) ∧
    n.getLastChild = .ok n.children.getLast? ∧
    n.getLastChild (some c) = .ok (if ∀ x ∈ n.children, IsA x c then n.children.getLast? else none) := by
  refine ⟨C29_get_first_child n none, C29_get_first_child n (some c), C29_get_last_child n, ?_⟩
  rw [C29_get_last_child_of_class_partial]
  simp only [List.all_eq_true, decide_eq_true_eq]

/-- **C73.** `get_query`, `get_expression` and `get_content` give the first child, and raise exactly if there is none;
`get_within` gives the second child, raises exactly if there is just one child, and gives `None` if there is none. -/
theorem C73_parts (n : Node) :
    (∀ a, n.getQuery = .ok a ↔ n.children.head? = some a) ∧ (n.getQuery = .error .mk ↔ n.children = []) ∧
    n.getExpression = n.getQuery ∧ n.getContent = n.getQuery ∧
    n.getWithin = (match n.children with
      | [] => .ok none
      | [_] => .error .mk
      | _ :: b :: _ => .ok (some b)) := by
  obtain ⟨k, cs, l⟩ := n
  refine ⟨?_, ?_, rfl, rfl, ?_⟩
  · cases cs <;> simp [Node.getQuery, Node.firstOrRaise, Node.children]
  · cases cs <;> simp [Node.getQuery, Node.firstOrRaise, Node.children]
  · rw [Node.getWithin, C73_get_child]
    rcases cs with _ | ⟨a, _ | ⟨b, cs⟩⟩
    · simp [Node.children, specChild]
    · simp [Node.children, specChild]
    · rw [if_neg (by simp [Node.children]; omega)]
      simp [Node.children, specChild]

/-- **C73.** The predicates of an `Expression` made with a qualifier and flags: `is_layer_qualifier_empty` is true exactly if
a qualifier that is not blank was given, `has_layer_qualifier` is never true, `is_regex_flags_empty` is true exactly if a
non-empty set of flags was given, and `has_regex_flag` exactly if the flag is in it. -/
theorem C73_predicates (qualifier : Option PyStr) (i : PyStr) (o : Operator) (r : PyStr) (flags : Option FlagSet)
    (q' : Option PyStr) (f' : Option FlagSet) (h : mkExpression qualifier i o r flags = .mk (.expression q' i o r f') [] none) :
    let e : ExprAttrs := ⟨q', i, o, r, f'⟩
    (e.isLayerQualifierEmpty = true ↔ ∃ x, qualifier = some x ∧ ¬ Blank x) ∧
    (∀ x, e.hasLayerQualifierArg (some x) = .ok false) ∧
    (e.isRegexFlagsEmpty = true ↔ ∃ s f, flags = some s ∧ s.has f = true) ∧
    (∀ f, ∃ b, e.hasRegexFlagArg (some f) = .ok b ∧ (b = true ↔ ∃ s, flags = some s ∧ s.has f = true)) ∧
    (∀ x, ∃ b, e.hasLayerIdentifierArg (some x) = .ok b ∧ (b = true ↔ x = i)) ∧
    (∀ x, ∃ b, e.hasOperatorArg (some x) = .ok b ∧ (b = true ↔ x = o)) := by
  intro e
  obtain ⟨q1, f1, h1, h2, h3⟩ := C57_expression qualifier i o r flags
  rw [h] at h1
  simp only [Node.mk.injEq, Kind.expression.injEq, true_and, and_true] at h1
  obtain ⟨rfl, rfl⟩ := h1
  have hq : e.isLayerQualifierEmpty = true ↔ ∃ x, qualifier = some x ∧ ¬ Blank x := by
    rw [C30_qualifier_empty_refuted]
    constructor
    · rintro ⟨x, hx, -⟩
      exact ⟨x, (h2 x).1 hx⟩
    · rintro ⟨x, hx, hb⟩
      refine ⟨x, (h2 x).2 ⟨hx, hb⟩, ?_⟩
      rintro rfl
      exact hb (by simp [Blank])
  refine ⟨hq, fun x => ?_, ?_, fun f => ⟨_, rfl, ?_⟩, fun x => ⟨_, rfl, ?_⟩, fun x => ⟨_, rfl, ?_⟩⟩
  · simp only [ExprAttrs.hasLayerQualifierArg, ExprAttrs.hasLayerQualifier]
    split
    · rfl
    · rename_i hn
      rw [hq] at hn
      congr 1
      rw [decide_eq_false_iff_not]
      intro he
      exact hn ⟨x, (h2 x).1 he⟩
  · rw [C30_flags_empty_refuted]
    constructor
    · rintro ⟨s, f, hs, hf⟩
      exact ⟨s, f, ((h3 s).1 hs).1, hf⟩
    · rintro ⟨s, f, hs, hf⟩
      exact ⟨s, f, (h3 s).2 ⟨hs, f, hf⟩, hf⟩
  · rw [(C30_simple_predicates e).2.2]
    constructor
    · rintro ⟨s, hs, hf⟩
      exact ⟨s, ((h3 s).1 hs).1, hf⟩
    · rintro ⟨s, hs, hf⟩
      exact ⟨s, (h3 s).2 ⟨hs, f, hf⟩, hf⟩
  · exact ((C30_simple_predicates e).1 x).trans eq_comm
  · exact ((C30_simple_predicates e).2.1 x).trans eq_comm

/-- The node type of the nodes of a class: the one documented for it, except that groups of queries are segments. -/
def typeOf : Clazz → Option NodeType
  | .QueryNode => none
  | .Expression => some .EXPRESSION
  | .ExpressionWildcard => some .EXPRESSION_WILDCARD
  | .ExpressionGroup => some .EXPRESSION_GROUP
  | .ExpressionNot => some .EXPRESSION_NOT
  | .ExpressionAnd => some .EXPRESSION_AND
  | .ExpressionOr => some .EXPRESSION_OR
  | .QueryDisjunction => some .QUERY_DISJUNCTION
  | .QuerySequence => some .QUERY_SEQUENCE
  | .QueryWithWithin => some .QUERY_WITH_WITHIN
  | .QuerySegment => some .QUERY_SEGMENT
  | .QueryGroup => some .QUERY_SEGMENT
  | .SimpleWithin => some .SIMPLE_WITHIN

/-- **C73.** `has_node_type(t)` for every node: every node has exactly one node type, that of its class. -/
theorem C73_node_type (n : Node) (t : NodeType) :
    ∃ b, n.hasNodeTypeArg (some t) = .ok b ∧ (b = true ↔ typeOf n.kind.clazz = some t) := by
  refine ⟨_, rfl, ?_⟩
  obtain ⟨k, cs, l⟩ := n
  cases k <;> cases t <;> simp [Node.hasNodeType, Node.nodeType, Node.kind, Kind.nodeType, Kind.clazz, typeOf]

example : andTree.getChild 3 none = .error .mk ∧ andTree.getWithin = .ok (some (.mk .group [.mk .wildcard [] none] none)) ∧
    (mkWithWithin andTree none).getWithin = .error .mk ∧ (mkAnd []).getQuery = .error .mk ∧
    mkExpression (some py!"x") py!"y" .EQUALS py!"z" (some .empty) = .mk (.expression (some py!"x") py!"y" .EQUALS py!"z" none) [] none := by
  decide +kernel

/-! ### C74 -/

/-- The name `QueryVisitor.visit` looks up for the nodes of a class. -/
def lookedUp : Clazz → PyStr
  | .QueryNode => []
  | .Expression => py!"visit_Expression"
  | .ExpressionWildcard => py!"visit_Wildcard"
  | .ExpressionGroup => py!"visit_Group"
  | .ExpressionNot => py!"visit_Not"
  | .ExpressionAnd => py!"visit_And"
  | .ExpressionOr => py!"visit_Or"
  | .QueryDisjunction => py!"visit_QueryDisjunction"
  | .QuerySequence => py!"visit_QuerySequence"
  | .QueryWithWithin => py!"visit_QueryWithWithin"
  | .QuerySegment => py!"visit_QuerySegment"
  | .QueryGroup => py!"visit_QuerySegment"
  | .SimpleWithin => py!"visit_SimpleWithin"

theorem methodName_eq (n : Node) : methodName n = lookedUp n.kind.clazz := by
  obtain ⟨k, cs, l⟩ := n
  cases k <;> rfl

/-- **C74.** `visit(node)` for every visitor and every node: the method under the name for the node's class is called, if the
visitor has it, and otherwise `visitChildren`. -/
theorem C74_dispatch {R σ ε : Type} (v : Visitor R σ ε) (n : Node) : visitNode v n =
    match v.method (lookedUp n.kind.clazz) with
    | some m => m n (acceptAll v n.children)
    | none => visitChildrenLoop v.toVisitorBase n (acceptAll v n.children) := by
  rw [← methodName_eq]
  obtain ⟨k, cs, l⟩ := n
  rw [visitNode, dispatch]
  rfl

/-- **C74.** For a visitor with the methods of `QueryVisitorAdapter` only, that is the method `handlerFor` gives (none for the
expression classes other than `Expression`). -/
theorem C74_adapter_handlers (c : Clazz) (name : PyStr) (hc : c ≠ .QueryNode) :
    handlerFor c = some name ↔ lookedUp c = name ∧ name ∈ adapterMethods := by
  constructor
  · intro h
    revert hc h
    cases c <;> simp [handlerFor, lookedUp] <;> rintro rfl <;> decide
  · rintro ⟨rfl, h⟩
    revert hc h
    cases c <;> decide

/-- **C74.** A visitor of which the methods under some names do work and then visit the children does the work at exactly the
nodes for whose class one of these names is looked up, in document order. -/
theorem C74_work {R σ ε : Type} (handled : PyStr → Bool) (work : Node → σ → Except ε Unit × σ) (n : Node) (s : σ) :
    visitNode (workVisitor (R := R) handled work) n s =
      asNone (runWork work (n.subnodes.filter fun m => handled (lookedUp m.kind.clazz)) s) := by
  rw [C32_preorder]
  simp only [methodName_eq]

-- handlers under the names that are looked up are called; the documented one for `ExpressionAnd` is not
example : (visitNode (workVisitor (R := Unit) (ε := Unit) (fun name => name = py!"visit_And" || name = py!"visit_ExpressionAnd" ||
      name = py!"visit_QuerySegment") fun m s => (.ok (), s ++ [m.kind.clazz])) (.mk (.qgroup 1 1) [.mk .sequence [.mk (.segment 1 1)
        [.mk .and [.mk .wildcard [] none] none] none] none] none) []).2 =
    [.QueryGroup, .QuerySegment, .ExpressionAnd] := by decide +kernel

/-! ### C75 -/

/-- The distance of position `k` from the beginning of its line: how many characters before it are not newlines. -/
def columnAt (q : PyStr) (k : Nat) : Nat := ((q.take k).reverse.takeWhile fun c => c ≠ 10).length

theorem advanceColumn_snoc (col : Nat) (w : PyStr) (c : Nat) :
    advanceColumn col (w ++ [c]) = if c = 10 then 0 else advanceColumn col w + 1 := by
  simp [advanceColumn, List.foldl_append]

theorem advanceColumn_eq (w : PyStr) : advanceColumn 0 w = (w.reverse.takeWhile fun c => c ≠ 10).length := by
  have : ∀ r : PyStr, advanceColumn 0 r.reverse = (r.takeWhile fun c => c ≠ 10).length := by
    intro r
    induction r with
    | nil => rfl
    | cons c r ih =>
      rw [List.reverse_cons, advanceColumn_snoc, ih]
      by_cases hc : c = 10 <;> simp [hc]
  simpa using this w.reverse

theorem piece_column {q : PyStr} {p : Piece} (hp : p ∈ lexPieces q) : p.column = columnAt q p.start := by
  obtain ⟨a, b, e⟩ := List.append_of_mem hp
  obtain ⟨h1, h2⟩ := (lexPieces_splits q).start a p b e
  have ht : q = piecesText a ++ (p.text ++ piecesText b) := by
    have := (lexPieces_splits q).text
    rw [e] at this
    rw [← this]; simp [piecesText]
  rw [h2, advanceColumn_eq, columnAt, h1, Nat.zero_add]
  conv => rhs; rw [ht]
  rw [List.take_left]

theorem columnAt_eq_iff (q : PyStr) (k : Nat) (hk : k ≤ q.length) : columnAt q k = k ↔ 10 ∉ q.take k := by
  have hl : (q.take k).reverse.length = k := by simp; omega
  have gen : ∀ r : PyStr, (r.takeWhile fun c => c ≠ 10).length = r.length ↔ 10 ∉ r := by
    intro r
    induction r with
    | nil => simp
    | cons c r ih =>
      by_cases hc : c = 10
      · simp [hc]
      · simp [hc, Ne.symm hc] at ih ⊢
        exact ih
  unfold columnAt
  conv => lhs; rhs; rw [← hl]
  rw [gen, List.mem_reverse]

/-- **C75.** For a query whose tokens are grammatical, the recorded errors are exactly the texts the lexer does not
recognise, in order, each with its column as position and without fragment. -/
theorem C75_lexical_errors (rt : Runtime) (cfg : Config) (q : PyStr) (h : Grammatical (tokenStream q)) :
    (parseQuery rt cfg q).2 = (lexErrors q).map fun p =>
      { message := py!"token recognition error at: '" ++ visible p.text ++ py!"'", type := some py!"syntax-error",
        position := .offset (columnAt q p.start), fragment := none } := by
  have key : (parseQuery rt cfg q).2 = (lexErrors q).map fun p => listenerDetail q (.lexer p) := by
    by_cases hl : lexErrors q = []
    · obtain ⟨cst, hs⟩ := (grammatical_iff_syntax q).1 h
      rw [parseQuery_syntax rt cfg q hs hl, hl]; rfl
    · obtain ⟨e, es, he, hr⟩ := parseQuery_error rt cfg q fun h => hl h.1
      rw [hr, ← List.map_cons, ← he]
      obtain ⟨t, ht⟩ := (grammatical_iff _).1 h
      unfold rawErrors
      rw [ht]
      simp
  rw [key]
  refine List.map_congr_left fun p hp => ?_
  simp only [listenerDetail, lexerMessage, errorDisplay_eq, piece_column (List.mem_filter.1 hp).1]

/-- **C75.** These messages are one line of text each: no newline, carriage return or tab. -/
theorem C75_one_line (rt : Runtime) (cfg : Config) (q : PyStr) (h : Grammatical (tokenStream q)) (d : ErrorDetail)
    (hd : d ∈ (parseQuery rt cfg q).2) : ∀ c ∈ d.message, c ≠ 10 ∧ c ≠ 13 ∧ c ≠ 9 := by
  rw [C75_lexical_errors rt cfg q h] at hd
  obtain ⟨p, -, rfl⟩ := List.mem_map.1 hd
  have hv : ∀ s : PyStr, ∀ c ∈ visible s, c ≠ 10 ∧ c ≠ 13 ∧ c ≠ 9 := by
    intro s
    induction s with
    | nil => intro c hc; cases hc
    | cons x s ih =>
      intro c hc
      simp only [visible, List.mem_append] at hc
      rcases hc with hc | hc
      · split at hc <;> simp at hc <;> refine ⟨?_, ?_, ?_⟩ <;> intro h <;> simp_all
      · exact ih c hc
  intro c hc
  simp only [List.mem_append] at hc
  rcases hc with (hc | hc) | hc
  · revert c; decide
  · exact hv _ c hc
  · revert c; decide

-- an error span with a newline in it
example : (parseQuery rt0 defaultConfig py!"'a' \"b\n").2.map (fun d => d.message) =
    [py!"token recognition error at: '\"b\\n'"] := by decide +kernel

/-- **C75.** The position of such an error is its offset in the query exactly if there is no newline before it. -/
theorem C75_position (q : PyStr) (p : Piece) (hp : p ∈ lexErrors q) :
    p.text = (q.drop p.start).take p.text.length ∧ (columnAt q p.start = p.start ↔ 10 ∉ q.take p.start) := by
  obtain ⟨-, h1, h2⟩ := piece_bounds (List.mem_filter.1 hp).1
  exact ⟨h2, columnAt_eq_iff q _ (by omega)⟩

example : Grammatical (tokenStream py!"'a'\n# $") ∧ (parseQuery rt0 defaultConfig py!"'a'\n# $").2.map (fun d => d.position) =
    [.offset 0, .offset 2] := by
  refine ⟨?_, by decide +kernel⟩
  rw [grammatical_iff]
  exact Option.isSome_iff_exists.1 (by decide +kernel)

end Fcsql
