/-
C28, C29, C30: accessors of query nodes and of expressions.
-/
import Verif.Props.Examples

set_option autoImplicit false
set_option linter.unusedSimpArgs false

namespace Fcsql

/-! ### C28 -/

/-- A node is of its own class and of the base class `QueryNode`, and of no other node class. -/
def IsA (n : Node) (c : Clazz) : Prop := c = .QueryNode ∨ c = n.kind.clazz

instance (n : Node) (c : Clazz) : Decidable (IsA n c) := by unfold IsA; infer_instance

theorem isInstance_eq (n : Node) (c : Clazz) : n.isInstance c = decide (IsA n c) := by
  rw [Bool.eq_iff_iff]
  simp only [Node.isInstance, Bool.or_eq_true, decide_eq_true_eq]
  exact ⟨fun h => h.imp id Eq.symm, fun h => h.imp id Eq.symm⟩

/-- What the documentation of `get_child` promises: the `i`-th child (of the class, if one is given), `None` if
there is none. -/
def specChild (n : Node) (i : Int) (c : Option Clazz) : Option Node :=
  if i < 0 then none
  else match c with
    | none => n.children[i.toNat]?
    | some c => (n.children.filter fun x => IsA x c)[i.toNat]?

theorem nthOfClass_spec (c : Clazz) : ∀ (l : List Node) (pos idx : Int), 0 ≤ pos → pos ≤ idx →
    Node.nthOfClass c idx pos l = (l.filter fun x => IsA x c)[(idx - pos).toNat]?
  | [], pos, idx, _, _ => by simp [Node.nthOfClass]
  | x :: l, pos, idx, h0, h => by
    simp only [Node.nthOfClass]
    rw [isInstance_eq]
    by_cases hx : IsA x c
    · simp only [hx, decide_true, if_true, List.filter_cons_of_pos]
      by_cases he : pos = idx
      · subst he; simp
      · rw [if_neg he, nthOfClass_spec c l (pos + 1) idx (by omega) (by omega)]
        have : (idx - pos).toNat = (idx - (pos + 1)).toNat + 1 := by omega
        rw [this, List.getElem?_cons_succ]
    · simp only [hx, decide_false, Bool.false_eq_true, if_false, List.filter_cons_of_neg, not_false_eq_true]
      exact nthOfClass_spec c l pos idx h0 h

/-- **C28, partial.** Except for `get_child(child_count)` without a class on a node with children (see
`C28_refuted`), `get_child` returns what is documented and does not raise. -/
theorem C28_get_child_partial (n : Node) (i : Int) (c : Option Clazz)
    (h : ¬ (c = none ∧ n.children ≠ [] ∧ i = n.childCount)) : n.getChild i c = .ok (specChild n i c) := by
  obtain ⟨k, cs, l⟩ := n
  simp only [Node.children, Node.childCount] at h
  simp only [Node.getChild, specChild, Node.children, Node.childCount]
  by_cases h1 : i < 0
  · simp [h1]
  · simp only [h1, if_false, decide_false, Bool.or_false]
    cases cs with
    | nil => cases c <;> simp
    | cons x xs =>
      simp only [List.isEmpty_cons, Bool.false_or, decide_eq_true_eq]
      by_cases h2 : i > ((x :: xs).length : Int)
      · rw [if_pos (by simpa using h2)]
        cases c with
        | none => simp only; rw [List.getElem?_eq_none (by omega)]
        | some c =>
          simp only
          have := List.length_filter_le (fun x : Node => decide (IsA x c)) (x :: xs)
          rw [List.getElem?_eq_none (by omega)]
      · rw [if_neg (by simpa using h2)]
        cases c with
        | none =>
          have h3 : i ≠ ((x :: xs).length : Int) := fun e => h ⟨rfl, by simp, e⟩
          have : i.toNat < (x :: xs).length := by omega
          simp only [List.getElem?_eq_getElem this]
        | some c =>
          simp only
          rw [nthOfClass_spec c (x :: xs) 0 i (by omega) (by omega)]
          simp

/-- **C28 is false as documented.** On every node with children, `get_child(child_count)` raises `IndexError`
instead of returning `None`. -/
theorem C28_refuted (n : Node) (h : n.children ≠ []) : n.getChild n.childCount = .error .mk := by
  obtain ⟨k, cs, l⟩ := n
  simp only [Node.children] at h
  cases cs with
  | nil => exact absurd rfl h
  | cons x xs =>
    have e : (Node.mk k (x :: xs) l).childCount = ((xs.length + 1 : Nat) : Int) := by simp [Node.childCount, Node.children]
    simp only [Node.getChild, e]
    rw [if_neg (by simp [Node.children]; omega)]
    simp [Node.children]

/-- **C28.** With a class, `get_child` is as documented for every index. -/
theorem C28_get_child_of_class (n : Node) (i : Int) (c : Clazz) :
    n.getChild i (some c) = .ok (specChild n i (some c)) := C28_get_child_partial n i _ (by simp)

/-- **C28.** Asking for children of the base class is asking for children, but never raises. -/
theorem C28_base_class (n : Node) (i : Int) : n.getChild i (some .QueryNode) = .ok (specChild n i none) := by
  rw [C28_get_child_of_class]
  have : (fun x : Node => decide (IsA x .QueryNode)) = fun _ => true := by funext x; simp [IsA]
  have e : ∀ l : List Node, l.filter (fun _ => true) = l := fun l => by simp
  simp only [specChild, this, e]

/-- A small tree: an `And` of an expression, a group and a wildcard. -/
def andTree : Node := .mk .and [.mk (.expression none py!"a" .EQUALS py!"b" none) [] none,
  .mk .group [.mk .wildcard [] none] none, .mk .wildcard [] none] none

example : andTree.getChild 1 = .ok (some (.mk .group [.mk .wildcard [] none] none)) ∧
    andTree.getChild (-1) = .ok none ∧ andTree.getChild 4 = .ok none ∧ andTree.getChild 3 = .error .mk ∧
    andTree.getChild 0 (some .ExpressionWildcard) = .ok (some (.mk .wildcard [] none)) ∧
    andTree.getChild 1 (some .ExpressionWildcard) = .ok none ∧ andTree.getChild 3 (some .QueryNode) = .ok none ∧
    andTree.getChild 2 (some .QueryNode) = .ok (some (.mk .wildcard [] none)) := by decide +kernel

/-! ### C29 -/

/-- **C29.** `get_first_child` returns the first child (of the class), `None` if there is none. -/
theorem C29_get_first_child (n : Node) (c : Option Clazz) :
    n.getFirstChild c = .ok (match c with
      | none => n.children.head?
      | some c => n.children.find? fun x => IsA x c) := by
  rw [Node.getFirstChild]
  by_cases h : n.children = []
  · obtain ⟨k, cs, l⟩ := n
    simp only [Node.children] at h
    subst h
    cases c <;> rfl
  · rw [C28_get_child_partial n 0 c]
    · cases c with
      | none => simp [specChild, List.head?_eq_getElem?]
      | some c => simp [specChild, ← List.head?_eq_getElem?]
    · rintro ⟨_, h1, h2⟩
      rw [Node.childCount] at h2
      exact h1 (List.length_eq_zero_iff.1 (by omega))

/-- **C29.** Without a class, `get_last_child` returns the last child, `None` if there is none. -/
theorem C29_get_last_child (n : Node) : n.getLastChild = .ok n.children.getLast? := by
  obtain ⟨k, cs, l⟩ := n
  rw [Node.getLastChild]
  rcases cs with _ | ⟨x, xs⟩
  · rfl
  · rw [C28_get_child_partial _ _ _ (by rintro ⟨-, -, h⟩; omega)]
    have e : (Node.mk k (x :: xs) l).childCount = ((xs.length + 1 : Nat) : Int) := by simp [Node.childCount, Node.children]
    simp only [specChild, e, Node.children]
    rw [if_neg (by omega), List.getLast?_eq_getElem?]
    congr 2
    simp

/-- **C29, partial.** With a class, `get_last_child` returns the last child if all children are of that class,
and `None` otherwise -- even if there are children of that class (see `C29_refuted`). -/
theorem C29_get_last_child_of_class_partial (n : Node) (c : Clazz) :
    n.getLastChild (some c) =
      .ok (if n.children.all (fun x => IsA x c) then n.children.getLast? else none) := by
  rw [Node.getLastChild, C28_get_child_of_class]
  have e : n.childCount = (n.children.length : Int) := rfl
  simp only [specChild, e]
  generalize n.children = cs
  by_cases hc : cs = []
  · subst hc; simp
  · have hl : 0 < cs.length := List.length_pos_iff.2 hc
    rw [if_neg (by omega)]
    by_cases ha : cs.all (fun x => IsA x c) = true
    · rw [if_pos ha, List.filter_eq_self.2 (by simpa using ha), List.getLast?_eq_getElem?]
      congr 2; omega
    · rw [if_neg ha]
      have : (cs.filter fun x => IsA x c).length < cs.length := by
        refine Nat.lt_of_le_of_ne (List.length_filter_le _ _) fun e => ha ?_
        simpa [List.length_filter_eq_length_iff] using e
      rw [List.getElem?_eq_none (by omega)]

/-- **C29 is false as documented.** There is a node with a last child of a class, for which
`get_last_child(clazz)` returns `None`. -/
theorem C29_refuted : ∃ (n : Node) (c : Clazz) (x : Node), x ∈ n.children ∧ IsA x c ∧
    n.getLastChild (some c) = .ok none :=
  ⟨andTree, .Expression, .mk (.expression none py!"a" .EQUALS py!"b" none) [] none, by simp [andTree, Node.children],
    by decide, by decide +kernel⟩

example : andTree.getLastChild = .ok (some (.mk .wildcard [] none)) ∧
    andTree.getFirstChild (some .ExpressionGroup) = .ok (some (.mk .group [.mk .wildcard [] none] none)) := by
  decide +kernel

/-! ### C30 -/

/-- **C30.** The three simple predicates mean what they say. -/
theorem C30_simple_predicates (e : ExprAttrs) :
    (∀ i, e.hasLayerIdentifier i = true ↔ e.identifier = i) ∧
    (∀ o, e.hasOperator o = true ↔ e.operator = o) ∧
    (∀ f, e.hasRegexFlag f = true ↔ ∃ s, e.flags = some s ∧ s.has f = true) := by
  refine ⟨fun i => by simp [ExprAttrs.hasLayerIdentifier], fun o => by simp [ExprAttrs.hasOperator], fun f => ?_⟩
  simp only [ExprAttrs.hasRegexFlag]
  cases e.flags with
  | none => simp
  | some s =>
    obtain ⟨a, b, c, d⟩ := s
    cases f <;> cases a <;> cases b <;> cases c <;> cases d <;> simp [FlagSet.isEmpty, FlagSet.has]

/-- **C30 is false for `is_layer_qualifier_empty`.** It is true exactly if there IS a (non-empty) qualifier. -/
theorem C30_qualifier_empty_refuted (e : ExprAttrs) :
    e.isLayerQualifierEmpty = true ↔ ∃ q, e.qualifier = some q ∧ q ≠ [] := by
  simp only [ExprAttrs.isLayerQualifierEmpty]
  cases e.qualifier with
  | none => simp
  | some q => cases q <;> simp

/-- **C30 is false for `is_regex_flags_empty`.** It is true exactly if there ARE flags. -/
theorem C30_flags_empty_refuted (e : ExprAttrs) :
    e.isRegexFlagsEmpty = true ↔ ∃ s f, e.flags = some s ∧ FlagSet.has s f = true := by
  simp only [ExprAttrs.isRegexFlagsEmpty]
  cases e.flags with
  | none => simp
  | some s =>
    obtain ⟨a, b, c, d⟩ := s
    simp only [FlagSet.isEmpty, Bool.not_not, Bool.or_eq_true]
    constructor
    · rintro (((rfl | rfl) | rfl) | rfl)
      · exact ⟨_, .CASE_INSENSITIVE, rfl, rfl⟩
      · exact ⟨_, .CASE_SENSITIVE, rfl, rfl⟩
      · exact ⟨_, .LITERAL_MATCHING, rfl, rfl⟩
      · exact ⟨_, .IGNORE_DIACRITICS, rfl, rfl⟩
    · rintro ⟨s, f, h', h⟩
      cases h'
      cases f <;> simp_all [FlagSet.has]

/-- **C30 is false for `has_layer_qualifier`.** It is never true for a (non-empty) qualifier. -/
theorem C30_has_qualifier_refuted (e : ExprAttrs) (q : PyStr) (hq : q ≠ []) : e.hasLayerQualifier q = false := by
  simp only [ExprAttrs.hasLayerQualifier]
  split
  · rfl
  · rename_i h
    rw [C30_qualifier_empty_refuted] at h
    simp only [decide_eq_false_iff_not]
    intro e'
    exact h ⟨q, e', hq⟩

/-- `x:y='z'`: has qualifier `x`. -/
example : (ExprAttrs.mk (some py!"x") py!"y" .EQUALS py!"z" none).hasLayerQualifier py!"x" = false ∧
    (ExprAttrs.mk (some py!"x") py!"y" .EQUALS py!"z" none).isLayerQualifierEmpty = true ∧
    (ExprAttrs.mk (some py!"x") py!"y" .EQUALS py!"z" none).hasLayerIdentifier py!"y" = true := by decide +kernel

end Fcsql
