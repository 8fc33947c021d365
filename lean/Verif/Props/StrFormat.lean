/-
C33: the format of `str`.
-/
import Verif.Spec.NodeText
import Verif.Props.Str

set_option autoImplicit false
set_option linter.unusedSimpArgs false

namespace Fcsql

attribute [local irreducible] parseQuery

theorem joinStr_intersperse : ∀ l : List PyStr, joinStr py!" " l = (l.intersperse py!" ").flatten
  | [] => rfl
  | [x] => by simp [joinStr]
  | x :: y :: r => by
    rw [joinStr, joinStr_intersperse (y :: r)]
    simp

theorem strs_map : ∀ cs : List Node, Node.strs cs = cs.map Node.str
  | [] => rfl
  | c :: cs => by rw [Node.strs, strs_map cs]; rfl

theorem locSuffix_word (l : Option Loc) : locSuffix l = locationWord l := by
  cases l with
  | none => rfl
  | some l => obtain ⟨a, b⟩ := l; rfl

theorem occursStr_word (lbl : PyStr) (n : Int) :
    occursStr lbl n = ((boundWord lbl n).map (· ++ py!" ")).flatten := by
  unfold occursStr boundWord OCCURS_UNBOUNDED
  by_cases h1 : n = 1
  · simp [h1]
  · by_cases h2 : n = -1 <;> simp [h1, h2]

theorem flagsStr_word (fl : Option FlagSet) : flagsStr fl = flagWord fl := by
  cases fl with
  | none => rfl
  | some f => obtain ⟨a, b, c, d⟩ := f; cases a <;> cases b <;> cases c <;> cases d <;> rfl

/-- **C33.** The string of every node of the class's shape is its words, the first the name of its class, then its attributes,
then its children, in order, separated by one space and in parentheses, then its location. -/
theorem C33_format (k : Kind) (cs : List Node) (l : Option Loc) (h : ShapeAt k (cs.map Node.kind)) :
    (Node.mk k cs l).str = shownNode k (cs.map Node.str) l := by
  have hne : ∀ c : Node, c.str ≠ [] := by
    intro c
    obtain ⟨k, cs, l⟩ := c
    cases k <;> simp [Node.str]
  have one : ∀ {c : Kind}, cs.map Node.kind = [c] → ∃ n, cs = [n] := by
    intro c hc
    match cs, hc with
    | [n], _ => exact ⟨n, rfl⟩
  unfold shownNode
  rw [← locSuffix_word]
  cases k with
  | expression ql i o v fl =>
    have hc : cs = [] := by simpa [ShapeAt] using h
    subst hc
    have e : translateWs v = (v.map valueChar).flatten := by rw [translateWs, List.flatMap_def]; rfl
    simp only [Node.str, flagsStr_word, e, classWord, attrWords, Kind.nodeType, NodeType.value]
    congr 1
    cases o <;> rcases ql with _ | (_ | ⟨c, ql⟩) <;> simp [Operator.value]
  | wildcard =>
    have hc : cs = [] := by simpa [ShapeAt] using h
    subst hc
    simp [Node.str, Node.strs, joinStr, classWord, attrWords, Kind.nodeType, NodeType.value]
  | within s =>
    have hc : cs = [] := by simpa [ShapeAt] using h
    subst hc
    cases s <;> simp [Node.str, Node.strs, classWord, attrWords, Kind.nodeType, NodeType.value, Scope.value]
  | group =>
    obtain ⟨c, hc, -⟩ := h
    obtain ⟨n, rfl⟩ := one hc
    simp [Node.str, Node.strs, classWord, attrWords, Kind.nodeType, NodeType.value]
  | not =>
    obtain ⟨c, hc, -⟩ := h
    obtain ⟨n, rfl⟩ := one hc
    simp [Node.str, Node.strs, classWord, attrWords, Kind.nodeType, NodeType.value]
  | segment mn mx =>
    obtain ⟨c, hc, -⟩ := h
    obtain ⟨n, rfl⟩ := one hc
    simp only [Node.str, Node.strs, classWord, attrWords, Kind.nodeType, NodeType.value, occursStr_word]
    unfold boundWord
    (repeat' split) <;> simp
  | qgroup mn mx =>
    obtain ⟨c, hc, -⟩ := h
    obtain ⟨n, rfl⟩ := one hc
    simp only [Node.str, Node.strs, classWord, attrWords, Kind.nodeType, NodeType.value, occursStr_word]
    unfold boundWord
    (repeat' split) <;> simp
  | _ =>
    all_goals
    have hj : ∀ w : PyStr, (if (joinStr py!" " (cs.map Node.str)).isEmpty then [] else py!" " ++ joinStr py!" " (cs.map Node.str)) =
        ((w :: cs.map Node.str).intersperse py!" ").flatten.drop w.length := by
      intro w
      cases cs with
      | nil => simp [joinStr]
      | cons c cs =>
        have : joinStr py!" " ((c :: cs).map Node.str) ≠ [] := by
          rw [joinStr_intersperse]
          cases cs <;> simp [hne c]
        rw [if_neg (by simpa using this), joinStr_intersperse]
        simp
    have hd : ∀ w : PyStr, ((w :: cs.map Node.str).intersperse py!" ").flatten =
        w ++ ((w :: cs.map Node.str).intersperse py!" ").flatten.drop w.length := by
      intro w
      cases cs <;> simp
    simp only [Node.str, strs_map, classWord, attrWords, Kind.nodeType, NodeType.value, List.nil_append, List.cons_append]
    rw [hd]
    first
    | rw [← hj]; simp only [List.cons_append, List.nil_append, List.append_assoc]
    | simp only [hj, List.append_assoc]

/-- **C33.** The string of a `QueryNodeType` names the class, without `Expression` at the beginning if something follows. -/
theorem nodeType_value :
    [NodeType.QUERY_SEGMENT, .QUERY_GROUP, .QUERY_SEQUENCE, .QUERY_DISJUNCTION, .QUERY_WITH_WITHIN, .SIMPLE_WITHIN].map NodeType.value =
      [py!"QuerySegment", py!"QueryGroup", py!"QuerySequence", py!"QueryDisjunction", py!"QueryWithWithin", py!"SimpleWithin"] ∧
    [NodeType.EXPRESSION, .EXPRESSION_WILDCARD, .EXPRESSION_GROUP, .EXPRESSION_OR, .EXPRESSION_AND, .EXPRESSION_NOT].map NodeType.value =
      [py!"Expression", py!"Wildcard", py!"Group", py!"Or", py!"And", py!"Not"] := ⟨rfl, rfl⟩

/-- **C33.** So it is for every node of a tree a parser returns. -/
theorem C33_format_parsed (rt : Runtime) (cfg : Config) (q : PyStr) (n : Node) (h : (parseQuery rt cfg q).1 = .ok n) (m : Node)
    (hm : m ∈ n.subnodes) : m.str = shownNode m.kind (m.children.map Node.str) m.loc := by
  have := (C14_shape rt cfg q n h).inner m hm
  obtain ⟨k, cs, l⟩ := m
  exact C33_format k cs l this

-- a tree, and how it is shown
example : ∃ n, (parseQuery rt0 defaultConfig py!"('a' [b!='c'/l]){2,}").1 = .ok n ∧
    n.str = shownNode n.kind (n.children.map Node.str) n.loc ∧
    n.str = py!"(QuerySegment @min=2 @max=* (QuerySequence (QuerySegment (Expression text Eq \"a\")) (QuerySegment (Expression b Ne \"c\"/l))))" := by
  have h : ∃ n, (parseQuery rt0 defaultConfig py!"('a' [b!='c'/l]){2,}").1 = .ok n ∧
      n.str = py!"(QuerySegment @min=2 @max=* (QuerySequence (QuerySegment (Expression text Eq \"a\")) (QuerySegment (Expression b Ne \"c\"/l))))" :=
    ⟨.mk (.qgroup 2 (-1)) [.mk .sequence [.mk (.segment 1 1) [.mk (.expression none py!"text" .EQUALS py!"a" none) [] none] none,
      .mk (.segment 1 1) [.mk (.expression none py!"b" .NOT_EQUALS py!"c" (some ⟨false, false, true, false⟩)) [] none] none] none] none,
      by decide +kernel⟩
  obtain ⟨n, h1, h2⟩ := h
  exact ⟨n, h1, C33_format_parsed _ _ _ n h1 n (by obtain ⟨k, cs, l⟩ := n; simp [Node.subnodes]), h2⟩

end Fcsql
