/-
Properties of all nodes of the tree a syntax tree denotes, by induction on the syntax.
-/
import Verif.Proofs.Accept
import Verif.Spec.Tree

set_option autoImplicit false
set_option linter.unusedSimpArgs false

namespace Fcsql

theorem Node.subnodes_mk (k : Kind) (cs : List Node) (l : Option Loc) :
    (Node.mk k cs l).subnodes = .mk k cs l :: Node.subnodesL cs := by rw [Node.subnodes]

theorem mem_subnodesL {m : Node} : ∀ {cs : List Node}, m ∈ Node.subnodesL cs ↔ ∃ c ∈ cs, m ∈ c.subnodes
  | [] => by simp [Node.subnodesL]
  | c :: cs => by simp [Node.subnodesL, mem_subnodesL (cs := cs)]

theorem Node.self_mem_subnodes (n : Node) : n ∈ n.subnodes := by
  cases n; rw [Node.subnodes_mk]; exact List.mem_cons_self

section
variable (rt : PyRuntime) (cfg : Config)

/-! ### Shape -/

theorem CExpr.Denotes.kind {e : CExpr} {n : Node} (h : e.Denotes rt cfg n) :
    n.kind.isExpr ∧ (n.kind = .and ↔ e.rule = .expression_and) ∧ (n.kind = .or ↔ e.rule = .expression_or) := by
  cases e with
  | basic a op r => obtain ⟨_, _, _, _, _, rfl⟩ := h; simp [Node.kind, Kind.isExpr, CExpr.rule]
  | group lp e rp => obtain ⟨_, _, rfl⟩ := h; simp [Node.kind, Kind.isExpr, CExpr.rule]
  | or f rest => obtain ⟨_, _, _, _, rfl⟩ := h; simp [Node.kind, Kind.isExpr, CExpr.rule]
  | and f rest => obtain ⟨_, _, _, _, rfl⟩ := h; simp [Node.kind, Kind.isExpr, CExpr.rule]
  | not b e => obtain ⟨_, _, rfl⟩ := h; simp [Node.kind, Kind.isExpr, CExpr.rule]

theorem CTail.Denotes.kinds {op : TokType} {no : Rule} : ∀ {t : CTail} {ns : List Node}, t.WF op no → t.Denotes rt cfg ns →
    (t ≠ .nil → ns ≠ []) ∧ ∀ n ∈ ns, n.kind.isExpr ∧ (no = .expression_and → n.kind ≠ .and) ∧
      (no = .expression_or → n.kind ≠ .or)
  | .nil, ns, _, h => by simp only [CTail.Denotes] at h; subst h; simp
  | .cons o e rest, ns, hwf, h => by
    simp only [CTail.Denotes] at h
    obtain ⟨m, ms, h1, h2, rfl⟩ := h
    simp only [CTail.WF] at hwf
    have hk := CExpr.Denotes.kind rt cfg h1
    have ih := CTail.Denotes.kinds hwf.2.2.2 h2
    refine ⟨by simp, ?_⟩
    intro n hn
    rcases List.mem_cons.1 hn with rfl | hn
    · refine ⟨hk.1, ?_, ?_⟩
      · rintro rfl; rw [Ne, hk.2.1]; exact hwf.2.2.1
      · rintro rfl; rw [Ne, hk.2.2]; exact hwf.2.2.1
    · exact ih.2 n hn

/-- `P` holds for all nodes of a tree. -/
def AllNodes (P : Node → Prop) (n : Node) : Prop := ∀ m ∈ n.subnodes, P m

theorem allNodes_mk {P : Node → Prop} {k : Kind} {cs : List Node} {l : Option Loc} :
    AllNodes P (.mk k cs l) ↔ P (.mk k cs l) ∧ ∀ c ∈ cs, AllNodes P c := by
  unfold AllNodes
  rw [Node.subnodes_mk]
  simp only [List.mem_cons, forall_eq_or_imp, mem_subnodesL]
  constructor
  · rintro ⟨h1, h2⟩; exact ⟨h1, fun c hc m hm => h2 m ⟨c, hc, hm⟩⟩
  · rintro ⟨h1, h2⟩; exact ⟨h1, fun m ⟨c, hc, hm⟩ => h2 c hc m hm⟩

/-- The shape condition at one node. -/
def ShapeHere (n : Node) : Prop := ShapeAt n.kind (n.children.map Node.kind)

mutual
theorem shape_expr : ∀ (e : CExpr), e.WF → ∀ n, e.Denotes rt cfg n → AllNodes ShapeHere n
  | .basic a op r, hwf, n, h => by
    simp only [CExpr.Denotes] at h
    obtain ⟨_, _, _, _, _, rfl⟩ := h
    simp [allNodes_mk, ShapeHere, Node.kind, Node.children, ShapeAt]
  | .group lp e rp, hwf, n, h => by
    simp only [CExpr.Denotes] at h
    obtain ⟨m, h1, rfl⟩ := h
    simp only [CExpr.WF] at hwf
    have ih := shape_expr e hwf.2.1 m h1
    have hk := CExpr.Denotes.kind rt cfg h1
    simpa [allNodes_mk, ShapeHere, Node.kind, Node.children, ShapeAt, ih] using hk.1
  | .not b e, hwf, n, h => by
    simp only [CExpr.Denotes] at h
    obtain ⟨m, h1, rfl⟩ := h
    simp only [CExpr.WF] at hwf
    have ih := shape_expr e hwf.2 m h1
    have hk := CExpr.Denotes.kind rt cfg h1
    simpa [allNodes_mk, ShapeHere, Node.kind, Node.children, ShapeAt, ih] using hk.1
  | .or f rest, hwf, n, h => by
    simp only [CExpr.Denotes] at h
    obtain ⟨m, ms, h1, h2, rfl⟩ := h
    simp only [CExpr.WF] at hwf
    have ih := shape_expr f hwf.1 m h1
    have ih' := shape_tail rest .OR _ hwf.2.2.2 ms h2
    have hk := CExpr.Denotes.kind rt cfg h1
    have hks := CTail.Denotes.kinds rt cfg hwf.2.2.2 h2
    rw [allNodes_mk]
    refine ⟨⟨?_, ?_⟩, ?_⟩
    · have := hks.1 hwf.2.2.1
      cases ms with
      | nil => exact absurd rfl this
      | cons a as => simp [Node.children]
    · intro c hc
      simp only [Node.children, List.map_cons, List.mem_cons, List.mem_map] at hc
      rcases hc with rfl | ⟨x, hx, rfl⟩
      · exact ⟨hk.1, by rw [Ne, hk.2.2]; exact hwf.2.1⟩
      · exact ⟨(hks.2 x hx).1, (hks.2 x hx).2.2 rfl⟩
    · intro c hc
      rcases List.mem_cons.1 hc with rfl | hc
      · exact ih
      · exact ih' c hc
  | .and f rest, hwf, n, h => by
    simp only [CExpr.Denotes] at h
    obtain ⟨m, ms, h1, h2, rfl⟩ := h
    simp only [CExpr.WF] at hwf
    have ih := shape_expr f hwf.1 m h1
    have ih' := shape_tail rest .AND _ hwf.2.2.2.2 ms h2
    have hk := CExpr.Denotes.kind rt cfg h1
    have hks := CTail.Denotes.kinds rt cfg hwf.2.2.2.2 h2
    rw [allNodes_mk]
    refine ⟨⟨?_, ?_, ?_⟩, ?_⟩
    · have := hks.1 hwf.2.2.2.1
      cases ms with
      | nil => exact absurd rfl this
      | cons a as => simp [Node.children]
    · intro c hc
      simp only [Node.children, List.map_cons, List.mem_cons, List.mem_map] at hc
      rcases hc with rfl | ⟨x, hx, rfl⟩
      · exact ⟨hk.1, by rw [Ne, hk.2.1]; exact hwf.2.2.1⟩
      · exact ⟨(hks.2 x hx).1, (hks.2 x hx).2.1 rfl⟩
    · simp only [Node.children, List.map_cons, List.head?_cons, ne_eq, Option.some.injEq]
      rw [hk.2.2]; exact hwf.2.1
    · intro c hc
      rcases List.mem_cons.1 hc with rfl | hc
      · exact ih
      · exact ih' c hc
theorem shape_tail : ∀ (t : CTail) (op : TokType) (no : Rule), t.WF op no → ∀ ns, t.Denotes rt cfg ns →
    ∀ n ∈ ns, AllNodes ShapeHere n
  | .nil, op, no, hwf, ns, h => by simp only [CTail.Denotes] at h; subst h; simp
  | .cons o e rest, op, no, hwf, ns, h => by
    simp only [CTail.Denotes] at h
    obtain ⟨m, ms, h1, h2, rfl⟩ := h
    simp only [CTail.WF] at hwf
    have ih := shape_expr e hwf.2.1 m h1
    have ih' := shape_tail rest op no hwf.2.2.2 ms h2
    intro n hn
    rcases List.mem_cons.1 hn with rfl | hn
    · exact ih
    · exact ih' n hn
end

theorem CQ.Denotes.kind {c : CQ} {n : Node} (h : c.Denotes rt cfg n) :
    n.kind.isQuery ∧ (n.kind = .sequence ↔ c.rule = .query_sequence) ∧
      (n.kind = .disjunction ↔ c.rule = .query_disjunction) ∧
      (n.kind.isItem ↔ c.rule = .query_simple ∨ c.rule = .query_group) := by
  cases c with
  | implicit r q =>
    obtain ⟨_, _, _, _, _, _, rfl⟩ := h; simp [Node.kind, Kind.isQuery, Kind.isItem, CQ.rule]
  | segment lb e rb q => obtain ⟨_, _, _, _, _, rfl⟩ := h; simp [Node.kind, Kind.isQuery, Kind.isItem, CQ.rule]
  | group lp c rp q => obtain ⟨_, _, _, _, _, rfl⟩ := h; simp [Node.kind, Kind.isQuery, Kind.isItem, CQ.rule]
  | seq f rest => obtain ⟨_, _, _, _, rfl⟩ := h; simp [Node.kind, Kind.isQuery, Kind.isItem, CQ.rule]
  | disj f rest => obtain ⟨_, _, _, _, rfl⟩ := h; simp [Node.kind, Kind.isQuery, Kind.isItem, CQ.rule]

theorem CQTail.Denotes.kinds : ∀ {t : CQTail} {ns : List Node}, t.Denotes rt cfg ns →
    (t ≠ .nil → ns ≠ []) ∧ (t.WFseq → ∀ n ∈ ns, n.kind.isItem) ∧
      (t.WFdisj → ∀ n ∈ ns, n.kind.isQuery ∧ n.kind ≠ .disjunction)
  | .nil, ns, h => by simp only [CQTail.Denotes] at h; subst h; simp
  | .cons o e rest, ns, h => by
    simp only [CQTail.Denotes] at h
    obtain ⟨m, ms, h1, h2, rfl⟩ := h
    have hk := CQ.Denotes.kind rt cfg h1
    have ih := CQTail.Denotes.kinds h2
    refine ⟨by simp, ?_, ?_⟩
    · intro hwf n hn
      simp only [CQTail.WFseq] at hwf
      rcases List.mem_cons.1 hn with rfl | hn
      · exact hk.2.2.2.2 hwf.2.2.1
      · exact ih.2.1 hwf.2.2.2 n hn
    · intro hwf n hn
      simp only [CQTail.WFdisj] at hwf
      rcases List.mem_cons.1 hn with rfl | hn
      · exact ⟨hk.1, by rw [Ne, hk.2.2.1]; exact hwf.2.2.1⟩
      · exact ih.2.2 hwf.2.2.2 n hn

mutual
theorem shape_q : ∀ (c : CQ), c.WF → ∀ n, c.Denotes rt cfg n → AllNodes ShapeHere n
  | .implicit r q, hwf, n, h => by
    simp only [CQ.Denotes] at h
    obtain ⟨_, _, _, _, _, _, rfl⟩ := h
    simp [allNodes_mk, ShapeHere, Node.kind, Node.children, ShapeAt, Kind.isExpr]
  | .segment lb e rb q, hwf, n, h => by
    simp only [CQ.Denotes] at h
    obtain ⟨m, _, _, h1, _, rfl⟩ := h
    simp only [CQ.WF] at hwf
    cases e with
    | none =>
      simp only [optDenotes] at h1
      subst h1
      simp [allNodes_mk, ShapeHere, Node.kind, Node.children, ShapeAt, Kind.isExpr]
    | some e =>
      have ih := shape_expr rt cfg e (hwf.2.1 e rfl) m h1
      have hk := CExpr.Denotes.kind rt cfg h1
      simpa [allNodes_mk, ShapeHere, Node.kind, Node.children, ShapeAt, ih] using .inl hk.1
  | .group lp c rp q, hwf, n, h => by
    simp only [CQ.Denotes] at h
    obtain ⟨m, _, _, h1, _, rfl⟩ := h
    simp only [CQ.WF] at hwf
    have ih := shape_q c hwf.2.1 m h1
    have hk := CQ.Denotes.kind rt cfg h1
    rw [allNodes_mk]
    refine ⟨⟨m.kind, rfl, ?_⟩, by simpa using ih⟩
    rw [hk.2.1, hk.2.2.1]
    exact hwf.2.2.1.symm
  | .seq f rest, hwf, n, h => by
    simp only [CQ.Denotes] at h
    obtain ⟨m, ms, h1, h2, rfl⟩ := h
    simp only [CQ.WF] at hwf
    have ih := shape_q f hwf.1 m h1
    have ih' := shape_qtail rest (.inl hwf.2.2) ms h2
    have hk := CQ.Denotes.kind rt cfg h1
    have hks := CQTail.Denotes.kinds rt cfg h2
    rw [allNodes_mk]
    refine ⟨⟨by simp [Node.children], ?_⟩, ?_⟩
    · intro c hc
      simp only [Node.children, List.map_cons, List.mem_cons, List.mem_map] at hc
      rcases hc with rfl | ⟨x, hx, rfl⟩
      · exact hk.2.2.2.2 hwf.2.1
      · exact hks.2.1 hwf.2.2 x hx
    · intro c hc
      rcases List.mem_cons.1 hc with rfl | hc
      · exact ih
      · exact ih' c hc
  | .disj f rest, hwf, n, h => by
    simp only [CQ.Denotes] at h
    obtain ⟨m, ms, h1, h2, rfl⟩ := h
    simp only [CQ.WF] at hwf
    have ih := shape_q f hwf.1 m h1
    have ih' := shape_qtail rest (.inr hwf.2.2.2) ms h2
    have hk := CQ.Denotes.kind rt cfg h1
    have hks := CQTail.Denotes.kinds rt cfg h2
    rw [allNodes_mk]
    refine ⟨⟨?_, ?_⟩, ?_⟩
    · have := hks.1 hwf.2.2.1
      cases ms with
      | nil => exact absurd rfl this
      | cons a as => simp [Node.children]
    · intro c hc
      simp only [Node.children, List.map_cons, List.mem_cons, List.mem_map] at hc
      rcases hc with rfl | ⟨x, hx, rfl⟩
      · exact ⟨hk.1, by rw [Ne, hk.2.2.1]; exact hwf.2.1⟩
      · exact hks.2.2 hwf.2.2.2 x hx
    · intro c hc
      rcases List.mem_cons.1 hc with rfl | hc
      · exact ih
      · exact ih' c hc
theorem shape_qtail : ∀ (t : CQTail), t.WFseq ∨ t.WFdisj → ∀ ns, t.Denotes rt cfg ns →
    ∀ n ∈ ns, AllNodes ShapeHere n
  | .nil, hwf, ns, h => by simp only [CQTail.Denotes] at h; subst h; simp
  | .cons sep c rest, hwf, ns, h => by
    simp only [CQTail.Denotes] at h
    obtain ⟨m, ms, h1, h2, rfl⟩ := h
    have hc : c.WF := by
      rcases hwf with h | h
      · simp only [CQTail.WFseq] at h; exact h.2.1
      · simp only [CQTail.WFdisj] at h; exact h.2.1
    have hrest : rest.WFseq ∨ rest.WFdisj := by
      rcases hwf with h | h
      · simp only [CQTail.WFseq] at h; exact .inl h.2.2.2
      · simp only [CQTail.WFdisj] at h; exact .inr h.2.2.2
    have ih := shape_q c hc m h1
    have ih' := shape_qtail rest hrest ms h2
    intro n hn
    rcases List.mem_cons.1 hn with rfl | hn
    · exact ih
    · exact ih' n hn
end

theorem shape_query {q : CQuery} (hwf : q.WF) {n : Node} (h : q.Denotes rt cfg n) : WellShaped n := by
  obtain ⟨main, within, eof⟩ := q
  rcases within with _ | ⟨w, s⟩
  · simp only [CQuery.Denotes] at h
    exact ⟨.inl (CQ.Denotes.kind rt cfg h).1, shape_q rt cfg main hwf.1 n h⟩
  · simp only [CQuery.Denotes] at h
    obtain ⟨m, sc, h1, h2, rfl⟩ := h
    refine ⟨.inr rfl, ?_⟩
    change AllNodes ShapeHere _
    rw [allNodes_mk]
    refine ⟨⟨m.kind, sc, rfl, (CQ.Denotes.kind rt cfg h1).1⟩, ?_⟩
    intro c hc
    simp only [List.mem_cons, List.not_mem_nil, or_false] at hc
    rcases hc with rfl | rfl
    · exact shape_q rt cfg main hwf.1 _ h1
    · simp [allNodes_mk, ShapeHere, ShapeAt, Node.kind, Node.children]

end

end Fcsql
