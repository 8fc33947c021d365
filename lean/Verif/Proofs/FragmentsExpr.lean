/-
The expressions in a parsed query, with the part of the syntax each of them comes from.
-/
import Verif.Proofs.Fragments
import Verif.Proofs.LaidAt

set_option autoImplicit false
set_option linter.unusedSimpArgs false

namespace Fcsql

attribute [local irreducible] parseQuery

/-- The expression is the chosen one for its own rule. -/
def CExpr.Own (e : CExpr) : Prop := ∃ d, Chosen (.rule e.rule) e.lv [e.toTree] d

theorem lv_expression (e : CExpr) : (PTree.node .expression [e.toTree]).leaves = e.lv := by
  simp [PTree.leaves, PTree.leavesL, CExpr.lv]

theorem head_not {e : CExpr} (h : e.WF) (hr : e.rule = .expression_not) : ∃ t ts, e.lv = t :: ts ∧ t.type = .NOT := by
  cases e with
  | not b e => exact ⟨b, e.lv, by simp [CExpr.lv, CExpr.toTree, PTree.leaves, PTree.leavesL], h.1⟩
  | _ => simp [CExpr.rule] at hr

/-- A comparison or parenthesised expression is tokens of no other kind of expression. -/
theorem small_only {e e' : CExpr} (h : e.WF) (h' : e'.WF) (hr : e.rule = .expression_basic ∨ e.rule = .expression_group)
    (e1 : e'.lv = e.lv) : e'.rule = e.rule := by
  have ht := tight_small h hr
  have hor : e'.rule ≠ .expression_or := fun hx => ht.not_top (t := .OR) (.inr rfl) (e1 ▸ top_or h' hx)
  have hand : e'.rule ≠ .expression_and := fun hx => ht.not_top (t := .AND) (.inl rfl) (e1 ▸ top_and h' hx)
  have key : ∀ {x y : CExpr}, x.WF → y.WF → x.rule = .expression_basic → y.lv = x.lv →
      y.rule ≠ .expression_group ∧ y.rule ≠ .expression_not := by
    intro x y hx hy hrx e
    obtain ⟨t, ts, g1, g2⟩ := head_basic hx hrx
    refine ⟨fun hry => ?_, fun hry => ?_⟩
    · obtain ⟨t', ts', g1', g2'⟩ := head_group hy hry
      rw [g1, g1'] at e
      simp only [List.cons.injEq] at e
      exact not_name_of g2' (.inl rfl) (e.1 ▸ g2)
    · obtain ⟨t', ts', g1', g2'⟩ := head_not hy hry
      rw [g1, g1'] at e
      simp only [List.cons.injEq] at e
      exact not_name_of g2' (.inr rfl) (e.1 ▸ g2)
  rcases hr with hr | hr
  · obtain ⟨k1, k2⟩ := key h h' hr e1
    rw [hr]
    cases e' <;> simp_all [CExpr.rule]
  · have k1 : e'.rule ≠ .expression_basic := fun hx => (key h' h hx e1.symm).1 hr
    have k2 : e'.rule ≠ .expression_not := by
      intro hx
      obtain ⟨t, ts, g1, g2⟩ := head_group h hr
      obtain ⟨t', ts', g1', g2'⟩ := head_not h' hx
      rw [g1, g1'] at e1
      simp only [List.cons.injEq] at e1
      rw [e1.1] at g2'; rw [g2] at g2'; cases g2'
    rw [hr]
    cases e' <;> simp_all [CExpr.rule]

/-- Comparisons, parenthesised expressions and disjunctions are chosen wherever an expression may stand. -/
theorem best_of_own {e : CExpr} (hw : e.WF) (h : e.Own)
    (hr : e.rule = .expression_basic ∨ e.rule = .expression_group ∨ e.rule = .expression_or) : e.Best := by
  obtain ⟨d, hd⟩ := h
  obtain ⟨d0, hd0⟩ := chosen_of_only (CExpr.fits_expression hw) (by
    intro t' d' h'
    rw [lv_expression] at h'
    obtain ⟨ks, e1, hb⟩ := h'.rule_inv
    simp only [List.cons.injEq, and_true] at e1
    subst e1
    have same : ∀ {d}, Chosen (.rule e.rule) e.lv ks d → PTree.node .expression ks = .node .expression [e.toTree] := by
      intro d h
      rw [(h.unique hd).1]
    have cst : ∀ {r : Rule} {d}, isERule r → Chosen (.rule r) e.lv ks d → ∃ e' : CExpr, e'.WF ∧ e'.rule = r ∧ e'.lv = e.lv := by
      intro r d hr h
      obtain ⟨e', g1, g2, -, g4⟩ := expr_of_D hr h.derives
      exact ⟨e', g1, g2, g4⟩
    -- an expression of the same rule is the given one
    have fin : ∀ {r : Rule} {d}, isERule r → Chosen (.rule r) e.lv ks d →
        ((∀ f c, ¬ D (.rule .expression_or) e.lv f c) ∨ r ≠ .expression_and ∧ r ≠ .expression_not) →
        PTree.node .expression ks = .node .expression [e.toTree] := by
      intro r d hir h hn
      obtain ⟨e', g1, rfl, g3⟩ := cst hir h
      have : e'.rule = e.rule := by
        rcases hr with hr | hr | hr
        · exact small_only hw g1 (.inl hr) g3
        · exact small_only hw g1 (.inr hr) g3
        · rcases hn with hn | hn
          · obtain ⟨c, hc⟩ := D_expr hw hr
            exact absurd hc (hn _ _)
          · have hs : ¬ (e'.rule = .expression_basic ∨ e'.rule = .expression_group) := by
              intro hx
              have := small_only g1 hw hx g3.symm
              rw [hr] at this
              rw [← this] at hx
              simp at hx
            rw [hr]
            cases e' <;> simp_all [CExpr.rule]
      rw [this] at h
      exact same h
    rw [body_expr] at hb
    rcases hb.alt_inv with ⟨d', -, h⟩ | ⟨d', -, h, -⟩
    · exact fin (by simp [isERule]) h (.inr (by simp))
    rcases h.alt_inv with ⟨d', -, h⟩ | ⟨d', -, h, -⟩
    · exact fin (by simp [isERule]) h (.inr (by simp))
    rcases h.alt_inv with ⟨d', -, h⟩ | ⟨d', -, h, hn⟩
    · exact fin (by simp [isERule]) h (.inr (by simp))
    rcases h.alt_inv with ⟨d', -, h⟩ | ⟨d', -, h, -⟩
    · exact fin (by simp [isERule]) h (.inl hn)
    · exact fin (by simp [isERule]) h (.inl hn))
  exact ⟨d0, by rw [← lv_expression]; exact hd0⟩

section
variable {rt : PyRuntime} {cfg : Config}

/-- `e` is the syntax of `m`, in a stretch of tokens. -/
structure EPartOf (rt : PyRuntime) (cfg : Config) (m : Node) (ts : List Tok) (f : List PTree) (e : CExpr) : Prop where
  wf : e.WF
  place : ∃ x y, ts = x ++ e.lv ++ y
  sub : Subtree e.toTree f
  den : e.Denotes rt cfg m

mutual
theorem CExpr.parts : ∀ (c : CExpr) (n m : Node), c.WF → c.Denotes rt cfg n → m ∈ n.subnodes →
    ∃ e : CExpr, EPartOf rt cfg m c.lv [c.toTree] e
  | .basic a op r, n, m, hw, h, hm => by
    have h0 := h
    obtain ⟨o, v, fl, -, -, rfl⟩ := h
    simp [Node.subnodes, Node.subnodesL] at hm
    subst hm
    exact ⟨_, hw, ⟨[], [], by simp⟩, .here (by simp), h0⟩
  | .group lp c rp, n, m, hw, h, hm => by
    have h0 := h
    obtain ⟨k, h1, rfl⟩ := h
    simp only [Node.subnodes, Node.subnodesL, List.append_nil, List.mem_cons] at hm
    rcases hm with rfl | hm
    · exact ⟨_, hw, ⟨[], [], by simp⟩, .here (by simp), h0⟩
    · obtain ⟨c', g1, ⟨a, b, e⟩, g3, g4⟩ := CExpr.parts c k m hw.2.1 h1 hm
      refine ⟨c', g1, ⟨lp :: a, b ++ [rp], ?_⟩,
        .there (r := .expression_group) (ks := .leaf lp :: c.toTree :: [.leaf rp]) (by simp [CExpr.toTree]) ?_, g4⟩
      · rw [CExpr.lv_group, e]; simp
      · exact subtree_right (f := c.toTree :: _) (g := [PTree.leaf lp]) (subtree_left (f := [c.toTree]) g3)
  | .not b c, n, m, hw, h, hm => by
    have h0 := h
    obtain ⟨k, h1, rfl⟩ := h
    simp only [Node.subnodes, Node.subnodesL, List.append_nil, List.mem_cons] at hm
    rcases hm with rfl | hm
    · exact ⟨_, hw, ⟨[], [], by simp⟩, .here (by simp), h0⟩
    · obtain ⟨c', g1, ⟨a, y, e⟩, g3, g4⟩ := CExpr.parts c k m hw.2 h1 hm
      refine ⟨c', g1, ⟨b :: a, y, ?_⟩,
        .there (r := .expression_not) (ks := .leaf b :: [c.toTree]) (by simp [CExpr.toTree]) ?_, g4⟩
      · simp only [CExpr.lv] at e
        simp [CExpr.lv, CExpr.toTree, PTree.leaves, PTree.leavesL, e]
      · exact subtree_right (f := [c.toTree]) (g := [PTree.leaf b]) g3
  | .or f rest, n, m, hw, h, hm => by
    have h0 := h
    obtain ⟨k, ks, h1, h2, rfl⟩ := h
    simp only [Node.subnodes, Node.subnodesL, List.mem_cons, List.mem_append] at hm
    rcases hm with rfl | hm | hm
    · exact ⟨_, hw, ⟨[], [], by simp⟩, .here (by simp), h0⟩
    · obtain ⟨c', g1, ⟨a, b, e⟩, g3, g4⟩ := CExpr.parts f k m hw.1 h1 hm
      refine ⟨c', g1, ⟨a, b ++ PTree.leavesL rest.forest, ?_⟩,
        .there (r := .expression_or) (ks := f.toTree :: rest.forest) (by simp [CExpr.toTree]) (subtree_left (f := [f.toTree]) g3), g4⟩
      rw [CExpr.lv_or, e]; simp
    · obtain ⟨c', g1, ⟨a, b, e⟩, g3, g4⟩ := CTail.parts rest ks m _ _ hw.2.2.2 h2 hm
      refine ⟨c', g1, ⟨f.lv ++ a, b, ?_⟩,
        .there (r := .expression_or) (ks := f.toTree :: rest.forest) (by simp [CExpr.toTree]) (subtree_right (g := [f.toTree]) g3), g4⟩
      rw [CExpr.lv_or, e]; simp
  | .and f rest, n, m, hw, h, hm => by
    have h0 := h
    obtain ⟨k, ks, h1, h2, rfl⟩ := h
    simp only [Node.subnodes, Node.subnodesL, List.mem_cons, List.mem_append] at hm
    rcases hm with rfl | hm | hm
    · exact ⟨_, hw, ⟨[], [], by simp⟩, .here (by simp), h0⟩
    · obtain ⟨c', g1, ⟨a, b, e⟩, g3, g4⟩ := CExpr.parts f k m hw.1 h1 hm
      refine ⟨c', g1, ⟨a, b ++ PTree.leavesL rest.forest, ?_⟩,
        .there (r := .expression_and) (ks := f.toTree :: rest.forest) (by simp [CExpr.toTree]) (subtree_left (f := [f.toTree]) g3), g4⟩
      rw [CExpr.lv_and, e]; simp
    · obtain ⟨c', g1, ⟨a, b, e⟩, g3, g4⟩ := CTail.parts rest ks m _ _ hw.2.2.2.2 h2 hm
      refine ⟨c', g1, ⟨f.lv ++ a, b, ?_⟩,
        .there (r := .expression_and) (ks := f.toTree :: rest.forest) (by simp [CExpr.toTree]) (subtree_right (g := [f.toTree]) g3), g4⟩
      rw [CExpr.lv_and, e]; simp
theorem CTail.parts : ∀ (t : CTail) (ns : List Node) (m : Node) (op : TokType) (no : Rule), t.WF op no → t.Denotes rt cfg ns →
    m ∈ Node.subnodesL ns → ∃ e : CExpr, EPartOf rt cfg m (PTree.leavesL t.forest) t.forest e
  | .nil, ns, m, op, no, hw, h, hm => by
    obtain rfl : ns = [] := h
    simp [Node.subnodesL] at hm
  | .cons o c rest, ns, m, op, no, hw, h, hm => by
    obtain ⟨k, ks, h1, h2, rfl⟩ := h
    simp only [Node.subnodesL, List.mem_append] at hm
    rcases hm with hm | hm
    · obtain ⟨c', g1, ⟨a, b, e⟩, g3, g4⟩ := CExpr.parts c k m hw.2.1 h1 hm
      refine ⟨c', g1, ⟨o :: a, b ++ PTree.leavesL rest.forest, ?_⟩, ?_, g4⟩
      · rw [CTail.lv_cons, e]; simp
      · simp only [CTail.forest]
        exact subtree_right (g := [PTree.leaf o]) (f := c.toTree :: rest.forest) (subtree_left (f := [c.toTree]) g3)
    · obtain ⟨c', g1, ⟨a, b, e⟩, g3, g4⟩ := CTail.parts rest ks m op no hw.2.2.2 h2 hm
      refine ⟨c', g1, ⟨o :: (c.lv ++ a), b, ?_⟩, ?_, g4⟩
      · rw [CTail.lv_cons, e]; simp
      · simp only [CTail.forest]
        exact subtree_right (f := rest.forest) (g := [PTree.leaf o, c.toTree]) g3
end

/-- Parts of a chosen expression are chosen for their own rules. -/
theorem CExpr.own_of_sub {g : G} {ts : List Tok} {f : List PTree} {d : List Bool} (hd : Chosen g ts f d) {e : CExpr}
    (hs : Subtree e.toTree f) : e.Own := by
  obtain ⟨ks, e1⟩ : ∃ ks, e.toTree = .node e.rule ks := by cases e <;> exact ⟨_, by rfl⟩
  rw [e1] at hs
  obtain ⟨d', h'⟩ := hd.subtree hs
  refine ⟨d', ?_⟩
  have : e.lv = PTree.leavesL ks := by simp [CExpr.lv, e1, PTree.leaves]
  rw [this, e1]
  exact h'

theorem CExpr.Best.own {c e : CExpr} (h : c.Best) (hs : Subtree e.toTree [c.toTree]) : e.Own := by
  obtain ⟨d, hd⟩ := h
  exact CExpr.own_of_sub hd (.there (r := .expression) (ks := [c.toTree]) (by simp) hs)

/-- Where in a segment a node below it comes from. -/
inductive SegPart (rt : PyRuntime) (cfg : Config) (m : Node) (c : CQ) : Prop
  | lit {r : CRegexp} {q : Option CQuant} {v : PyStr} {fl : Option FlagSet} (e : c = .implicit r q) (h : r.Denotes rt cfg v fl)
      (hm : m = .mk (.expression none cfg.defaultIdentifier cfg.defaultOperator v fl) [] (cfg.span r.lv)) : SegPart rt cfg m c
  | wild {lb rb : Tok} {q : Option CQuant} (e : c = .segment lb none rb q) (hm : m = .mk .wildcard [] (cfg.span [lb, rb])) :
      SegPart rt cfg m c
  | expr {lb rb : Tok} {q : Option CQuant} {x e : CExpr} (h : c = .segment lb (some x) rb q) (he : EPartOf rt cfg m x.lv [x.toTree] e) :
      SegPart rt cfg m c

mutual
/-- Every node below a query that is not a query itself is in a segment. -/
theorem CQ.segs : ∀ (c : CQ) (n m : Node), c.WF → c.Denotes rt cfg n → m ∈ n.subnodes → ¬ m.kind.isQ →
    ∃ (c' : CQ) (p : Node), p ∈ n.subnodes ∧ p.kind.isQ ∧ c'.WF ∧ PartOf rt cfg p c.lv [c.toTree] c' ∧ SegPart rt cfg m c'
  | .implicit r q, n, m, hw, h, hm, hk => by
    have h0 := h
    obtain ⟨v, fl, mn, mx, h1, -, rfl⟩ := h
    simp [Node.subnodes, Node.subnodesL] at hm
    rcases hm with rfl | rfl
    · simp [Node.kind, Kind.isQ] at hk
    · exact ⟨_, _, List.mem_cons_self, by simp [Node.kind, Kind.isQ], hw, ⟨⟨[], [], by simp⟩, .here (by simp), h0⟩, .lit rfl h1 rfl⟩
  | .segment lb e rb q, n, m, hw, h, hm, hk => by
    have h0 := h
    obtain ⟨k, mn, mx, h1, -, rfl⟩ := h
    simp only [Node.subnodes, Node.subnodesL, List.append_nil, List.mem_cons] at hm
    rcases hm with rfl | hm
    · simp [Node.kind, Kind.isQ] at hk
    · refine ⟨_, _, List.mem_cons_self, by simp [Node.kind, Kind.isQ], hw, ⟨⟨[], [], by simp⟩, .here (by simp), h0⟩, ?_⟩
      cases e with
      | none =>
        obtain rfl : k = _ := h1
        simp [Node.subnodes, Node.subnodesL] at hm
        exact .wild rfl hm
      | some e =>
        obtain ⟨x, hx⟩ := CExpr.parts e k m (hw.2.1 e rfl) h1 hm
        exact .expr rfl hx
  | .group lp c rp q, n, m, hw, h, hm, hk => by
    obtain ⟨k, mn, mx, h1, -, rfl⟩ := h
    simp only [Node.subnodes, Node.subnodesL, List.append_nil, List.mem_cons] at hm
    rcases hm with rfl | hm
    · simp [Node.kind, Kind.isQ] at hk
    · obtain ⟨c', p, k1, k2, k3, k4, k5⟩ := CQ.segs c k m hw.2.1 h1 hm hk
      obtain ⟨⟨a, b, e⟩, g3, g4⟩ := k4
      refine ⟨c', p, by simp [Node.subnodes, Node.subnodesL, k1], k2, k3, ⟨⟨lp :: a, b ++ (rp :: PTree.leavesL (optQuant q)), ?_⟩,
        .there (r := .query_group) (ks := .leaf lp :: c.toTree :: .leaf rp :: optQuant q) (by simp [CQ.toTree]) ?_, g4⟩, k5⟩
      · simp only [CQ.lv] at e
        simp [CQ.lv, CQ.toTree, PTree.leaves, PTree.leavesL, e]
      · exact subtree_right (f := c.toTree :: _) (g := [PTree.leaf lp]) (subtree_left (f := [c.toTree]) g3)
  | .seq f rest, n, m, hw, h, hm, hk => by
    obtain ⟨k, ks, h1, h2, rfl⟩ := h
    simp only [Node.subnodes, Node.subnodesL, List.mem_cons, List.mem_append] at hm
    rcases hm with rfl | hm | hm
    · simp [Node.kind, Kind.isQ] at hk
    · obtain ⟨c', p, k1, k2, k3, ⟨⟨a, b, e⟩, g3, g4⟩, k5⟩ := CQ.segs f k m hw.1 h1 hm hk
      refine ⟨c', p, by simp [Node.subnodes, Node.subnodesL, k1], k2, k3, ⟨⟨a, b ++ PTree.leavesL rest.forest, ?_⟩,
        .there (r := .query_sequence) (ks := f.toTree :: rest.forest) (by simp [CQ.toTree]) (subtree_left (f := [f.toTree]) g3), g4⟩, k5⟩
      simp only [CQ.lv] at e
      simp [CQ.lv, CQ.toTree, PTree.leaves, PTree.leavesL, e]
    · obtain ⟨c', p, k1, k2, k3, ⟨⟨a, b, e⟩, g3, g4⟩, k5⟩ := CQTail.segs rest ks m (.inl hw.2.2) h2 hm hk
      refine ⟨c', p, by simp [Node.subnodes, Node.subnodesL, k1], k2, k3, ⟨⟨f.lv ++ a, b, ?_⟩,
        .there (r := .query_sequence) (ks := f.toTree :: rest.forest) (by simp [CQ.toTree]) (subtree_right (g := [f.toTree]) g3), g4⟩, k5⟩
      simp [CQ.lv, CQ.toTree, PTree.leaves, PTree.leavesL, e]
  | .disj f rest, n, m, hw, h, hm, hk => by
    obtain ⟨k, ks, h1, h2, rfl⟩ := h
    simp only [Node.subnodes, Node.subnodesL, List.mem_cons, List.mem_append] at hm
    rcases hm with rfl | hm | hm
    · simp [Node.kind, Kind.isQ] at hk
    · obtain ⟨c', p, k1, k2, k3, ⟨⟨a, b, e⟩, g3, g4⟩, k5⟩ := CQ.segs f k m hw.1 h1 hm hk
      refine ⟨c', p, by simp [Node.subnodes, Node.subnodesL, k1], k2, k3, ⟨⟨a, b ++ PTree.leavesL rest.forest, ?_⟩,
        .there (r := .query_disjunction) (ks := f.toTree :: rest.forest) (by simp [CQ.toTree]) (subtree_left (f := [f.toTree]) g3), g4⟩, k5⟩
      simp only [CQ.lv] at e
      simp [CQ.lv, CQ.toTree, PTree.leaves, PTree.leavesL, e]
    · obtain ⟨c', p, k1, k2, k3, ⟨⟨a, b, e⟩, g3, g4⟩, k5⟩ := CQTail.segs rest ks m (.inr hw.2.2.2) h2 hm hk
      refine ⟨c', p, by simp [Node.subnodes, Node.subnodesL, k1], k2, k3, ⟨⟨f.lv ++ a, b, ?_⟩,
        .there (r := .query_disjunction) (ks := f.toTree :: rest.forest) (by simp [CQ.toTree]) (subtree_right (g := [f.toTree]) g3), g4⟩, k5⟩
      simp [CQ.lv, CQ.toTree, PTree.leaves, PTree.leavesL, e]
theorem CQTail.segs : ∀ (t : CQTail) (ns : List Node) (m : Node), t.WFseq ∨ t.WFdisj → t.Denotes rt cfg ns → m ∈ Node.subnodesL ns →
    ¬ m.kind.isQ → ∃ (c' : CQ) (p : Node), p ∈ Node.subnodesL ns ∧ p.kind.isQ ∧ c'.WF ∧
      PartOf rt cfg p (PTree.leavesL t.forest) t.forest c' ∧ SegPart rt cfg m c'
  | .nil, ns, m, hw, h, hm, hk => by
    obtain rfl : ns = [] := h
    simp [Node.subnodesL] at hm
  | .cons o c rest, ns, m, hw, h, hm, hk => by
    obtain ⟨k, ks, h1, h2, rfl⟩ := h
    have hwc : c.WF := by rcases hw with hw | hw <;> exact hw.2.1
    have hwr : rest.WFseq ∨ rest.WFdisj := by
      rcases hw with hw | hw
      · exact .inl hw.2.2.2
      · exact .inr hw.2.2.2
    simp only [Node.subnodesL, List.mem_append] at hm
    rcases hm with hm | hm
    · obtain ⟨c', p, k1, k2, k3, ⟨⟨a, b, e⟩, g3, g4⟩, k5⟩ := CQ.segs c k m hwc h1 hm hk
      refine ⟨c', p, by simp [Node.subnodesL, k1], k2, k3, ⟨⟨PTree.leavesL (optLeaf o) ++ a, b ++ PTree.leavesL rest.forest, ?_⟩, ?_, g4⟩, k5⟩
      · simp only [CQ.lv] at e
        cases o <;> simp [CQTail.forest, PTree.leavesL, PTree.leaves, optLeaf, e]
      · simp only [CQTail.forest]
        exact subtree_right (subtree_left (f := [c.toTree]) g3)
    · obtain ⟨c', p, k1, k2, k3, ⟨⟨a, b, e⟩, g3, g4⟩, k5⟩ := CQTail.segs rest ks m hwr h2 hm hk
      refine ⟨c', p, by simp [Node.subnodesL, k1], k2, k3, ⟨⟨PTree.leavesL (optLeaf o) ++ c.lv ++ a, b, ?_⟩, ?_, g4⟩, k5⟩
      · cases o <;> simp [CQTail.forest, PTree.leavesL, PTree.leaves, optLeaf, e, CQ.lv]
      · simp only [CQTail.forest]
        exact subtree_right (subtree_right (f := rest.forest) (g := [c.toTree]) g3)
end

end

/-- The tokens of a bracketed text. -/
theorem bracket_tokens {a : PyStr} (h : lexErrors a = []) : lexErrors (py!"[" ++ a ++ py!"]") = [] ∧
    lexTokens (py!"[" ++ a ++ py!"]") = tokAt 0 .L_SQUARE_BRACKET py!"[" :: ((lexTokens a).map (Tok.shift 1) ++
      [tokAt (1 + a.length) .R_SQUARE_BRACKET py!"]"]) := by
  have h1 := LaidAt.of_lex h 1
  have h2 := LaidAt.append h1 (LaidAt.one (k := 1 + a.length) (ty := .R_SQUARE_BRACKET) (w := py!"]") (.fixed (by decide)))
    (by simp only [List.head?_cons, Option.some.injEq]; rintro c rfl; exact free_of (by decide))
  have h3 := LaidAt.one_cons (k := 0) (ty := .L_SQUARE_BRACKET) (w := py!"[") (.fixed (by decide)) (by simp [Sticks]) (q := a ++ py!"]") h2
  have := (laidAt_iff _ _).1 h3
  simpa using this

/-- An expression in brackets. -/
theorem bracketed_parse {rt : Runtime} {cfg : Config} {a : PyStr} {m : Node} {e : CExpr} {k : Int} (hw : e.WF) (hb : e.Best)
    (hl : lexErrors a = []) (hlv : lexTokens a = e.lv.map (Tok.shift k)) (hd : e.Denotes rt.toPyRuntime cfg m) (hc : cfg.enableSourceLocations = true) :
    (parseQuery rt cfg (py!"[" ++ a ++ py!"]")).1 = .ok (.mk (.segment 1 1) [m.shift (k + 1)] (some ⟨0, a.length + 2⟩)) := by
  obtain ⟨g1, g2⟩ := bracket_tokens hl
  have wf : (CQ.segment (tokAt 0 .L_SQUARE_BRACKET py!"[") (some (e.map (Tok.shift (k + 1)))) (tokAt (1 + a.length) .R_SQUARE_BRACKET py!"]") none).WF :=
    ⟨rfl, by rintro x ⟨⟩; exact CExpr.WF_map ⟨(keeps_shift _).type⟩ _ hw, rfl, by simp [optQuantWF]⟩
  have e1 : (lexTokens a).map (Tok.shift 1) = (e.map (Tok.shift (k + 1))).lv := by
    rw [hlv, List.map_map, show (e.map (Tok.shift (k + 1))).lv = e.lv.map (Tok.shift (k + 1)) by rw [CExpr.lv, CExpr.toTree_map, PTree.leaves_map]]
    congr 1
    funext t
    simp [Tok.shift]; omega
  have e2 : (CQ.segment (tokAt 0 .L_SQUARE_BRACKET py!"[") (some (e.map (Tok.shift (k + 1)))) (tokAt (1 + a.length) .R_SQUARE_BRACKET py!"]") none).lv =
      lexTokens (py!"[" ++ a ++ py!"]") := by
    rw [g2, lv_segment, exprLv_some, e1, quantLv_none]
  refine parse_main wf (best_segment wf (CExpr.Best_shift _ hb)) (by rintro x h; cases h) g1 e2 ?_
  refine ⟨m.shift (k + 1), 1, 1, CExpr.Denotes_shift _ e m hd, ⟨rfl, rfl⟩, ?_⟩
  have e3 : cfg.span (CQ.segment (tokAt 0 .L_SQUARE_BRACKET py!"[") (some (e.map (Tok.shift (k + 1)))) (tokAt (1 + a.length) .R_SQUARE_BRACKET py!"]") none).lv =
      some ⟨0, a.length + 2⟩ := by
    rw [e2, g2]
    simp only [Config.span, hc, if_true, List.head?_cons]
    rw [← List.cons_append, List.getLast?_concat]
    simp [tokAt]
    omega
  rw [← e3, CQ.lv]

end Fcsql
