/-
How high the tree of a query is, compared with its parse tree.
-/
import Verif.Proofs.Parse
import Verif.Proofs.Recursion
import Verif.Spec.Placed

set_option autoImplicit false
set_option linter.unusedSimpArgs false

namespace Fcsql

section
variable (rt : PyRuntime) (cfg : Config)

mutual
theorem CExpr.node_height : ∀ (e : CExpr) (n : Node), e.Denotes rt cfg n → n.height ≤ e.toTree.height
  | .basic a op r, n, h => by
    obtain ⟨o, v, fl, -, -, rfl⟩ := h
    simp [Node.height, Node.heightL, CExpr.toTree, PTree.height]
  | .group lp e rp, n, h => by
    obtain ⟨m, h1, rfl⟩ := h
    have := CExpr.node_height e m h1
    simp only [Node.height, Node.heightL, CExpr.toTree, PTree.height, PTree.heightL]; omega
  | .not lp e, n, h => by
    obtain ⟨m, h1, rfl⟩ := h
    have := CExpr.node_height e m h1
    simp only [Node.height, Node.heightL, CExpr.toTree, PTree.height, PTree.heightL]; omega
  | .or f t, n, h => by
    obtain ⟨m, ms, h1, h2, rfl⟩ := h
    have := CExpr.node_height f m h1
    have := CTail.node_height t ms h2
    simp only [Node.height, Node.heightL, CExpr.toTree, PTree.height, PTree.heightL]; omega
  | .and f t, n, h => by
    obtain ⟨m, ms, h1, h2, rfl⟩ := h
    have := CExpr.node_height f m h1
    have := CTail.node_height t ms h2
    simp only [Node.height, Node.heightL, CExpr.toTree, PTree.height, PTree.heightL]; omega
theorem CTail.node_height : ∀ (t : CTail) (ns : List Node), t.Denotes rt cfg ns → Node.heightL ns ≤ PTree.heightL t.forest
  | .nil, ns, h => by cases h; simp [Node.heightL]
  | .cons o e t, ns, h => by
    obtain ⟨m, ms, h1, h2, rfl⟩ := h
    have := CExpr.node_height e m h1
    have := CTail.node_height t ms h2
    simp only [Node.heightL, CTail.forest, PTree.heightL]; omega
end

mutual
theorem CQ.node_height : ∀ (c : CQ) (n : Node), c.Denotes rt cfg n → n.height ≤ c.toTree.height
  | .implicit r q, n, h => by
    obtain ⟨v, fl, mn, mx, -, -, rfl⟩ := h
    simp only [Node.height, Node.heightL, CQ.toTree, PTree.height, PTree.heightL]; omega
  | .segment lb e rb q, n, h => by
    obtain ⟨m, mn, mx, h1, -, rfl⟩ := h
    cases e with
    | none =>
      cases h1
      simp only [Node.height, Node.heightL, CQ.toTree, PTree.height, PTree.heightL]; omega
    | some x =>
      have := CExpr.node_height rt cfg x m h1
      simp only [Node.height, Node.heightL, CQ.toTree, optExpr, PTree.height, PTree.heightL, List.cons_append, List.nil_append]; omega
  | .group lp c rp q, n, h => by
    obtain ⟨m, mn, mx, h1, -, rfl⟩ := h
    have := CQ.node_height c m h1
    simp only [Node.height, Node.heightL, CQ.toTree, PTree.height, PTree.heightL]; omega
  | .seq f t, n, h => by
    obtain ⟨m, ms, h1, h2, rfl⟩ := h
    have := CQ.node_height f m h1
    have := CQTail.node_height t ms h2
    simp only [Node.height, Node.heightL, CQ.toTree, PTree.height, PTree.heightL]; omega
  | .disj f t, n, h => by
    obtain ⟨m, ms, h1, h2, rfl⟩ := h
    have := CQ.node_height f m h1
    have := CQTail.node_height t ms h2
    simp only [Node.height, Node.heightL, CQ.toTree, PTree.height, PTree.heightL]; omega
theorem CQTail.node_height : ∀ (t : CQTail) (ns : List Node), t.Denotes rt cfg ns → Node.heightL ns ≤ PTree.heightL t.forest
  | .nil, ns, h => by cases h; simp [Node.heightL]
  | .cons o c t, ns, h => by
    obtain ⟨m, ms, h1, h2, rfl⟩ := h
    have := CQ.node_height c m h1
    have := CQTail.node_height t ms h2
    simp only [Node.heightL, CQTail.forest, heightL_append, PTree.heightL]; omega
end

theorem CQuery.node_height (q : CQuery) (n : Node) (h : q.Denotes rt cfg n) : n.height + 1 ≤ q.toTree.height := by
  unfold CQuery.Denotes at h
  rcases q with ⟨m, _ | ⟨w, s⟩, e⟩
  · have := CQ.node_height rt cfg m n h
    simp only [CQuery.toTree, PTree.height, PTree.heightL, heightL_append]; omega
  · obtain ⟨x, sc, h1, -, rfl⟩ := h
    have := CQ.node_height rt cfg m x h1
    simp only [CQuery.toTree, optWithin, Node.height, Node.heightL, PTree.height, PTree.heightL, heightL_append]; omega
end

mutual
theorem Node.height_shift (k : Int) : ∀ n : Node, (n.shift k).height = n.height
  | .mk kd cs l => by simp only [Node.shift, Node.height, Node.heightL_shift k cs]
theorem Node.heightL_shift (k : Int) : ∀ ns : List Node, Node.heightL (Node.shiftL k ns) = Node.heightL ns
  | [] => rfl
  | n :: ns => by simp only [Node.shiftL, Node.heightL, Node.height_shift k n, Node.heightL_shift k ns]
end

theorem Node.height_contentAt (n : Node) : n.height ≤ n.contentAt.height := by
  unfold Node.contentAt
  split <;> simp [Node.height, Node.heightL]

end Fcsql
