/-
How the tree of a query depends on the settings of the parser.
-/
import Verif.Proofs.Parse
import Verif.Proofs.Tree
import Verif.Spec.Rel

set_option autoImplicit false
set_option linter.unusedSimpArgs false
set_option linter.unusedSectionVars false

namespace Fcsql

/-- What has to hold of attributes and locations for two settings. -/
structure Compat (rt : PyRuntime) (cfg cfg' : Config) (K : Kind → Kind → Prop)
    (L : Option Loc → Option Loc → Prop) : Prop where
  value : ∀ (r : CRegexp) (v : PyStr) (fl : Option FlagSet), r.Denotes rt cfg v fl → ∃ v', r.Denotes rt cfg' v' fl ∧
    (∀ q i o, K (.expression q i o v fl) (.expression q i o v' fl)) ∧
    K (.expression none cfg.defaultIdentifier cfg.defaultOperator v fl)
      (.expression none cfg'.defaultIdentifier cfg'.defaultOperator v' fl)
  other : ∀ k, (∀ q i o v fl, k ≠ .expression q i o v fl) → K k k
  loc : ∀ ts, L (cfg.span ts) (cfg'.span ts)

section
variable {rt : PyRuntime} {cfg cfg' : Config} {K : Kind → Kind → Prop} {L : Option Loc → Option Loc → Prop}

theorem nodeRel_mk {k k' : Kind} {cs cs' : List Node} {l l' : Option Loc} (h1 : K k k') (h2 : L l l')
    (h3 : NodeRelL K L cs cs') : NodeRel K L (.mk k cs l) (.mk k' cs' l') := by
  rw [NodeRel]; exact ⟨_, _, _, rfl, h1, h2, h3⟩

theorem nodeRelL_nil : NodeRelL K L [] [] := by rw [NodeRelL]

theorem nodeRelL_cons {c c' : Node} {cs cs' : List Node} (h1 : NodeRel K L c c') (h2 : NodeRelL K L cs cs') :
    NodeRelL K L (c :: cs) (c' :: cs') := by rw [NodeRelL]; exact ⟨_, _, rfl, h1, h2⟩

variable (hc : Compat rt cfg cfg' K L)
include hc

mutual
theorem rel_expr : ∀ (e : CExpr) (n : Node), e.Denotes rt cfg n → ∃ n', e.Denotes rt cfg' n' ∧ NodeRel K L n n'
  | .basic a op r, n, h => by
    simp only [CExpr.Denotes] at h
    obtain ⟨o, v, fl, h1, h2, rfl⟩ := h
    obtain ⟨v', h3, h4, -⟩ := hc.value r v fl h2
    refine ⟨_, ?_, nodeRel_mk (h4 _ _ _) (hc.loc _) nodeRelL_nil⟩
    simp only [CExpr.Denotes]
    exact ⟨o, v', fl, h1, h3, rfl⟩
  | .group lp e rp, n, h => by
    simp only [CExpr.Denotes] at h
    obtain ⟨m, h1, rfl⟩ := h
    obtain ⟨m', h2, h3⟩ := rel_expr e m h1
    refine ⟨_, ?_, nodeRel_mk (hc.other .group (by simp)) (hc.loc _) (nodeRelL_cons h3 nodeRelL_nil)⟩
    simp only [CExpr.Denotes]
    exact ⟨m', h2, rfl⟩
  | .not b e, n, h => by
    simp only [CExpr.Denotes] at h
    obtain ⟨m, h1, rfl⟩ := h
    obtain ⟨m', h2, h3⟩ := rel_expr e m h1
    refine ⟨_, ?_, nodeRel_mk (hc.other .not (by simp)) (hc.loc _) (nodeRelL_cons h3 nodeRelL_nil)⟩
    simp only [CExpr.Denotes]
    exact ⟨m', h2, rfl⟩
  | .or f rest, n, h => by
    simp only [CExpr.Denotes] at h
    obtain ⟨m, ms, h1, h2, rfl⟩ := h
    obtain ⟨m', h3, h4⟩ := rel_expr f m h1
    obtain ⟨ms', h5, h6⟩ := rel_tail rest ms h2
    refine ⟨_, ?_, nodeRel_mk (hc.other .or (by simp)) (hc.loc _) (nodeRelL_cons h4 h6)⟩
    simp only [CExpr.Denotes]
    exact ⟨m', ms', h3, h5, rfl⟩
  | .and f rest, n, h => by
    simp only [CExpr.Denotes] at h
    obtain ⟨m, ms, h1, h2, rfl⟩ := h
    obtain ⟨m', h3, h4⟩ := rel_expr f m h1
    obtain ⟨ms', h5, h6⟩ := rel_tail rest ms h2
    refine ⟨_, ?_, nodeRel_mk (hc.other .and (by simp)) (hc.loc _) (nodeRelL_cons h4 h6)⟩
    simp only [CExpr.Denotes]
    exact ⟨m', ms', h3, h5, rfl⟩
theorem rel_tail : ∀ (t : CTail) (ns : List Node), t.Denotes rt cfg ns →
    ∃ ns', t.Denotes rt cfg' ns' ∧ NodeRelL K L ns ns'
  | .nil, ns, h => by
    simp only [CTail.Denotes] at h; subst h
    exact ⟨[], by simp [CTail.Denotes], nodeRelL_nil⟩
  | .cons o e rest, ns, h => by
    simp only [CTail.Denotes] at h
    obtain ⟨m, ms, h1, h2, rfl⟩ := h
    obtain ⟨m', h3, h4⟩ := rel_expr e m h1
    obtain ⟨ms', h5, h6⟩ := rel_tail rest ms h2
    exact ⟨m' :: ms', by simp only [CTail.Denotes]; exact ⟨m', ms', h3, h5, rfl⟩, nodeRelL_cons h4 h6⟩
end

mutual
theorem rel_q : ∀ (c : CQ) (n : Node), c.Denotes rt cfg n → ∃ n', c.Denotes rt cfg' n' ∧ NodeRel K L n n'
  | .implicit r q, n, h => by
    simp only [CQ.Denotes] at h
    obtain ⟨v, fl, mn, mx, h1, h2, rfl⟩ := h
    obtain ⟨v', h3, -, h4⟩ := hc.value r v fl h1
    refine ⟨_, ?_, nodeRel_mk (hc.other (.segment mn mx) (by simp)) (hc.loc _)
      (nodeRelL_cons (nodeRel_mk h4 (hc.loc _) nodeRelL_nil) nodeRelL_nil)⟩
    simp only [CQ.Denotes]
    exact ⟨v', fl, mn, mx, h3, h2, rfl⟩
  | .segment lb e rb q, n, h => by
    simp only [CQ.Denotes] at h
    obtain ⟨m, mn, mx, h1, h2, rfl⟩ := h
    have : ∃ m', optDenotes rt cfg' lb rb e m' ∧ NodeRel K L m m' := by
      cases e with
      | none =>
        simp only [optDenotes] at h1
        subst h1
        exact ⟨_, rfl, nodeRel_mk (hc.other .wildcard (by simp)) (hc.loc _) nodeRelL_nil⟩
      | some e => exact rel_expr hc e m h1
    obtain ⟨m', h3, h4⟩ := this
    refine ⟨_, ?_, nodeRel_mk (hc.other (.segment mn mx) (by simp)) (hc.loc _) (nodeRelL_cons h4 nodeRelL_nil)⟩
    simp only [CQ.Denotes]
    exact ⟨m', mn, mx, h3, h2, rfl⟩
  | .group lp c rp q, n, h => by
    simp only [CQ.Denotes] at h
    obtain ⟨m, mn, mx, h1, h2, rfl⟩ := h
    obtain ⟨m', h3, h4⟩ := rel_q c m h1
    refine ⟨_, ?_, nodeRel_mk (hc.other (.qgroup mn mx) (by simp)) (hc.loc _) (nodeRelL_cons h4 nodeRelL_nil)⟩
    simp only [CQ.Denotes]
    exact ⟨m', mn, mx, h3, h2, rfl⟩
  | .seq f rest, n, h => by
    simp only [CQ.Denotes] at h
    obtain ⟨m, ms, h1, h2, rfl⟩ := h
    obtain ⟨m', h3, h4⟩ := rel_q f m h1
    obtain ⟨ms', h5, h6⟩ := rel_qtail rest ms h2
    refine ⟨_, ?_, nodeRel_mk (hc.other .sequence (by simp)) (hc.loc _) (nodeRelL_cons h4 h6)⟩
    simp only [CQ.Denotes]
    exact ⟨m', ms', h3, h5, rfl⟩
  | .disj f rest, n, h => by
    simp only [CQ.Denotes] at h
    obtain ⟨m, ms, h1, h2, rfl⟩ := h
    obtain ⟨m', h3, h4⟩ := rel_q f m h1
    obtain ⟨ms', h5, h6⟩ := rel_qtail rest ms h2
    refine ⟨_, ?_, nodeRel_mk (hc.other .disjunction (by simp)) (hc.loc _) (nodeRelL_cons h4 h6)⟩
    simp only [CQ.Denotes]
    exact ⟨m', ms', h3, h5, rfl⟩
theorem rel_qtail : ∀ (t : CQTail) (ns : List Node), t.Denotes rt cfg ns →
    ∃ ns', t.Denotes rt cfg' ns' ∧ NodeRelL K L ns ns'
  | .nil, ns, h => by
    simp only [CQTail.Denotes] at h; subst h
    exact ⟨[], by simp [CQTail.Denotes], nodeRelL_nil⟩
  | .cons o e rest, ns, h => by
    simp only [CQTail.Denotes] at h
    obtain ⟨m, ms, h1, h2, rfl⟩ := h
    obtain ⟨m', h3, h4⟩ := rel_q e m h1
    obtain ⟨ms', h5, h6⟩ := rel_qtail rest ms h2
    exact ⟨m' :: ms', by simp only [CQTail.Denotes]; exact ⟨m', ms', h3, h5, rfl⟩, nodeRelL_cons h4 h6⟩
end

theorem rel_query (q : CQuery) (n : Node) (h : q.Denotes rt cfg n) :
    ∃ n', q.Denotes rt cfg' n' ∧ NodeRel K L n n' := by
  obtain ⟨main, within, eof⟩ := q
  rcases within with _ | ⟨w, s⟩
  · exact rel_q hc main n h
  · simp only [CQuery.Denotes] at h
    obtain ⟨m, sc, h1, h2, rfl⟩ := h
    obtain ⟨m', h3, h4⟩ := rel_q hc main m h1
    refine ⟨_, ?_, nodeRel_mk (hc.other .withWithin (by simp)) (hc.loc _) (nodeRelL_cons h4
      (nodeRelL_cons (nodeRel_mk (hc.other (.within sc) (by simp)) (hc.loc _) nodeRelL_nil) nodeRelL_nil))⟩
    simp only [CQuery.Denotes]
    exact ⟨m', sc, h3, h2, rfl⟩

end

/-- If a query is accepted with one setting, so it is with a compatible one, and the trees are related. -/
theorem parse_rel {rt : Runtime} {cfg cfg' : Config} {K : Kind → Kind → Prop}
    {L : Option Loc → Option Loc → Prop} (hc : Compat rt.toPyRuntime cfg cfg' K L) {q : PyStr} {n : Node}
    (h : (parseQuery rt cfg q).1 = .ok n) : ∃ n', (parseQuery rt cfg' q).1 = .ok n' ∧ NodeRel K L n n' := by
  obtain ⟨hl, cst, hs, hd⟩ := (parse_ok rt cfg q n).1 h
  obtain ⟨n', h1, h2⟩ := rel_query hc cst n hd
  exact ⟨n', (parse_ok rt cfg' q n').2 ⟨hl, cst, hs, h1⟩, h2⟩

section
variable {K : Kind → Kind → Prop} {L : Option Loc → Option Loc → Prop}

/-- If related nodes differ only in their locations, the trees without locations are equal. -/
theorem unlocated_of_rel {L : Option Loc → Option Loc → Prop} (n : Node) :
    ∀ n', NodeRel Eq L n n' → n'.unlocated = n.unlocated := by
  apply Node.rec (motive_1 := fun n => ∀ n', NodeRel Eq L n n' → n'.unlocated = n.unlocated)
    (motive_2 := fun ns => ∀ ns', NodeRelL Eq L ns ns' → Node.unlocatedL ns' = Node.unlocatedL ns)
  · intro k cs l ih n' h
    rw [NodeRel] at h
    obtain ⟨k', cs', l', rfl, rfl, h2, h3⟩ := h
    simp only [Node.unlocated, ih cs' h3]
  · intro ns' h
    rw [NodeRelL] at h
    rw [h]
  · intro c cs ih1 ih2 ns' h
    rw [NodeRelL] at h
    obtain ⟨c', cs', rfl, h1, h2⟩ := h
    simp only [Node.unlocatedL, ih1 c' h1, ih2 cs' h2]

end

end Fcsql
