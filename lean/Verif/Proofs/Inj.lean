/-
A concrete syntax tree is determined by its parse tree.
-/
import Verif.Proofs.BestQuery

set_option autoImplicit false
set_option linter.unusedSimpArgs false

namespace Fcsql

theorem CRegexp.toTree_inj {r r' : CRegexp} (h : r.toTree = r'.toTree) : r = r' := by
  rcases r with ⟨p, _ | ⟨s, f⟩⟩ <;> rcases r' with ⟨p', _ | ⟨s', f'⟩⟩ <;> simp [CRegexp.toTree] at h ⊢ <;> exact h

theorem CAttr.toTree_inj {a a' : CAttr} (h : a.toTree = a'.toTree) : a = a' := by
  rcases a with ⟨_ | ⟨s, f⟩, p⟩ <;> rcases a' with ⟨_ | ⟨s', f'⟩, p'⟩ <;> simp [CAttr.toTree] at h ⊢
  · exact h
  · exact ⟨⟨h.1, h.2.1⟩, h.2.2⟩

theorem CQuant.forest_inj {q q' : CQuant} (h : q.WF) (h' : q'.WF) (e : q.forest = q'.forest) : q = q' := by
  cases q with
  | sym t => cases q' with
    | sym t' => simpa [CQuant.forest] using e
    | exactly lb n rb => simp [CQuant.forest] at e
    | range lb n c m rb => simp [CQuant.forest] at e
  | exactly lb n rb => cases q' with
    | sym t' => simp [CQuant.forest] at e
    | exactly lb' n' rb' => simpa [CQuant.forest] using e
    | range lb' n' c m rb' =>
      obtain ⟨h1, h2, h3⟩ := h
      obtain ⟨g1, g2, g3, g4, g5, g6⟩ := h'
      cases n' with
      | none => simp [CQuant.forest, optLeaf] at e; rw [← e.2.1] at g2; simp [h2] at g2
      | some x => cases m <;> simp [CQuant.forest, optLeaf] at e
  | range lb n c m rb => cases q' with
    | sym t' => simp [CQuant.forest] at e
    | exactly lb' n' rb' =>
      obtain ⟨h1, h2, h3⟩ := h'
      obtain ⟨g1, g2, g3, g4, g5, g6⟩ := h
      cases n with
      | none => simp [CQuant.forest, optLeaf] at e; rw [e.2.1] at g2; simp [h2] at g2
      | some x => cases m <;> simp [CQuant.forest, optLeaf] at e
    | range lb' n' c' m' rb' =>
      obtain ⟨h1, h2, h3, h4, h5, h6⟩ := h
      obtain ⟨g1, g2, g3, g4, g5, g6⟩ := h'
      cases n with
      | none => cases n' with
        | none => cases m <;> cases m' <;> simp [CQuant.forest, optLeaf] at e ⊢ <;> simp_all
        | some x => simp [CQuant.forest, optLeaf] at e; rw [e.2.1, g4 x rfl] at h2; simp at h2
      | some x => cases n' with
        | none => simp [CQuant.forest, optLeaf] at e; rw [← e.2.1, h4 x rfl] at g2; simp at g2
        | some y => cases m <;> cases m' <;> simp [CQuant.forest, optLeaf] at e ⊢ <;> simp_all

theorem optQuant_inj {q q' : Option CQuant} (h : optQuantWF q) (h' : optQuantWF q') (e : optQuant q = optQuant q') : q = q' := by
  cases q <;> cases q' <;> simp [optQuant] at e ⊢
  exact CQuant.forest_inj (h _ rfl) (h' _ rfl) e

mutual
theorem CExpr.toTree_inj : ∀ (e e' : CExpr), e.toTree = e'.toTree → e = e'
  | .basic a o r, e', h => by
    cases e' <;> simp [CExpr.toTree] at h ⊢
    exact ⟨CAttr.toTree_inj h.1, h.2.1, CRegexp.toTree_inj h.2.2⟩
  | .group a e b, e', h => by
    cases e' <;> simp [CExpr.toTree] at h ⊢
    exact ⟨h.1, CExpr.toTree_inj _ _ h.2.1, h.2.2⟩
  | .or f t, e', h => by
    cases e' <;> simp [CExpr.toTree] at h ⊢
    exact ⟨CExpr.toTree_inj _ _ h.1, CTail.forest_inj _ _ h.2⟩
  | .and f t, e', h => by
    cases e' <;> simp [CExpr.toTree] at h ⊢
    exact ⟨CExpr.toTree_inj _ _ h.1, CTail.forest_inj _ _ h.2⟩
  | .not b e, e', h => by
    cases e' <;> simp [CExpr.toTree] at h ⊢
    exact ⟨h.1, CExpr.toTree_inj _ _ h.2⟩
theorem CTail.forest_inj : ∀ (t t' : CTail), t.forest = t'.forest → t = t'
  | .nil, t', h => by cases t' <;> simp [CTail.forest] at h ⊢
  | .cons o e t, t', h => by
    cases t' <;> simp [CTail.forest] at h ⊢
    exact ⟨h.1, CExpr.toTree_inj _ _ h.2.1, CTail.forest_inj _ _ h.2.2⟩
end

theorem optExpr_inj {e e' : Option CExpr} (h : optExpr e = optExpr e') : e = e' := by
  cases e <;> cases e' <;> simp [optExpr] at h ⊢
  exact CExpr.toTree_inj _ _ h

/-- Well-formed tails: of a sequence or of a disjunction. -/
def CQTail.Ok (t : CQTail) : Prop := t.WFseq ∨ t.WFdisj

mutual
theorem CQ.toTree_inj : ∀ (c c' : CQ), c.WF → c'.WF → c.toTree = c'.toTree → c = c'
  | .implicit r q, c', h, h', e => by
    cases c' <;> simp [CQ.toTree] at e ⊢
    exact ⟨CRegexp.toTree_inj e.1, optQuant_inj h.2 h'.2 e.2⟩
  | .segment lb x rb q, c', h, h', e => by
    cases c' with
    | segment lb' x' rb' q' =>
      obtain ⟨h1, h2, h3, h4⟩ := h
      obtain ⟨g1, g2, g3, g4⟩ := h'
      simp [CQ.toTree] at e ⊢
      obtain ⟨⟨rfl, e1⟩, e2⟩ := e
      refine ⟨rfl, ?_, ?_, optQuant_inj h4 g4 e2⟩
      · cases x <;> cases x' <;> simp [optExpr] at e1 ⊢
        exact CExpr.toTree_inj _ _ e1.1
      · cases x <;> cases x' <;> simp [optExpr] at e1 ⊢
        · exact e1
        · exact e1.2
    | _ => simp [CQ.toTree] at e
  | .group lp c rp q, c', h, h', e => by
    cases c' with
    | group lp' x' rp' q' =>
      obtain ⟨h1, h2, h3, h4, h5⟩ := h
      obtain ⟨g1, g2, g3, g4, g5⟩ := h'
      simp [CQ.toTree] at e ⊢
      exact ⟨e.1, CQ.toTree_inj _ _ h2 g2 e.2.1, e.2.2.1, optQuant_inj h5 g5 e.2.2.2⟩
    | _ => simp [CQ.toTree] at e
  | .seq f t, c', h, h', e => by
    cases c' with
    | seq f' t' =>
      simp [CQ.toTree] at e ⊢
      exact ⟨CQ.toTree_inj _ _ h.1 h'.1 e.1, CQTail.forest_inj _ _ (.inl h.2.2) (.inl h'.2.2) e.2⟩
    | _ => simp [CQ.toTree] at e
  | .disj f t, c', h, h', e => by
    cases c' with
    | disj f' t' =>
      simp [CQ.toTree] at e ⊢
      exact ⟨CQ.toTree_inj _ _ h.1 h'.1 e.1, CQTail.forest_inj _ _ (.inr h.2.2.2) (.inr h'.2.2.2) e.2⟩
    | _ => simp [CQ.toTree] at e
theorem CQTail.forest_inj : ∀ (t t' : CQTail), t.Ok → t'.Ok → t.forest = t'.forest → t = t'
  | .nil, t', h, h', e => by
    cases t' with
    | nil => rfl
    | cons s c r => cases s <;> simp [CQTail.forest, optLeaf] at e
  | .cons s c r, t', h, h', e => by
    have hc : c.WF ∧ r.Ok := by
      rcases h with h | h
      · exact ⟨h.2.1, .inl h.2.2.2⟩
      · exact ⟨h.2.1, .inr h.2.2.2⟩
    cases t' with
    | nil => cases s <;> simp [CQTail.forest, optLeaf] at e
    | cons s' c' r' =>
      have hc' : c'.WF ∧ r'.Ok := by
        rcases h' with h | h
        · exact ⟨h.2.1, .inl h.2.2.2⟩
        · exact ⟨h.2.1, .inr h.2.2.2⟩
      have node : ∀ (c : CQ) (x : Tok), c.toTree ≠ .leaf x := by intro c x; cases c <;> simp [CQ.toTree]
      cases s with
      | none => cases s' with
        | none =>
          simp only [CQTail.forest, optLeaf, List.nil_append, List.cons.injEq] at e
          rw [CQ.toTree_inj _ _ hc.1 hc'.1 e.1, CQTail.forest_inj _ _ hc.2 hc'.2 e.2]
        | some x =>
          simp only [CQTail.forest, optLeaf, List.nil_append, List.cons_append, List.cons.injEq] at e
          exact absurd e.1 (node _ _)
      | some y => cases s' with
        | none =>
          simp only [CQTail.forest, optLeaf, List.nil_append, List.cons_append, List.cons.injEq] at e
          exact absurd e.1.symm (node _ _)
        | some x =>
          simp only [CQTail.forest, optLeaf, List.nil_append, List.cons_append, List.cons.injEq, PTree.leaf.injEq] at e
          rw [e.1, CQ.toTree_inj _ _ hc.1 hc'.1 e.2.1, CQTail.forest_inj _ _ hc.2 hc'.2 e.2.2]
end

end Fcsql
