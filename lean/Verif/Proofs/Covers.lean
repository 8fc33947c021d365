/-
The tree a query denotes lies over the query's tokens.
-/
import Verif.Proofs.Tree
import Verif.Spec.Covers

set_option autoImplicit false
set_option linter.unusedSimpArgs false

namespace Fcsql

section
variable (rt : PyRuntime) (cfg : Config)

theorem coversL_gap {cs : List Node} {u : List Tok} (h : CoversL rt cfg cs u) (g : List Tok) :
    CoversL rt cfg cs (g ++ u) := by
  cases cs with
  | nil => simp [CoversL]
  | cons c cs =>
    simp only [CoversL] at h ⊢
    obtain ⟨gap, v, w, rfl, h1, h2⟩ := h
    exact ⟨g ++ gap, v, w, by simp, h1, h2⟩

theorem coversL_app : ∀ {cs : List Node} {u : List Tok}, CoversL rt cfg cs u → ∀ g : List Tok,
    CoversL rt cfg cs (u ++ g)
  | [], u, _, g => by simp [CoversL]
  | c :: cs, u, h, g => by
    simp only [CoversL] at h ⊢
    obtain ⟨gap, v, w, rfl, h1, h2⟩ := h
    exact ⟨gap, v, w ++ g, by simp, h1, coversL_app h2 g⟩

theorem coversL_one {n : Node} {v : List Tok} (h : Covers rt cfg n v) (g w : List Tok) :
    CoversL rt cfg [n] (g ++ (v ++ w)) := by
  simp only [CoversL]
  exact ⟨g, v, w, rfl, h, trivial⟩

theorem CRegexp.leaves_ne {r : CRegexp} : r.toTree.leaves ≠ [] := by
  simp [CRegexp.toTree, PTree.leaves, PTree.leavesL]

theorem tail_op {t : CTail} {op : TokType} {no : Rule} (hne : t ≠ .nil) (h : t.WF op no) (a b : List Tok) :
    ∃ x ∈ a ++ (b ++ PTree.leavesL t.forest), x.type = op := by
  cases t with
  | nil => exact absurd rfl hne
  | cons o e rest =>
    simp only [CTail.WF] at h
    exact ⟨o, by simp [CTail.forest, PTree.leaves, PTree.leavesL], h.1⟩

theorem qtail_op {t : CQTail} (hne : t ≠ .nil) (h : t.WFdisj) (a b : List Tok) :
    ∃ x ∈ a ++ (b ++ PTree.leavesL t.forest), x.type = .OR := by
  cases t with
  | nil => exact absurd rfl hne
  | cons o e rest =>
    simp only [CQTail.WFdisj] at h
    obtain ⟨⟨o', rfl, ho⟩, -⟩ := h
    exact ⟨o', by simp [CQTail.forest, optLeaf, PTree.leaves, PTree.leavesL], ho⟩

mutual
theorem covers_expr : ∀ (e : CExpr), e.WF → ∀ n, e.Denotes rt cfg n → Covers rt cfg n e.toTree.leaves
  | .basic a op r, hwf, n, h => by
    simp only [CExpr.Denotes] at h
    obtain ⟨o, v, fl, h1, h2, rfl⟩ := h
    simp only [CExpr.WF] at hwf
    have he : (CExpr.basic a op r).toTree.leaves = (a.toTree.leaves ++ [op]) ++ r.toTree.leaves := by
      simp [CExpr.toTree, PTree.leaves, PTree.leavesL]
    refine ⟨by rw [he]; simp, rfl, ⟨r, hwf.2.2, h2, .inr ⟨a, op, hwf.1, h1, ?_, rfl, rfl⟩⟩, trivial⟩
    rw [he]; simp
  | .group lp e rp, hwf, n, h => by
    simp only [CExpr.Denotes] at h
    obtain ⟨m, h1, rfl⟩ := h
    simp only [CExpr.WF] at hwf
    have ih := covers_expr e hwf.2.1 m h1
    have he : (CExpr.group lp e rp).toTree.leaves = [lp] ++ (e.toTree.leaves ++ [rp]) := by
      simp [CExpr.toTree, PTree.leaves, PTree.leavesL]
    refine ⟨by rw [he]; simp, rfl, ⟨lp, e.toTree.leaves, rp, by rw [he]; simp, hwf.1, hwf.2.2⟩, ?_⟩
    rw [he]
    exact coversL_one rt cfg ih _ _
  | .not b e, hwf, n, h => by
    simp only [CExpr.Denotes] at h
    obtain ⟨m, h1, rfl⟩ := h
    simp only [CExpr.WF] at hwf
    have ih := covers_expr e hwf.2 m h1
    have he : (CExpr.not b e).toTree.leaves = [b] ++ (e.toTree.leaves ++ []) := by
      simp [CExpr.toTree, PTree.leaves, PTree.leavesL]
    refine ⟨by rw [he]; simp, rfl, ⟨b, e.toTree.leaves, by rw [he]; simp, hwf.1⟩, ?_⟩
    rw [he]
    exact coversL_one rt cfg ih _ _
  | .or f rest, hwf, n, h => by
    simp only [CExpr.Denotes] at h
    obtain ⟨m, ms, h1, h2, rfl⟩ := h
    simp only [CExpr.WF] at hwf
    have ih := covers_expr f hwf.1 m h1
    have ih' := covers_tail rest .OR _ hwf.2.2.2 ms h2
    have he : (CExpr.or f rest).toTree.leaves = [] ++ (f.toTree.leaves ++ PTree.leavesL rest.forest) := by
      simp [CExpr.toTree, PTree.leaves, PTree.leavesL]
    refine ⟨?_, rfl, by rw [he]; exact tail_op hwf.2.2.1 hwf.2.2.2 _ _, ?_⟩
    · rw [he]
      cases m with
      | mk k cs l => simp [ih.1]
    · rw [he]
      simp only [CoversL]
      exact ⟨_, _, _, rfl, ih, ih'⟩
  | .and f rest, hwf, n, h => by
    simp only [CExpr.Denotes] at h
    obtain ⟨m, ms, h1, h2, rfl⟩ := h
    simp only [CExpr.WF] at hwf
    have ih := covers_expr f hwf.1 m h1
    have ih' := covers_tail rest .AND _ hwf.2.2.2.2 ms h2
    have he : (CExpr.and f rest).toTree.leaves = [] ++ (f.toTree.leaves ++ PTree.leavesL rest.forest) := by
      simp [CExpr.toTree, PTree.leaves, PTree.leavesL]
    refine ⟨?_, rfl, by rw [he]; exact tail_op hwf.2.2.2.1 hwf.2.2.2.2 _ _, ?_⟩
    · rw [he]
      cases m with
      | mk k cs l => simp [ih.1]
    · rw [he]
      simp only [CoversL]
      exact ⟨_, _, _, rfl, ih, ih'⟩
theorem covers_tail : ∀ (t : CTail) (op : TokType) (no : Rule), t.WF op no → ∀ ns, t.Denotes rt cfg ns →
    CoversL rt cfg ns (PTree.leavesL t.forest)
  | .nil, op, no, hwf, ns, h => by simp only [CTail.Denotes] at h; subst h; simp [CoversL]
  | .cons o e rest, op, no, hwf, ns, h => by
    simp only [CTail.Denotes] at h
    obtain ⟨m, ms, h1, h2, rfl⟩ := h
    simp only [CTail.WF] at hwf
    have ih := covers_expr e hwf.2.1 m h1
    have ih' := covers_tail rest op no hwf.2.2.2 ms h2
    have he : PTree.leavesL (CTail.cons o e rest).forest = [o] ++ (e.toTree.leaves ++ PTree.leavesL rest.forest) := by
      simp [CTail.forest, PTree.leaves, PTree.leavesL]
    rw [he]
    simp only [CoversL]
    exact ⟨_, _, _, rfl, ih, ih'⟩
end

theorem CRegexp.last {r : CRegexp} (h : r.WF) (t : Tok) (ht : r.toTree.leaves.getLast? = some t) :
    t.type = .REGEXP ∨ t.type = .REGEXP_FLAGS := by
  obtain ⟨pat, fl⟩ := r
  rcases fl with _ | ⟨s, f⟩
  · simp [CRegexp.toTree, PTree.leaves, PTree.leavesL] at ht
    subst ht; exact .inl h.1
  · simp [CRegexp.toTree, PTree.leaves, PTree.leavesL] at ht
    subst ht; exact .inr (h.2 s f rfl).2

mutual
theorem covers_q : ∀ (c : CQ), c.WF → ∀ n, c.Denotes rt cfg n → Covers rt cfg n c.toTree.leaves
  | .implicit r q, hwf, n, h => by
    simp only [CQ.Denotes] at h
    obtain ⟨v, fl, mn, mx, h1, h2, rfl⟩ := h
    simp only [CQ.WF] at hwf
    have he : (CQ.implicit r q).toTree.leaves = [] ++ (r.toTree.leaves ++ PTree.leavesL (optQuant q)) := by
      simp [CQ.toTree, PTree.leaves, PTree.leavesL]
    refine ⟨by rw [he]; simp [CRegexp.leaves_ne], rfl, ⟨q, r.toTree.leaves, hwf.2, h2, he, ?_⟩, ?_⟩
    · exact fun t ht => .inr (CRegexp.last hwf.1 t ht)
    · rw [he]
      refine coversL_one rt cfg ?_ _ _
      exact ⟨CRegexp.leaves_ne, rfl, ⟨r, hwf.1, h1, .inl ⟨rfl, rfl, rfl, rfl⟩⟩, trivial⟩
  | .segment lb e rb q, hwf, n, h => by
    simp only [CQ.Denotes] at h
    obtain ⟨m, mn, mx, h1, h2, rfl⟩ := h
    simp only [CQ.WF] at hwf
    have he : (CQ.segment lb e rb q).toTree.leaves
        = (lb :: (PTree.leavesL (optExpr e) ++ [rb])) ++ PTree.leavesL (optQuant q) := by
      simp [CQ.toTree, PTree.leaves, PTree.leavesL, leavesL_append]
    refine ⟨by rw [he]; simp, rfl, ⟨q, _, hwf.2.2.2, h2, he, ?_⟩, ?_⟩
    · intro t ht
      have : t = rb := by
        rw [← List.cons_append, List.getLast?_append] at ht
        simpa using ht.symm
      exact .inl (this ▸ hwf.2.2.1)
    · rw [he]
      apply coversL_app
      cases e with
      | none =>
        simp only [optDenotes] at h1
        subst h1
        have : lb :: (PTree.leavesL (optExpr none) ++ [rb]) = [] ++ ([lb, rb] ++ []) := by
          simp [optExpr, PTree.leavesL]
        rw [this]
        refine coversL_one rt cfg ?_ _ _
        exact ⟨by simp, rfl, ⟨lb, rb, rfl, hwf.1, hwf.2.2.1⟩, trivial⟩
      | some e =>
        have ih := covers_expr rt cfg e (hwf.2.1 e rfl) m h1
        have : lb :: (PTree.leavesL (optExpr (some e)) ++ [rb]) = [lb] ++ (e.toTree.leaves ++ [rb]) := by
          simp [optExpr, PTree.leavesL, PTree.leaves]
        rw [this]
        exact coversL_one rt cfg ih _ _
  | .group lp c rp q, hwf, n, h => by
    simp only [CQ.Denotes] at h
    obtain ⟨m, mn, mx, h1, h2, rfl⟩ := h
    simp only [CQ.WF] at hwf
    have ih := covers_q c hwf.2.1 m h1
    have he : (CQ.group lp c rp q).toTree.leaves
        = ([lp] ++ (c.toTree.leaves ++ [rp])) ++ PTree.leavesL (optQuant q) := by
      simp [CQ.toTree, PTree.leaves, PTree.leavesL]
    refine ⟨by rw [he]; simp, rfl, ⟨q, _, hwf.2.2.2.2, h2, he, ?_, ?_⟩, ?_⟩
    · intro t ht
      have : t = rp := by
        rw [← List.append_assoc, List.getLast?_append] at ht
        simpa using ht.symm
      exact this ▸ hwf.2.2.2.1
    · exact ⟨lp, _, rfl, hwf.1⟩
    · rw [he]
      exact coversL_app rt cfg (coversL_one rt cfg ih _ _) _
  | .seq f rest, hwf, n, h => by
    simp only [CQ.Denotes] at h
    obtain ⟨m, ms, h1, h2, rfl⟩ := h
    simp only [CQ.WF] at hwf
    have ih := covers_q f hwf.1 m h1
    have ih' := covers_qtail rest (.inl hwf.2.2) ms h2
    have he : (CQ.seq f rest).toTree.leaves = [] ++ (f.toTree.leaves ++ PTree.leavesL rest.forest) := by
      simp [CQ.toTree, PTree.leaves, PTree.leavesL]
    refine ⟨?_, rfl, trivial, ?_⟩
    · rw [he]
      cases m with
      | mk k cs l => simp [ih.1]
    · rw [he]
      simp only [CoversL]
      exact ⟨_, _, _, rfl, ih, ih'⟩
  | .disj f rest, hwf, n, h => by
    simp only [CQ.Denotes] at h
    obtain ⟨m, ms, h1, h2, rfl⟩ := h
    simp only [CQ.WF] at hwf
    have ih := covers_q f hwf.1 m h1
    have ih' := covers_qtail rest (.inr hwf.2.2.2) ms h2
    have he : (CQ.disj f rest).toTree.leaves = [] ++ (f.toTree.leaves ++ PTree.leavesL rest.forest) := by
      simp [CQ.toTree, PTree.leaves, PTree.leavesL]
    refine ⟨?_, rfl, by rw [he]; exact qtail_op hwf.2.2.1 hwf.2.2.2 _ _, ?_⟩
    · rw [he]
      cases m with
      | mk k cs l => simp [ih.1]
    · rw [he]
      simp only [CoversL]
      exact ⟨_, _, _, rfl, ih, ih'⟩
theorem covers_qtail : ∀ (t : CQTail), t.WFseq ∨ t.WFdisj → ∀ ns, t.Denotes rt cfg ns →
    CoversL rt cfg ns (PTree.leavesL t.forest)
  | .nil, hwf, ns, h => by simp only [CQTail.Denotes] at h; subst h; simp [CoversL]
  | .cons sep c rest, hwf, ns, h => by
    simp only [CQTail.Denotes] at h
    obtain ⟨m, ms, h1, h2, rfl⟩ := h
    have hc : c.WF := by
      rcases hwf with h | h
      · simp only [CQTail.WFseq] at h; exact h.2.1
      · simp only [CQTail.WFdisj] at h; exact h.2.1
    have hrest : rest.WFseq ∨ rest.WFdisj := by
      rcases hwf with h | h
      · simp only [CQTail.WFseq] at h; exact .inl h.2.2.2
      · simp only [CQTail.WFdisj] at h; exact .inr h.2.2.2
    have ih := covers_q c hc m h1
    have ih' := covers_qtail rest hrest ms h2
    have he : PTree.leavesL (CQTail.cons sep c rest).forest
        = PTree.leavesL (optLeaf sep) ++ (c.toTree.leaves ++ PTree.leavesL rest.forest) := by
      simp [CQTail.forest, PTree.leaves, PTree.leavesL, leavesL_append]
    rw [he]
    simp only [CoversL]
    exact ⟨_, _, _, rfl, ih, ih'⟩
end

/-- The tokens of a query tree: all but `EOF`. -/
theorem covers_query {q : CQuery} (hwf : q.WF) {n : Node} (h : q.Denotes rt cfg n) :
    ∃ u, q.toTree.leaves = u ++ [q.eof] ∧ Covers rt cfg n u := by
  obtain ⟨main, within, eof⟩ := q
  rcases within with _ | ⟨w, s⟩
  · simp only [CQuery.Denotes] at h
    exact ⟨main.toTree.leaves, by simp [CQuery.toTree, PTree.leaves, PTree.leavesL, leavesL_append, optWithin],
      covers_q rt cfg main hwf.1 n h⟩
  · simp only [CQuery.Denotes] at h
    obtain ⟨m, sc, h1, h2, rfl⟩ := h
    have ih := covers_q rt cfg main hwf.1 m h1
    refine ⟨main.toTree.leaves ++ [w, s],
      by simp [CQuery.toTree, PTree.leaves, PTree.leavesL, leavesL_append, optWithin], by simp, rfl,
      ⟨_, w, s, rfl, hwf.2.1 w s rfl⟩, ?_⟩
    simp only [CoversL]
    refine ⟨[], main.toTree.leaves, [w, s], by simp, ih, [w], [s], [], by simp, ?_, trivial⟩
    exact ⟨by simp, rfl, ⟨s, rfl, (hwf.2.1 w s rfl).2, h2⟩, trivial⟩

/-- Every node of a tree is made of a contiguous stretch of the tokens. -/
theorem Covers.all {n : Node} {u : List Tok} (h : Covers rt cfg n u) :
    ∀ m ∈ n.subnodes, ∃ v, v <:+: u ∧ Covers rt cfg m v := by
  have key : ∀ (n : Node), ∀ u, Covers rt cfg n u → ∀ m ∈ n.subnodes, ∃ v, v <:+: u ∧ Covers rt cfg m v := by
    intro n
    apply Node.rec (motive_1 := fun n => ∀ u, Covers rt cfg n u → ∀ m ∈ n.subnodes, ∃ v, v <:+: u ∧ Covers rt cfg m v)
      (motive_2 := fun cs => ∀ u, CoversL rt cfg cs u → ∀ m ∈ Node.subnodesL cs, ∃ v, v <:+: u ∧ Covers rt cfg m v)
    · intro k cs l ih u hu m hm
      rw [Node.subnodes_mk] at hm
      rcases List.mem_cons.1 hm with rfl | hm
      · exact ⟨u, List.infix_refl u, hu⟩
      · exact ih u hu.2.2.2 m hm
    · intro u _ m hm; simp [Node.subnodesL] at hm
    · intro c cs ih1 ih2 u hu m hm
      simp only [CoversL] at hu
      obtain ⟨g, v, w, rfl, h1, h2⟩ := hu
      simp only [Node.subnodesL, List.mem_append] at hm
      rcases hm with hm | hm
      · obtain ⟨x, hx, hc⟩ := ih1 v h1 m hm
        exact ⟨x, hx.trans ⟨g, w, by simp⟩, hc⟩
      · obtain ⟨x, hx, hc⟩ := ih2 w h2 m hm
        exact ⟨x, hx.trans ⟨g ++ v, [], by simp⟩, hc⟩
  exact key n u h

end

/-- The tree returned for a query lies over the query's tokens. -/
theorem parse_covers (rt : Runtime) (cfg : Config) (q : PyStr) (n : Node) (h : (parseQuery rt cfg q).1 = .ok n) :
    Covers rt.toPyRuntime cfg n (lexTokens q) := by
  obtain ⟨hl, cst, hs, hd⟩ := (parse_ok rt cfg q n).1 h
  obtain ⟨u, hu, hc⟩ := covers_query rt.toPyRuntime cfg hs.wf hd
  have := hs.leaves.symm.trans hu
  rw [tokenStream] at this
  have := List.append_inj' this rfl
  rw [this.1]
  exact hc

end Fcsql
