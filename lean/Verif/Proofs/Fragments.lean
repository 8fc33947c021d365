/-
The parts of a parsed query, with the part of the syntax each of them comes from.
-/
import Verif.Proofs.Shift
import Verif.Proofs.Bracket

set_option autoImplicit false
set_option linter.unusedSimpArgs false

namespace Fcsql

attribute [local irreducible] parseQuery

section
variable {rt : PyRuntime} {cfg : Config}

mutual
theorem CExpr.noQ : ∀ (e : CExpr) (n m : Node), e.Denotes rt cfg n → m ∈ n.subnodes → ¬ m.kind.isQ
  | .basic a op r, n, m, h, hm => by
    obtain ⟨o, v, fl, -, -, rfl⟩ := h
    simp [Node.subnodes, Node.subnodesL] at hm
    subst hm; simp [Node.kind, Kind.isQ]
  | .group lp e rp, n, m, h, hm => by
    obtain ⟨k, h1, rfl⟩ := h
    simp only [Node.subnodes, Node.subnodesL, List.append_nil, List.mem_cons] at hm
    rcases hm with rfl | hm
    · simp [Node.kind, Kind.isQ]
    · exact CExpr.noQ e k m h1 hm
  | .not b e, n, m, h, hm => by
    obtain ⟨k, h1, rfl⟩ := h
    simp only [Node.subnodes, Node.subnodesL, List.append_nil, List.mem_cons] at hm
    rcases hm with rfl | hm
    · simp [Node.kind, Kind.isQ]
    · exact CExpr.noQ e k m h1 hm
  | .or f rest, n, m, h, hm => by
    obtain ⟨k, ks, h1, h2, rfl⟩ := h
    simp only [Node.subnodes, Node.subnodesL, List.mem_cons, List.mem_append] at hm
    rcases hm with rfl | hm | hm
    · simp [Node.kind, Kind.isQ]
    · exact CExpr.noQ f k m h1 hm
    · exact CTail.noQ rest ks m h2 hm
  | .and f rest, n, m, h, hm => by
    obtain ⟨k, ks, h1, h2, rfl⟩ := h
    simp only [Node.subnodes, Node.subnodesL, List.mem_cons, List.mem_append] at hm
    rcases hm with rfl | hm | hm
    · simp [Node.kind, Kind.isQ]
    · exact CExpr.noQ f k m h1 hm
    · exact CTail.noQ rest ks m h2 hm
theorem CTail.noQ : ∀ (t : CTail) (ns : List Node) (m : Node), t.Denotes rt cfg ns → m ∈ Node.subnodesL ns → ¬ m.kind.isQ
  | .nil, ns, m, h, hm => by
    obtain rfl : ns = [] := h
    simp [Node.subnodesL] at hm
  | .cons o e rest, ns, m, h, hm => by
    obtain ⟨k, ks, h1, h2, rfl⟩ := h
    simp only [Node.subnodesL, List.mem_append] at hm
    rcases hm with hm | hm
    · exact CExpr.noQ e k m h1 hm
    · exact CTail.noQ rest ks m h2 hm
end

theorem optDenotes_noQ {lb rb : Tok} {e : Option CExpr} {n m : Node} (h : optDenotes rt cfg lb rb e n) (hm : m ∈ n.subnodes) : ¬ m.kind.isQ := by
  cases e with
  | none =>
    obtain rfl : n = _ := h
    simp [Node.subnodes, Node.subnodesL] at hm
    subst hm; simp [Node.kind, Kind.isQ]
  | some e => exact CExpr.noQ e n m h hm

/-- `c'` is the syntax of `m`, in a stretch of tokens. -/
structure PartOf (rt : PyRuntime) (cfg : Config) (m : Node) (ts : List Tok) (f : List PTree) (c' : CQ) : Prop where
  place : ∃ x y, ts = x ++ c'.lv ++ y
  sub : Subtree c'.toTree f
  den : c'.Denotes rt cfg m

theorem PartOf.lift {m : Node} {ts us x y : List Tok} {f ks : List PTree} {c' : CQ} {r : Rule} (h : PartOf rt cfg m ts ks c')
    (e : us = x ++ ts ++ y) (hf : .node r ks ∈ f) : PartOf rt cfg m us f c' := by
  obtain ⟨⟨a, b, rfl⟩, h2, h3⟩ := h
  exact ⟨⟨x ++ a, b ++ y, by rw [e]; simp⟩, .there hf h2, h3⟩

theorem subtree_left {t : PTree} {f g : List PTree} (h : Subtree t f) : Subtree t (f ++ g) := by
  cases h with
  | here h => exact .here (List.mem_append_left _ h)
  | there h h' => exact .there (List.mem_append_left _ h) h'

theorem subtree_right {t : PTree} {f g : List PTree} (h : Subtree t f) : Subtree t (g ++ f) := by
  cases h with
  | here h => exact .here (List.mem_append_right _ h)
  | there h h' => exact .there (List.mem_append_right _ h) h'

mutual
theorem CQ.parts : ∀ (c : CQ) (n m : Node), c.WF → c.Denotes rt cfg n → m ∈ n.subnodes → m.kind.isQ →
    ∃ c' : CQ, c'.WF ∧ PartOf rt cfg m c.lv [c.toTree] c'
  | .implicit r q, n, m, hw, h, hm, hk => by
    have h0 := h
    obtain ⟨v, fl, mn, mx, -, -, rfl⟩ := h
    simp [Node.subnodes, Node.subnodesL] at hm
    rcases hm with rfl | rfl
    · exact ⟨_, hw, ⟨[], [], by simp⟩, .here (by simp), h0⟩
    · simp [Node.kind, Kind.isQ] at hk
  | .segment lb e rb q, n, m, hw, h, hm, hk => by
    have h0 := h
    obtain ⟨k, mn, mx, h1, -, rfl⟩ := h
    simp only [Node.subnodes, Node.subnodesL, List.append_nil, List.mem_cons] at hm
    rcases hm with rfl | hm
    · exact ⟨_, hw, ⟨[], [], by simp⟩, .here (by simp), h0⟩
    · exact absurd hk (optDenotes_noQ h1 hm)
  | .group lp c rp q, n, m, hw, h, hm, hk => by
    have h0 := h
    obtain ⟨k, mn, mx, h1, -, rfl⟩ := h
    simp only [Node.subnodes, Node.subnodesL, List.append_nil, List.mem_cons] at hm
    rcases hm with rfl | hm
    · exact ⟨_, hw, ⟨[], [], by simp⟩, .here (by simp), h0⟩
    · obtain ⟨c', g1, ⟨a, b, e⟩, g3, g4⟩ := CQ.parts c k m hw.2.1 h1 hm hk
      refine ⟨c', g1, ⟨lp :: a, b ++ (rp :: PTree.leavesL (optQuant q)), ?_⟩, .there (r := .query_group) (ks := .leaf lp :: c.toTree :: .leaf rp :: optQuant q) (by simp [CQ.toTree]) ?_, g4⟩
      · simp only [CQ.lv] at e
        simp [CQ.lv, CQ.toTree, PTree.leaves, PTree.leavesL, e]
      · exact subtree_right (f := c.toTree :: _) (g := [PTree.leaf lp]) (subtree_left (f := [c.toTree]) g3)
  | .seq f rest, n, m, hw, h, hm, hk => by
    have h0 := h
    obtain ⟨k, ks, h1, h2, rfl⟩ := h
    simp only [Node.subnodes, Node.subnodesL, List.mem_cons, List.mem_append] at hm
    rcases hm with rfl | hm | hm
    · exact ⟨_, hw, ⟨[], [], by simp⟩, .here (by simp), h0⟩
    · obtain ⟨c', g1, ⟨a, b, e⟩, g3, g4⟩ := CQ.parts f k m hw.1 h1 hm hk
      refine ⟨c', g1, ⟨a, b ++ PTree.leavesL rest.forest, ?_⟩, .there (r := .query_sequence) (ks := f.toTree :: rest.forest) (by simp [CQ.toTree]) (subtree_left (f := [f.toTree]) g3), g4⟩
      simp only [CQ.lv] at e
      simp [CQ.lv, CQ.toTree, PTree.leaves, PTree.leavesL, e]
    · obtain ⟨c', g1, ⟨a, b, e⟩, g3, g4⟩ := CQTail.parts rest ks m (.inl hw.2.2) h2 hm hk
      refine ⟨c', g1, ⟨f.lv ++ a, b, ?_⟩, .there (r := .query_sequence) (ks := f.toTree :: rest.forest) (by simp [CQ.toTree]) (subtree_right (g := [f.toTree]) g3), g4⟩
      simp [CQ.lv, CQ.toTree, PTree.leaves, PTree.leavesL, e]
  | .disj f rest, n, m, hw, h, hm, hk => by
    have h0 := h
    obtain ⟨k, ks, h1, h2, rfl⟩ := h
    simp only [Node.subnodes, Node.subnodesL, List.mem_cons, List.mem_append] at hm
    rcases hm with rfl | hm | hm
    · exact ⟨_, hw, ⟨[], [], by simp⟩, .here (by simp), h0⟩
    · obtain ⟨c', g1, ⟨a, b, e⟩, g3, g4⟩ := CQ.parts f k m hw.1 h1 hm hk
      refine ⟨c', g1, ⟨a, b ++ PTree.leavesL rest.forest, ?_⟩, .there (r := .query_disjunction) (ks := f.toTree :: rest.forest) (by simp [CQ.toTree]) (subtree_left (f := [f.toTree]) g3), g4⟩
      simp only [CQ.lv] at e
      simp [CQ.lv, CQ.toTree, PTree.leaves, PTree.leavesL, e]
    · obtain ⟨c', g1, ⟨a, b, e⟩, g3, g4⟩ := CQTail.parts rest ks m (.inr hw.2.2.2) h2 hm hk
      refine ⟨c', g1, ⟨f.lv ++ a, b, ?_⟩, .there (r := .query_disjunction) (ks := f.toTree :: rest.forest) (by simp [CQ.toTree]) (subtree_right (g := [f.toTree]) g3), g4⟩
      simp [CQ.lv, CQ.toTree, PTree.leaves, PTree.leavesL, e]
theorem CQTail.parts : ∀ (t : CQTail) (ns : List Node) (m : Node), t.WFseq ∨ t.WFdisj → t.Denotes rt cfg ns → m ∈ Node.subnodesL ns → m.kind.isQ →
    ∃ c' : CQ, c'.WF ∧ PartOf rt cfg m (PTree.leavesL t.forest) t.forest c'
  | .nil, ns, m, hw, h, hm, hk => by
    obtain rfl : ns = [] := h
    simp [Node.subnodesL] at hm
  | .cons o c rest, ns, m, hw, h, hm, hk => by
    obtain ⟨k, ks, h1, h2, rfl⟩ := h
    have hwc : c.WF := by rcases hw with hw | hw <;> exact hw.2.1
    have hwr : rest.WFseq ∨ rest.WFdisj := by
      rcases hw with hw | hw
      · exact .inl hw.2.2.2
      · exact .inr hw.2.2.2
    simp only [Node.subnodesL, List.mem_append] at hm
    rcases hm with hm | hm
    · obtain ⟨c', g1, ⟨a, b, e⟩, g3, g4⟩ := CQ.parts c k m hwc h1 hm hk
      refine ⟨c', g1, ⟨PTree.leavesL (optLeaf o) ++ a, b ++ PTree.leavesL rest.forest, ?_⟩, ?_, g4⟩
      · simp only [CQ.lv] at e
        cases o <;> simp [CQTail.forest, PTree.leavesL, PTree.leaves, optLeaf, e]
      · simp only [CQTail.forest]
        exact subtree_right (subtree_left (f := [c.toTree]) g3)
    · obtain ⟨c', g1, ⟨a, b, e⟩, g3, g4⟩ := CQTail.parts rest ks m hwr h2 hm hk
      refine ⟨c', g1, ⟨PTree.leavesL (optLeaf o) ++ c.lv ++ a, b, ?_⟩, ?_, g4⟩
      · cases o <;> simp [CQTail.forest, PTree.leavesL, PTree.leaves, optLeaf, e, CQ.lv]
      · simp only [CQTail.forest]
        exact subtree_right (subtree_right (f := rest.forest) (g := [c.toTree]) g3)
end

/-- Parts of a chosen query are chosen. -/
theorem CQ.Best.sub {c c' : CQ} (h : c.Best) (hs : Subtree c'.toTree [c.toTree]) : c'.Best := by
  obtain ⟨d, hd⟩ := h
  obtain ⟨ks, e⟩ : ∃ ks, c'.toTree = .node c'.rule ks := by cases c' <;> exact ⟨_, by rfl⟩
  rw [e] at hs
  obtain ⟨d', h'⟩ := hd.subtree hs
  refine ⟨d', ?_⟩
  have : c'.lv = PTree.leavesL ks := by simp [CQ.lv, e, PTree.leaves]
  rw [this, e]
  exact h'

theorem CQ.denotes_loc {c : CQ} {n : Node} (h : c.Denotes rt cfg n) : n.loc = cfg.span c.lv := by
  cases c with
  | implicit r q => obtain ⟨v, fl, mn, mx, -, -, rfl⟩ := h; rfl
  | segment lb e rb q => obtain ⟨m, mn, mx, -, -, rfl⟩ := h; rfl
  | group lp c rp q => obtain ⟨m, mn, mx, -, -, rfl⟩ := h; rfl
  | seq f rest => obtain ⟨m, ms, -, -, rfl⟩ := h; rfl
  | disj f rest => obtain ⟨m, ms, -, -, rfl⟩ := h; rfl

theorem span_some {ts : List Tok} {l : Loc} (h : cfg.span ts = some l) :
    ∃ a b, ts.head? = some a ∧ ts.getLast? = some b ∧ l = ⟨a.start, b.stop + 1⟩ := by
  simp only [Config.span] at h
  split at h
  · cases ha : ts.head? with
    | none => simp [ha] at h
    | some a =>
      cases hb : ts.getLast? with
      | none => simp [ha, hb] at h
      | some b =>
        simp [ha, hb] at h
        exact ⟨a, b, rfl, rfl, h.symm⟩
  · cases h

end

theorem CQ.shifted_parse {rt : Runtime} {cfg : Config} {q' : PyStr} {m : Node} {c : CQ} {k : Int} (hw : c.WF) (hb : c.Best)
    (hl : lexErrors q' = []) (hlv : lexTokens q' = c.lv.map (Tok.shift k)) (hd : c.Denotes rt.toPyRuntime cfg m) :
    (parseQuery rt cfg q').1 = .ok (m.alone.shift k) := by
  by_cases hc : c.CanonMain
  · have e : m.alone = m := by
      cases c with
      | seq f rest =>
        cases rest with
        | nil => exact absurd rfl (hc f)
        | cons o c' rest =>
          obtain ⟨a, b, h1, ⟨x, y, h2, h3, rfl⟩, rfl⟩ := hd
          rfl
      | implicit r q => obtain ⟨v, fl, mn, mx, -, -, rfl⟩ := hd; rfl
      | segment lb e rb q => obtain ⟨m, mn, mx, -, -, rfl⟩ := hd; rfl
      | group lp c rp q => obtain ⟨m, mn, mx, -, -, rfl⟩ := hd; rfl
      | disj f rest => obtain ⟨m, ms, -, -, rfl⟩ := hd; rfl
    rw [e]
    exact parse_main (CQ.WF_map (keeps_shift k) _ hw) (CQ.Best_shift k hb) (CQ.CanonMain_map hc) hl
      (by rw [hlv, CQ.lv, CQ.toTree_map, PTree.leaves_map]) (CQ.Denotes_shift k c m hd)
  · obtain ⟨x, rfl⟩ : ∃ x, c = .seq x .nil := by
      simpa [CQ.CanonMain] using hc
    obtain ⟨a, b, h1, h2, rfl⟩ := hd
    obtain rfl : b = [] := h2
    have hx : x.Best := CQ.Best.items (l := []) hb x (by simp)
    have hcx : x.CanonMain := by
      intro y e
      obtain ⟨-, hr, -⟩ := hw
      rw [e] at hr; simp [CQ.rule] at hr
    have elv : (CQ.seq x .nil).lv = x.lv := by simp [CQ.lv, CQ.toTree, CQTail.forest, PTree.leaves, PTree.leavesL]
    exact parse_main (CQ.WF_map (keeps_shift k) _ hw.1) (CQ.Best_shift k hx) (CQ.CanonMain_map hcx) hl
      (by rw [hlv, elv, CQ.lv, CQ.toTree_map, PTree.leaves_map]) (CQ.Denotes_shift k x a h1)

end Fcsql
