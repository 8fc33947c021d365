/-
C66: the source text of a node is itself a query, and parses to the node.
-/
import Verif.Proofs.FragmentsExpr

set_option autoImplicit false
set_option linter.unusedSimpArgs false

namespace Fcsql

attribute [local irreducible] parseQuery

theorem subnodes_self (n : Node) : n ∈ n.subnodes := by cases n; simp [Node.subnodes]

/-- What a parsed query comes from, and where the nodes of the query proper are in it. -/
theorem parsed_main {rt : Runtime} {cfg : Config} {q : PyStr} {n : Node} (h : (parseQuery rt cfg q).1 = .ok n) :
    ∃ (cst : CQuery) (n0 : Node), lexErrors q = [] ∧ cst.main.WF ∧ cst.main.Best ∧ cst.main.CanonMain ∧ cst.main.Denotes rt.toPyRuntime cfg n0 ∧
      lexTokens q = cst.main.lv ++ withinLv cst.within ∧
      (∀ w s, cst.within = some (w, s) → w.type = .WITHIN ∧ s.type = .SIMPLE_WITHIN_SCOPE) ∧
      ((cst.within = none ∧ n = n0) ∨ ∃ w s sc, cst.within = some (w, s) ∧ (s.text, sc) ∈ scopeWords ∧
        n = .mk .withWithin [n0, .mk (.within sc) [] (cfg.span [s])] (cfg.span (cst.main.lv ++ [w, s]))) := by
  obtain ⟨hl, cst, ⟨hw, hlv, hch⟩, hd⟩ := (parse_ok rt cfg q n).1 h
  obtain ⟨d, hch⟩ := hch
  rw [← hlv] at hch
  obtain ⟨hb, hcan⟩ := main_best hch
  have ht : lexTokens q = cst.main.lv ++ withinLv cst.within := by
    rw [lv_query, tokenStream] at hlv
    have : (cst.main.lv ++ withinLv cst.within) ++ [cst.eof] = lexTokens q ++ [eofTok q] := by simpa using hlv
    exact (List.append_inj' this rfl).1.symm
  have hd' := hd
  rcases cst with ⟨c, _ | ⟨w, s⟩, eo⟩
  · exact ⟨_, n, hl, hw.1, hb, hcan, hd, ht, hw.2.1, .inl ⟨rfl, rfl⟩⟩
  · obtain ⟨m, sc, h1, h2, rfl⟩ := hd
    exact ⟨_, m, hl, hw.1, hb, hcan, h1, ht, hw.2.1, .inr ⟨w, s, sc, rfl, h2, rfl⟩⟩

theorem mem_main {rt : Runtime} {cfg : Config} {q : PyStr} {n m : Node} (h : (parseQuery rt cfg q).1 = .ok n) (hm : m ∈ n.subnodes)
    (h1 : m.kind ≠ .withWithin) (h2 : ∀ sc, m.kind ≠ .within sc) :
    ∃ (c : CQ) (n0 : Node) (y : List Tok), lexErrors q = [] ∧ c.WF ∧ c.Best ∧ c.Denotes rt.toPyRuntime cfg n0 ∧ lexTokens q = c.lv ++ y ∧ m ∈ n0.subnodes := by
  obtain ⟨cst, n0, hl, hw, hb, -, hd, ht, -, hn⟩ := parsed_main h
  refine ⟨cst.main, n0, _, hl, hw, hb, hd, ht, ?_⟩
  rcases hn with ⟨-, rfl⟩ | ⟨w, s, sc, -, -, rfl⟩
  · exact hm
  · simp [Node.subnodes, Node.subnodesL] at hm
    rcases hm with rfl | hm | rfl
    · exact absurd rfl h1
    · exact hm
    · exact absurd rfl (h2 sc)

/-- **C66.** The source text of a query node inside a parsed query (a segment, group, sequence or alternative) is itself a query, and
parses to that node, moved to the beginning of the text.  (Only a sequence of one item has no text of its own: its text is
that of the item and parses to the item.) -/
theorem C66_fragment_is_query (rt : Runtime) (cfg : Config) (q : PyStr) (n : Node) (h : (parseQuery rt cfg q).1 = .ok n)
    (m : Node) (hm : m ∈ n.subnodes) (hk : m.kind.isQ) (l : Loc) (hl : m.loc = some l) :
    (parseQuery rt cfg (substring q l.start l.stop)).1 = .ok (m.alone.shift (-l.start)) := by
  obtain ⟨c, n0, y, he, hw, hb, hd, ht, hm⟩ := mem_main h hm (by intro e; rw [e] at hk; exact hk) (by intro sc e; rw [e] at hk; exact hk)
  obtain ⟨c', g1, ⟨a, b, e⟩, g3, g4⟩ := CQ.parts c n0 m hw hd hm hk
  rw [CQ.denotes_loc g4] at hl
  obtain ⟨s, t, k1, k2, rfl⟩ := span_some hl
  obtain ⟨f1, f2⟩ := fragment_tokens (x := a) (v := c'.lv) (y := b ++ y) he (by rw [ht, e]; simp) k1 k2
  exact CQ.shifted_parse g1 (hb.sub g3) f1 f2 g4

/-- The text of a whole query from its first to its last token (with `within` clause, if it has one) parses to the same tree, moved to
the beginning: whitespace around a query only moves it. -/
theorem C66_trimmed (rt : Runtime) (cfg : Config) (q : PyStr) (n : Node) (h : (parseQuery rt cfg q).1 = .ok n) (l : Loc) (hl : n.loc = some l) :
    (parseQuery rt cfg (substring q l.start l.stop)).1 = .ok (n.shift (-l.start)) := by
  obtain ⟨cst, n0, he, hw, hb, hcan, hd, ht, hwi, hn⟩ := parsed_main h
  rcases hn with ⟨e, rfl⟩ | ⟨w, s, sc, e, hsc, rfl⟩
  · rw [CQ.denotes_loc hd] at hl
    obtain ⟨s, t, k1, k2, rfl⟩ := span_some hl
    obtain ⟨f1, f2⟩ := fragment_tokens (x := []) (v := cst.main.lv) (y := withinLv cst.within) he (by rw [ht]; simp) k1 k2
    exact parse_main (CQ.WF_map ⟨(keeps_shift _).type⟩ _ hw) (CQ.Best_shift _ hb) (CQ.CanonMain_map hcan) f1
      (by rw [f2, CQ.lv, CQ.toTree_map, PTree.leaves_map]) (CQ.Denotes_shift _ _ _ hd)
  · simp only [Node.loc] at hl
    rw [e, withinLv] at ht
    obtain ⟨ta, tb, k1, k2, rfl⟩ := span_some hl
    obtain ⟨f1, f2⟩ := fragment_tokens (x := []) (v := cst.main.lv ++ [w, s]) (y := []) he (by rw [ht]; simp) k1 k2
    obtain ⟨w1, w2⟩ := hwi w s e
    generalize hk : -ta.start = k at f2 ⊢
    refine (parse_ok rt cfg _ _).2 ⟨f1, ⟨cst.main.map (Tok.shift k), some (w.shift k, s.shift k), eofTok (substring q ta.start (tb.stop + 1))⟩, ?_, ?_⟩
    · have hwf : (CQuery.mk (cst.main.map (Tok.shift k)) (some (w.shift k, s.shift k)) (eofTok (substring q ta.start (tb.stop + 1)))).WF :=
        ⟨CQ.WF_map ⟨(keeps_shift _).type⟩ _ hw, by rintro _ _ ⟨⟩; exact ⟨w1, w2⟩, rfl⟩
      have hlv : (CQuery.mk (cst.main.map (Tok.shift k)) (some (w.shift k, s.shift k)) (eofTok (substring q ta.start (tb.stop + 1)))).toTree.leaves =
          tokenStream (substring q ta.start (tb.stop + 1)) := by
        rw [lv_query, tokenStream, f2, CQ.lv, CQ.toTree_map, PTree.leaves_map]
        simp [withinLv, CQ.lv]
      exact ⟨hwf, hlv, hlv ▸ best_query hwf (CQ.Best_shift _ hb) (CQ.CanonMain_map hcan)⟩
    · refine ⟨n0.shift k, sc, CQ.Denotes_shift _ _ _ hd, hsc, ?_⟩
      have e1 := span_shift cfg k [s]
      have e2 := span_shift cfg k (cst.main.lv ++ [w, s])
      simp only [List.map_append, List.map_cons, List.map_nil] at e1 e2
      simp only [CQ.toTree_map, PTree.leaves_map]
      simp only [CQ.lv] at e2
      rw [e1, e2]
      rfl

theorem CExpr.denotes_loc {rt : PyRuntime} {cfg : Config} {c : CExpr} {n : Node} (h : c.Denotes rt cfg n) : n.loc = cfg.span c.lv := by
  cases c with
  | basic a op r => obtain ⟨o, v, fl, -, -, rfl⟩ := h; rfl
  | group lp e rp => obtain ⟨m, -, rfl⟩ := h; rfl
  | or f t => obtain ⟨m, ms, -, -, rfl⟩ := h; rfl
  | and f t => obtain ⟨m, ms, -, -, rfl⟩ := h; rfl
  | not b e => obtain ⟨m, -, rfl⟩ := h; rfl

theorem slice_length {q : PyStr} {a b : Int} (h0 : 0 ≤ a) (h1 : a ≤ b) (h2 : b ≤ q.length) : ((substring q a b).length : Int) = b - a := by
  obtain ⟨x, rfl⟩ := Int.eq_ofNat_of_zero_le h0
  obtain ⟨y, rfl⟩ := Int.eq_ofNat_of_zero_le (Int.le_trans h0 h1)
  rw [slice_nat (by omega) (by omega)]
  simp only [List.length_drop, List.length_take]
  omega

/-- The text of an expression: it, or it in brackets, is the segment of that expression. -/
theorem seg_fragment {rt : Runtime} {cfg : Config} {q : PyStr} {c : CQ} {m : Node} {x y : List Tok} (he : lexErrors q = [])
    (ht : lexTokens q = x ++ c.lv ++ y) (hw : c.WF) (hs : SegPart rt.toPyRuntime cfg m c)
    (hb : ∀ lb rb qu z e, c = .segment lb (some z) rb qu → EPartOf rt.toPyRuntime cfg m z.lv [z.toTree] e → e.Best)
    {l : Loc} (hl : m.loc = some l) :
    (parseQuery rt cfg (substring q l.start l.stop)).1 =
      .ok (.mk (.segment 1 1) [m.shift (-l.start)] (some ⟨0, (substring q l.start l.stop).length⟩)) ∨
    (parseQuery rt cfg (py!"[" ++ substring q l.start l.stop ++ py!"]")).1 =
      .ok (.mk (.segment 1 1) [m.shift (1 - l.start)] (some ⟨0, (substring q l.start l.stop).length + 2⟩)) := by
  have hen : ∀ {ts : List Tok} {l : Loc}, cfg.span ts = some l → cfg.enableSourceLocations = true := by
    intro ts l h
    by_cases hc : cfg.enableSourceLocations = true
    · exact hc
    · simp [Config.span, hc] at h
  have hlen : ∀ {a b : List Tok} {v : List Tok} {s t : Tok}, lexTokens q = a ++ v ++ b → v.head? = some s → v.getLast? = some t →
      ((substring q s.start (t.stop + 1)).length : Int) = t.stop + 1 - s.start := by
    intro a b v s t e h1 h2
    have m1 : s ∈ lexTokens q := by rw [e]; simp [List.mem_of_mem_head? h1]
    have m2 : t ∈ lexTokens q := by rw [e]; simp [List.mem_of_getLast? h2]
    have b1 := token_bounds m1
    have b2 := token_bounds m2
    have hle : s.start ≤ t.stop + 1 := by
      have hp : v.Pairwise fun a b => a.stop < b.start := by
        have := tokens_pairwise q
        rw [e] at this
        exact (List.pairwise_append.1 (List.pairwise_append.1 this).1).2.1
      cases v with
      | nil => cases h1
      | cons z v =>
        simp only [List.head?_cons, Option.some.injEq] at h1
        subst h1
        rcases List.mem_cons.1 (List.mem_of_getLast? h2) with rfl | h3
        · omega
        · have := (List.pairwise_cons.1 hp).1 t h3
          omega
    exact slice_length b1.1 hle (by omega)
  cases hs with
  | @lit r qu v fl e h hm =>
    left
    subst e hm
    simp only [Node.loc] at hl
    obtain ⟨s, t, k1, k2, rfl⟩ := span_some hl
    have e0 : lexTokens q = x ++ r.lv ++ (quantLv qu ++ y) := by rw [ht, lv_implicit]; simp
    obtain ⟨f1, f2⟩ := fragment_tokens he e0 k1 k2
    have wf : (CQ.implicit r none).WF := ⟨hw.1, by simp [optQuantWF]⟩
    have e1 : (CQ.implicit r none).lv = r.lv := by rw [lv_implicit, quantLv_none, List.append_nil]
    have := CQ.shifted_parse (rt := rt) (cfg := cfg) (q' := substring q s.start (t.stop + 1)) (k := -s.start)
      (m := .mk (.segment 1 1) [.mk (.expression none cfg.defaultIdentifier cfg.defaultOperator v fl) [] (cfg.span r.lv)] (cfg.span r.lv)) wf (best_implicit wf) f1
      (by rw [f2, e1]) ⟨v, fl, 1, 1, h, ⟨rfl, rfl⟩, by rw [← CQ.lv, e1]⟩
    rw [this, hlen e0 k1 k2]
    simp [Node.alone, Node.shift, Node.shiftL, hl, Loc.shift, Int.sub_eq_add_neg]
    omega
  | @wild lb rb qu e hm =>
    left
    subst e hm
    simp only [Node.loc] at hl
    obtain ⟨s, t, k1, k2, rfl⟩ := span_some hl
    have e0 : lexTokens q = x ++ [lb, rb] ++ (quantLv qu ++ y) := by rw [ht, lv_segment, exprLv_none]; simp
    obtain ⟨f1, f2⟩ := fragment_tokens he e0 k1 k2
    have wf : (CQ.segment lb none rb none).WF := ⟨hw.1, by simp, hw.2.2.1, by simp [optQuantWF]⟩
    have e1 : (CQ.segment lb none rb none).lv = [lb, rb] := by rw [lv_segment, quantLv_none, exprLv_none]; rfl
    have := CQ.shifted_parse (rt := rt) (cfg := cfg) (q' := substring q s.start (t.stop + 1)) (k := -s.start)
      (m := .mk (.segment 1 1) [.mk .wildcard [] (cfg.span [lb, rb])] (cfg.span [lb, rb])) wf (best_segment wf trivial) f1
      (by rw [f2, e1]) ⟨_, 1, 1, rfl, ⟨rfl, rfl⟩, by rw [← CQ.lv, e1]⟩
    rw [this, hlen e0 k1 k2]
    simp [Node.alone, Node.shift, Node.shiftL, hl, Loc.shift, Int.sub_eq_add_neg]
    omega
  | @expr lb rb qu z e h hp =>
    right
    subst h
    have hbe := hb lb rb qu z e rfl hp
    obtain ⟨g1, ⟨a, b, eab⟩, -, g4⟩ := hp
    rw [CExpr.denotes_loc g4] at hl
    obtain ⟨s, t, k1, k2, rfl⟩ := span_some hl
    have e0 : lexTokens q = (x ++ lb :: a) ++ e.lv ++ (b ++ rb :: quantLv qu ++ y) := by
      rw [ht, lv_segment, exprLv_some, eab]; simp
    obtain ⟨f1, f2⟩ := fragment_tokens he e0 k1 k2
    have := bracketed_parse (rt := rt) g1 hbe f1 f2 g4 (hen hl)
    rw [this, show -s.start + 1 = 1 - s.start by omega]

/-- **C66.** The source text of a comparison, wildcard, parenthesised expression or disjunction inside a segment, put into brackets, parses to
the segment of just that expression; for an expression written without brackets (a bare literal, or the `[]` of a wildcard), the
text itself does. -/
theorem C66_expression_fragment (rt : Runtime) (cfg : Config) (q : PyStr) (n : Node) (h : (parseQuery rt cfg q).1 = .ok n)
    (m : Node) (hm : m ∈ n.subnodes)
    (hk : (∃ a b c d e, m.kind = .expression a b c d e) ∨ m.kind = .wildcard ∨ m.kind = .group ∨ m.kind = .or)
    (l : Loc) (hl : m.loc = some l) :
    (parseQuery rt cfg (substring q l.start l.stop)).1 =
      .ok (.mk (.segment 1 1) [m.shift (-l.start)] (some ⟨0, (substring q l.start l.stop).length⟩)) ∨
    (parseQuery rt cfg (py!"[" ++ substring q l.start l.stop ++ py!"]")).1 =
      .ok (.mk (.segment 1 1) [m.shift (1 - l.start)] (some ⟨0, (substring q l.start l.stop).length + 2⟩)) := by
  have hk1 : m.kind ≠ .withWithin ∧ (∀ sc, m.kind ≠ .within sc) ∧ ¬ m.kind.isQ := by
    rcases hk with ⟨a, b, c, d, e, hk⟩ | hk | hk | hk <;> simp [hk, Kind.isQ]
  obtain ⟨c, n0, y, he, hw, hb, hd, ht, hm⟩ := mem_main h hm hk1.1 hk1.2.1
  obtain ⟨c', p, k1, k2, k3, ⟨⟨a, b, e⟩, g3, g4⟩, k5⟩ := CQ.segs c n0 m hw hd hm hk1.2.2
  refine seg_fragment (c := c') (x := a) (y := b ++ y) he (by rw [ht, e]; simp) k3 k5 ?_ hl
  rintro lb rb qu z x rfl hx
  have hz : z.Best := (hb.sub g3).expr
  refine best_of_own hx.wf (hz.own hx.sub) ?_
  have hd := hx.den
  cases x with
  | basic a op r => simp [CExpr.rule]
  | group lp e rp => simp [CExpr.rule]
  | or f t => simp [CExpr.rule]
  | and f t => obtain ⟨m, ms, -, -, rfl⟩ := hd; simp [Node.kind] at hk
  | not b e => obtain ⟨m, -, rfl⟩ := hd; simp [Node.kind] at hk

/-- **C66.** The same for any expression that is the whole content of a segment or of parentheses. -/
theorem C66_content_fragment (rt : Runtime) (cfg : Config) (q : PyStr) (n : Node) (h : (parseQuery rt cfg q).1 = .ok n)
    (p : Node) (hp : p ∈ n.subnodes) (hk : p.kind = .group ∨ ∃ a b, p.kind = .segment a b) (m : Node) (hm : p.children = [m])
    (l : Loc) (hl : m.loc = some l) :
    (parseQuery rt cfg (substring q l.start l.stop)).1 =
      .ok (.mk (.segment 1 1) [m.shift (-l.start)] (some ⟨0, (substring q l.start l.stop).length⟩)) ∨
    (parseQuery rt cfg (py!"[" ++ substring q l.start l.stop ++ py!"]")).1 =
      .ok (.mk (.segment 1 1) [m.shift (1 - l.start)] (some ⟨0, (substring q l.start l.stop).length + 2⟩)) := by
  have hk1 : p.kind ≠ .withWithin ∧ (∀ sc, p.kind ≠ .within sc) := by
    rcases hk with hk | ⟨a, b, hk⟩ <;> simp [hk]
  obtain ⟨c, n0, y, he, hw, hb, hd, ht, hp⟩ := mem_main h hp hk1.1 hk1.2
  rcases hk with hk | ⟨mn, mx, hk⟩
  · obtain ⟨c', p', k1, k2, k3, ⟨⟨a, b, e⟩, g3, g4⟩, k5⟩ := CQ.segs c n0 p hw hd hp (by simp [hk, Kind.isQ])
    cases k5 with
    | @lit r qu v fl e1 h1 hm1 => rw [hm1] at hk; simp [Node.kind] at hk
    | @wild lb rb qu e1 hm1 => rw [hm1] at hk; simp [Node.kind] at hk
    | @expr lb rb qu z x h1 hx =>
      subst h1
      have hz : z.Best := (hb.sub g3).expr
      have hown := hz.own hx.sub
      obtain ⟨x1, ⟨u, v, x2⟩, x3, x4⟩ := hx
      cases x with
      | basic a op r => obtain ⟨o, v, fl, -, -, rfl⟩ := x4; simp [Node.kind] at hk
      | or f t => obtain ⟨m, ms, -, -, rfl⟩ := x4; simp [Node.kind] at hk
      | and f t => obtain ⟨m, ms, -, -, rfl⟩ := x4; simp [Node.kind] at hk
      | not b e => obtain ⟨m, -, rfl⟩ := x4; simp [Node.kind] at hk
      | group lp i rp =>
        obtain ⟨m', d1, rfl⟩ := x4
        simp only [Node.children, List.cons.injEq, and_true] at hm
        subst hm
        have hib : i.Best := best_inner (best_of_own x1 hown (by simp [CExpr.rule]))
        right
        rw [CExpr.denotes_loc d1] at hl
        obtain ⟨s, t, k1, k2, rfl⟩ := span_some hl
        have e0 : lexTokens q = (a ++ lb :: u ++ [lp]) ++ i.lv ++ (rp :: v ++ rb :: quantLv qu ++ b ++ y) := by
          rw [ht, e, lv_segment, exprLv_some, x2, CExpr.lv_group]; simp
        obtain ⟨f1, f2⟩ := fragment_tokens he e0 k1 k2
        have hen : cfg.enableSourceLocations = true := by
          by_cases hc : cfg.enableSourceLocations = true
          · exact hc
          · simp [Config.span, hc] at hl
        have := bracketed_parse (rt := rt) x1.2.1 hib f1 f2 d1 hen
        rw [this, show -s.start + 1 = 1 - s.start by omega]
  · obtain ⟨c', k3, ⟨⟨a, b, e⟩, g3, g4⟩⟩ := CQ.parts c n0 p hw hd hp (by simp [hk, Kind.isQ])
    have hb' := hb.sub g3
    cases c' with
    | seq f t => obtain ⟨m', ms, -, -, rfl⟩ := g4; simp [Node.kind] at hk
    | disj f t => obtain ⟨m', ms, -, -, rfl⟩ := g4; simp [Node.kind] at hk
    | group lp c rp qu => obtain ⟨m', mn, mx, -, -, rfl⟩ := g4; simp [Node.kind] at hk
    | implicit r qu =>
      obtain ⟨v, fl, mn', mx', d1, -, rfl⟩ := g4
      simp only [Node.children, List.cons.injEq, and_true] at hm
      exact seg_fragment (c := .implicit r qu) (x := a) (y := b ++ y) he (by rw [ht, e]; simp) k3 (.lit rfl d1 hm.symm) (by simp) hl
    | segment lb z rb qu =>
      obtain ⟨m', mn', mx', d1, -, rfl⟩ := g4
      simp only [Node.children, List.cons.injEq, and_true] at hm
      subst hm
      cases z with
      | none =>
        exact seg_fragment (c := .segment lb none rb qu) (x := a) (y := b ++ y) he (by rw [ht, e]; simp) k3 (.wild rfl d1) (by simp) hl
      | some z =>
        right
        have d1 : z.Denotes rt.toPyRuntime cfg m' := d1
        have hib : z.Best := hb'.expr
        rw [CExpr.denotes_loc d1] at hl
        obtain ⟨s, t, k1, k2, rfl⟩ := span_some hl
        have e0 : lexTokens q = (a ++ [lb]) ++ z.lv ++ (rb :: quantLv qu ++ b ++ y) := by
          rw [ht, e, lv_segment, exprLv_some]; simp
        obtain ⟨f1, f2⟩ := fragment_tokens he e0 k1 k2
        have hen : cfg.enableSourceLocations = true := by
          by_cases hc : cfg.enableSourceLocations = true
          · exact hc
          · simp [Config.span, hc] at hl
        have := bracketed_parse (rt := rt) (k3.2.1 z rfl) hib f1 f2 d1 hen
        rw [this, show -s.start + 1 = 1 - s.start by omega]

/-! ### Cases -/

/-- The comparison `x = '1'` at a place. -/
def cmpAt (x : PyStr) (a b : Int) : Node := .mk (.expression none x .EQUALS py!"1" none) [] (some ⟨a, b⟩)

/-- The parsed tree exists and satisfies `P`. -/
theorem parsed_with {q : PyStr} {P : Node → Bool} (h : (match (parseQuery rt0 locConfig q).1 with | .ok n => P n | .error _ => false) = true) :
    ∃ n, (parseQuery rt0 locConfig q).1 = .ok n ∧ P n = true := by
  cases e : (parseQuery rt0 locConfig q).1 with
  | ok n => rw [e] at h; exact ⟨n, rfl, h⟩
  | error x => rw [e] at h; cases h

/-- The nodes of ` 'a' ([x='1']+|'b') within s ` have their texts, and the theorems above apply to them. -/
example : let q := py!" 'a' ([x='1']+|'b') within s "
    let seg : Node := .mk (.segment 1 (-1)) [cmpAt py!"x" 7 12] (some ⟨6, 14⟩)
    ∃ n, (parseQuery rt0 locConfig q).1 = .ok n ∧ n.loc = some ⟨1, 28⟩ ∧ seg ∈ n.subnodes ∧ cmpAt py!"x" 7 12 ∈ n.subnodes ∧
      substring q 6 14 = py!"[x='1']+" ∧ (parseQuery rt0 locConfig py!"[x='1']+").1 = .ok (seg.shift (-6)) := by
  intro q seg
  obtain ⟨n, h1, h2⟩ := parsed_with (q := q) (P := fun n => decide (n.loc = some ⟨1, 28⟩ ∧ seg ∈ n.subnodes ∧ cmpAt py!"x" 7 12 ∈ n.subnodes))
    (by decide +kernel)
  have h2 := of_decide_eq_true h2
  exact ⟨n, h1, h2.1, h2.2.1, h2.2.2, by decide +kernel, by decide +kernel⟩

/-- **The text of a conjunction or a negation need not parse to it.**  In `[a & !b | c | d]` there is a conjunction of `a` and `!b | c` (see
`C12_negation_swallows`); its text `a & !b | c`, in brackets, is parsed to the disjunction of `a & !b` and `c`.  In
`[!a | b & c | d]` there is a negation of `a | b`; its text `!a | b`, in brackets, is parsed to the disjunction of `!a` and `b`. -/
theorem C66_not_for_and_not :
    (∃ n, (parseQuery rt0 locConfig py!"[a='1'&!b='1'|c='1'|d='1']").1 = .ok n ∧
      .mk .and [cmpAt py!"a" 1 6, .mk .or [.mk .not [cmpAt py!"b" 8 13] (some ⟨7, 13⟩), cmpAt py!"c" 14 19] (some ⟨7, 19⟩)] (some ⟨1, 19⟩) ∈ n.subnodes) ∧
    substring py!"[a='1'&!b='1'|c='1'|d='1']" 1 19 = py!"a='1'&!b='1'|c='1'" ∧
    (parseQuery rt0 locConfig py!"[a='1'&!b='1'|c='1']").1 = .ok (.mk (.segment 1 1) [.mk .or
      [.mk .and [cmpAt py!"a" 1 6, .mk .not [cmpAt py!"b" 8 13] (some ⟨7, 13⟩)] (some ⟨1, 13⟩), cmpAt py!"c" 14 19] (some ⟨1, 19⟩)] (some ⟨0, 20⟩)) ∧
    (∃ n, (parseQuery rt0 locConfig py!"[!a='1'|b='1'&c='1'|d='1']").1 = .ok n ∧
      .mk .not [.mk .or [cmpAt py!"a" 2 7, cmpAt py!"b" 8 13] (some ⟨2, 13⟩)] (some ⟨1, 13⟩) ∈ n.subnodes) ∧
    substring py!"[!a='1'|b='1'&c='1'|d='1']" 1 13 = py!"!a='1'|b='1'" ∧
    (parseQuery rt0 locConfig py!"[!a='1'|b='1']").1 = .ok (.mk (.segment 1 1) [.mk .or
      [.mk .not [cmpAt py!"a" 2 7] (some ⟨1, 7⟩), cmpAt py!"b" 8 13] (some ⟨1, 13⟩)] (some ⟨0, 14⟩)) := by
  refine ⟨?_, by decide +kernel, by decide +kernel, ?_, by decide +kernel, by decide +kernel⟩
  · obtain ⟨n, h1, h2⟩ := parsed_with (P := fun n => decide (Node.mk .and [cmpAt py!"a" 1 6,
      .mk .or [.mk .not [cmpAt py!"b" 8 13] (some ⟨7, 13⟩), cmpAt py!"c" 14 19] (some ⟨7, 19⟩)] (some ⟨1, 19⟩) ∈ n.subnodes))
      (q := py!"[a='1'&!b='1'|c='1'|d='1']") (by decide +kernel)
    exact ⟨n, h1, of_decide_eq_true h2⟩
  · obtain ⟨n, h1, h2⟩ := parsed_with (P := fun n => decide (Node.mk .not [.mk .or [cmpAt py!"a" 2 7, cmpAt py!"b" 8 13] (some ⟨2, 13⟩)] (some ⟨1, 13⟩) ∈ n.subnodes))
      (q := py!"[!a='1'|b='1'&c='1'|d='1']") (by decide +kernel)
    exact ⟨n, h1, of_decide_eq_true h2⟩

end Fcsql
