/-
The chosen derivation of single queries, groups and whole queries.
-/
import Verif.Proofs.Best
import Verif.Proofs.Relabel

set_option autoImplicit false
set_option linter.unusedSimpArgs false

namespace Fcsql

/-! ### Quantifiers and patterns -/

theorem optQuant_of_lv {q q' : Option CQuant} (e : quantLv q = quantLv q') : optQuant q = optQuant q' := by
  have key : ∀ q : CQuant, q.forest = (quantLv (some q)).map PTree.leaf := by
    intro q
    cases q with
    | sym t => simp [quantLv_sym, CQuant.forest]
    | exactly lb n rb => simp [quantLv_exactly, CQuant.forest]
    | range lb n c m rb => rw [quantLv_range]; cases n <;> cases m <;> simp [CQuant.forest, optLeaf]
  have ne : ∀ q : CQuant, quantLv (some q) ≠ [] := by
    intro q
    cases q with
    | sym t => simp [quantLv_sym]
    | exactly lb n rb => simp [quantLv_exactly]
    | range lb n c m rb => simp [quantLv_range]
  cases q <;> cases q'
  · rfl
  · rw [quantLv_none] at e; exact absurd e.symm (ne _)
  · rw [quantLv_none] at e; exact absurd e (ne _)
  · simp only [optQuant]
    rw [key, key, e]

theorem regexp_of_lv {r r' : CRegexp} (e : r.lv = r'.lv) : r = r' := by
  rcases r with ⟨p, _ | ⟨s, g⟩⟩ <;> rcases r' with ⟨p', _ | ⟨s', g'⟩⟩ <;>
    simp [CRegexp.lv_none, CRegexp.lv_some] at e ⊢
  · exact e
  · exact e

theorem follow_nil : Follow [] := by simp [Follow]

/-! ### Single queries -/

/-- A bare literal is always chosen. -/
theorem best_implicit {r : CRegexp} {q : Option CQuant} (h : (CQ.implicit r q).WF) : (CQ.implicit r q).Best := by
  refine chosen_of_only (CQ.fits _ h) ?_
  intro t' d' h'
  obtain ⟨c, h1, h2, h3, h4, -⟩ := best_of_chosen (r := .query_simple) (by simp [isQRule]) h'
  have h3 : c.lv = (CQ.implicit r q).lv := h3
  have e3 : t' = c.toTree := by simpa using h4
  subst e3
  obtain ⟨t, ts, e1, hk⟩ := item_head h1 (.inl h2)
  obtain ⟨t0, ts0, e1', hk'⟩ := item_head h (.inl rfl)
  have : t = t0 := by rw [e1, e1'] at h3; simpa using (List.cons.inj h3).1
  subst this
  have ht : t.type = .REGEXP := by
    rcases hk' with ⟨h, -⟩ | ⟨-, _, _, _, _, h⟩ | ⟨-, _, _, _, _, h⟩
    · exact h
    · cases h
    · cases h
  rcases hk with ⟨-, r', q', rfl⟩ | ⟨h, -⟩ | ⟨h, -⟩
  · rw [lv_implicit, lv_implicit] at h3
    have h3' : r'.lv ++ (quantLv q' ++ []) = r.lv ++ (quantLv q ++ []) := by simpa using h3
    have e2 := regexp_split h1.1 h.1 (follow_quant h1.2 follow_nil) (follow_quant h.2 follow_nil) h3'
    rw [e2] at h3
    have e4 := optQuant_of_lv (List.append_cancel_left h3)
    have e5 := regexp_of_lv e2
    subst e5
    simp only [CQ.toTree, e4]
  · simp [h] at ht
  · simp [h] at ht

/-- Optional expression chosen. -/
def bestOpt : Option CExpr → Prop
  | none => True
  | some e => e.Best

theorem exprLv_some (e : CExpr) : exprLv (some e) = e.lv := by simp [exprLv, optExpr, PTree.leavesL, PTree.leaves]

theorem exprLv_none : exprLv none = [] := by simp [exprLv, optExpr, PTree.leavesL]

theorem CExpr.lv_ne (e : CExpr) : e.lv ≠ [] := by
  intro h
  have : ∀ e : CExpr, 0 < e.lv.length := by
    intro e
    apply CExpr.rec (motive_1 := fun e => 0 < e.lv.length) (motive_2 := fun _ => True)
    · intro a op r; simp [CExpr.lv, CExpr.toTree, PTree.leaves, PTree.leavesL]; omega
    · intro lp e rp _; simp [CExpr.lv, CExpr.toTree, PTree.leaves, PTree.leavesL]
    · intro f rest h _
      have h : 0 < f.toTree.leaves.length := h
      simp only [CExpr.lv, CExpr.toTree, PTree.leaves, PTree.leavesL, List.length_append]; omega
    · intro f rest h _
      have h : 0 < f.toTree.leaves.length := h
      simp only [CExpr.lv, CExpr.toTree, PTree.leaves, PTree.leavesL, List.length_append]; omega
    · intro b e _; simp [CExpr.lv, CExpr.toTree, PTree.leaves, PTree.leavesL]
    · trivial
    · intros; trivial
  have := this e
  rw [h] at this
  simp at this

/-- The expression of a chosen segment is chosen. -/
theorem CQ.Best.expr {lb rb : Tok} {e : Option CExpr} {q : Option CQuant} (h : (CQ.segment lb e rb q).Best) : bestOpt e := by
  cases e with
  | none => trivial
  | some e =>
    obtain ⟨d, hd⟩ := h
    have hsub : Subtree (.node .expression [e.toTree]) [(CQ.segment lb (some e) rb q).toTree] := by
      refine .there (r := .query_simple) (ks := .node .query_segment (.leaf lb :: (optExpr (some e) ++ [.leaf rb])) :: optQuant q) ?_
        (.there (r := .query_segment) List.mem_cons_self (.here ?_))
      · simp [CQ.toTree]
      · simp [optExpr]
    obtain ⟨d', h'⟩ := hd.subtree hsub
    refine ⟨d', ?_⟩
    have : e.lv = PTree.leavesL [e.toTree] := by simp [PTree.leavesL]
    rw [this]; exact h'

/-- A segment with a chosen expression is chosen. -/
theorem best_segment {lb rb : Tok} {e : Option CExpr} {q : Option CQuant} (h : (CQ.segment lb e rb q).WF) (he : bestOpt e) :
    (CQ.segment lb e rb q).Best := by
  refine chosen_of_only (CQ.fits _ h) ?_
  intro t' d' h'
  obtain ⟨c, h1, h2, h3, h4, h5⟩ := best_of_chosen (r := .query_simple) (by simp [isQRule]) h'
  have h3 : c.lv = (CQ.segment lb e rb q).lv := h3
  have e3 : t' = c.toTree := by simpa using h4
  subst e3
  obtain ⟨t, ts, e1, hk⟩ := item_head h1 (.inl h2)
  obtain ⟨g1, g2, g3, g4⟩ := h
  rw [lv_segment] at h3
  have ht : t.type = .L_SQUARE_BRACKET := by
    rw [e1] at h3
    rw [(List.cons.inj h3).1, g1]
  rcases hk with ⟨h, -⟩ | ⟨-, lb', e', rb', q', rfl⟩ | ⟨h, -⟩
  · simp [h] at ht
  · obtain ⟨f1, f2, f3, f4⟩ := h1
    rw [lv_segment] at h3
    simp only [List.cons.injEq] at h3
    obtain ⟨rfl, h6⟩ := h3
    have e2 := tight_unique (exprLv_tight f2) (exprLv_tight g2) (.inr (by simp [delta, f3])) (.inr (by simp [delta, g3])) h6
    rw [e2] at h6
    have h7 := List.append_cancel_left h6
    simp only [List.cons.injEq] at h7
    obtain ⟨rfl, h3'⟩ := h7
    have e4 := optQuant_of_lv h3'
    have e5 : optExpr e' = optExpr e := by
      have hb := h5.expr
      cases e' <;> cases e
      · rfl
      · rw [exprLv_none, exprLv_some] at e2; exact absurd e2.symm (CExpr.lv_ne _)
      · rw [exprLv_none, exprLv_some] at e2; exact absurd e2 (CExpr.lv_ne _)
      · rw [exprLv_some, exprLv_some] at e2
        simp only [optExpr, CExpr.Best.eq hb he e2]
    simp only [CQ.toTree, e4, e5]
  · simp [h] at ht

/-! ### Groups -/

theorem content_rule {c c' : CQ} (h : c.WF) (h' : c'.WF) (hr : c.rule = .query_disjunction ∨ c.rule = .query_sequence)
    (hr' : c'.rule = .query_disjunction ∨ c'.rule = .query_sequence) (e : c.lv = c'.lv) : c.rule = c'.rule := by
  rcases hr with hr | hr
  · rw [hr, disj_of_lv h h' hr e]
  · rcases hr' with hr' | hr'
    · rw [hr', disj_of_lv h' h hr' e.symm]
    · rw [hr, hr']

/-- The content of a chosen group is chosen. -/
theorem CQ.Best.content {lp rp : Tok} {c : CQ} {q : Option CQuant} (h : (CQ.group lp c rp q).Best) : c.Best := by
  obtain ⟨d, hd⟩ := h
  obtain ⟨r, ks, e⟩ : ∃ r ks, c.toTree = .node r ks := by cases c <;> exact ⟨_, _, by rfl⟩
  have hr : r = c.rule := by cases c <;> simp [CQ.toTree] at e <;> simp [CQ.rule, e]
  subst hr
  have hsub : Subtree (.node c.rule ks) [(CQ.group lp c rp q).toTree] := by
    refine .there (r := .query_group) (ks := .leaf lp :: c.toTree :: .leaf rp :: optQuant q) ?_ (.here ?_)
    · simp [CQ.toTree]
    · simp [e]
  obtain ⟨c', h'⟩ := hd.subtree hsub
  refine ⟨c', ?_⟩
  have : c.lv = PTree.leavesL ks := by simp [CQ.lv, e, PTree.leaves]
  rw [this, e]
  exact h'

/-- A group with chosen content is chosen. -/
theorem best_group {lp rp : Tok} {c : CQ} {q : Option CQuant} (h : (CQ.group lp c rp q).WF) (hc : c.Best) : (CQ.group lp c rp q).Best := by
  refine chosen_of_only (CQ.fits _ h) ?_
  intro t' d' h'
  obtain ⟨x, h1, h2, h3, h4, h5⟩ := best_of_chosen (r := .query_group) (by simp [isQRule]) h'
  have h3 : x.lv = (CQ.group lp c rp q).lv := h3
  have e3 : t' = x.toTree := by simpa using h4
  subst e3
  cases x with
  | group lp' c' rp' q' =>
    obtain ⟨g1, g2, g3, g4, g5⟩ := h
    obtain ⟨f1, f2, f3, f4, f5⟩ := h1
    rw [lv_group, lv_group] at h3
    simp only [List.cons.injEq] at h3
    obtain ⟨rfl, h6⟩ := h3
    have e2 := tight_unique (c'.tight f2).1 (c.tight g2).1 (.inr (by simp [delta, f4])) (.inr (by simp [delta, g4])) h6
    rw [e2] at h6
    have h7 := List.append_cancel_left h6
    simp only [List.cons.injEq] at h7
    obtain ⟨rfl, h3'⟩ := h7
    have e4 := optQuant_of_lv h3'
    have e5 := CQ.Best.eq h5.content hc (content_rule f2 g2 f3 g3 e2) e2
    simp only [CQ.toTree, e4, e5]
  | _ => simp [CQ.rule] at h2

/-! ### Whole queries -/

/-- The form of a chosen main query: a sequence has more than one item. -/
def CQ.CanonMain (c : CQ) : Prop := ∀ x, c ≠ .seq x .nil

theorem isItem_cases (c : CQ) : c.isItem ∨ c.rule = .query_sequence ∨ c.rule = .query_disjunction := by
  cases c <;> simp [CQ.isItem, CQ.rule]

theorem canonMain_rule {c c' : CQ} (h : c.WF) (h' : c'.WF) (hc : c.CanonMain) (hc' : c'.CanonMain) (e : c.lv = c'.lv) : c.rule = c'.rule := by
  by_cases hd : c.rule = .query_disjunction
  · rw [hd, disj_of_lv h h' hd e]
  by_cases hd' : c'.rule = .query_disjunction
  · rw [hd', disj_of_lv h' h hd' e.symm]
  have it := items_eq h h' hd hd' e
  have key : ∀ {c c' : CQ}, c.WF → c'.WF → c'.CanonMain → c.isItem → c'.rule = .query_sequence →
      c.items.map (fun x => (x.lv, x.rule)) = c'.items.map (fun x => (x.lv, x.rule)) → False := by
    intro c c' h h' hc' hi hr' it
    obtain ⟨f, l, rfl, hl⟩ := seq_cases h' hr'
    rw [items_seq, items_item hi] at it
    simp only [List.map_cons, List.map_nil, List.cons.injEq] at it
    have : l = [] := by simpa using it.2.symm
    subst this
    exact hc' f rfl
  rcases isItem_cases c with hi | hi | hi
  · rcases isItem_cases c' with hi' | hi' | hi'
    · rw [items_item hi, items_item hi'] at it
      simp only [List.map_cons, List.map_nil, List.cons.injEq, Prod.mk.injEq] at it
      exact it.1.2
    · exact (key h h' hc' hi hi' it).elim
    · exact absurd hi' hd'
  · rcases isItem_cases c' with hi' | hi' | hi'
    · exact (key h' h hc hi' hi it.symm).elim
    · rw [hi, hi']
    · exact absurd hi' hd'
  · exact absurd hi hd

theorem main_of_chosen {ts : List Tok} {t : PTree} {d : List Bool} (h : Chosen (.rule .main_query) ts [t] d) :
    ∃ c : CQ, c.WF ∧ c.lv = ts ∧ t = .node .main_query [c.toTree] ∧ c.Best ∧ c.CanonMain := by
  obtain ⟨ks, e, hb⟩ := h.rule_inv
  simp only [List.cons.injEq, and_true] at e
  subst e
  rcases hb.alt_inv with ⟨d', -, h⟩ | ⟨d', -, h, hn⟩
  · obtain ⟨c, h1, h2, h3, rfl, h5⟩ := best_of_chosen (by simp [isQRule]) h
    exact ⟨c, h1, h3, rfl, h5, by rintro x rfl; simp [CQ.rule] at h2⟩
  rcases h.alt_inv with ⟨d', -, h⟩ | ⟨d', -, h, hn'⟩
  · obtain ⟨c, h1, h2, h3, rfl, h5⟩ := best_of_chosen (by simp [isQRule]) h
    exact ⟨c, h1, h3, rfl, h5, by rintro x rfl; simp [CQ.rule] at h2⟩
  rcases h.alt_inv with ⟨d', -, h⟩ | ⟨d', -, h, -⟩
  · obtain ⟨c, h1, h2, h3, rfl, h5⟩ := best_of_chosen (by simp [isQRule]) h
    refine ⟨c, h1, h3, rfl, h5, ?_⟩
    rintro x rfl
    obtain ⟨g1, g2, -⟩ := h1
    obtain ⟨dx, hdx⟩ := D_of_WF g1
    have : x.lv = ts := by rw [← h3]; simpa [itemsLv, seqTail] using (lv_seq x []).symm
    rw [this] at hdx
    rcases g2 with g2 | g2
    · rw [g2] at hdx; exact hn _ _ hdx
    · rw [g2] at hdx; exact hn' _ _ hdx
  · obtain ⟨c, h1, h2, h3, rfl, h5⟩ := best_of_chosen (by simp [isQRule]) h
    exact ⟨c, h1, h3, rfl, h5, by rintro x rfl; simp [CQ.rule] at h2⟩

theorem best_main {c : CQ} (h : c.WF) (hb : c.Best) (hc : c.CanonMain) :
    ∃ d, Chosen (.rule .main_query) c.lv [.node .main_query [c.toTree]] d := by
  have : c.lv = (PTree.node .main_query [c.toTree]).leaves := by simp [PTree.leaves, PTree.leavesL]
  rw [this]
  refine chosen_of_only (CQ.fits_main h) ?_
  intro t' d' h'
  rw [← this] at h'
  obtain ⟨c', h1, h2, rfl, h4, h5⟩ := main_of_chosen h'
  rw [CQ.Best.eq h4 hb (canonMain_rule h1 h h5 hc h2) h2]

/-- Tokens of the `within` part. -/
def withinLv : Option (Tok × Tok) → List Tok
  | none => []
  | some (w, s) => [w, s]

theorem lv_query (q : CQuery) : q.toTree.leaves = q.main.lv ++ (withinLv q.within ++ [q.eof]) := by
  rcases q with ⟨m, _ | ⟨w, s⟩, e⟩ <;>
    simp [CQuery.toTree, PTree.leaves, PTree.leavesL, optWithin, withinLv, CQ.lv]

/-- The main query of a chosen query is chosen. -/
theorem main_best {q : CQuery} {d : List Bool} (h : Chosen (.rule .query) q.toTree.leaves [q.toTree] d) :
    q.main.Best ∧ q.main.CanonMain := by
  have hsub : Subtree (.node .main_query [q.main.toTree]) [q.toTree] := by
    refine .there (r := .query) (ks := .node .main_query [q.main.toTree] :: (optWithin q.within ++ [.leaf q.eof])) ?_ (.here ?_)
    · simp [CQuery.toTree]
    · simp
  obtain ⟨d', h'⟩ := h.subtree hsub
  simp only [PTree.leavesL, List.append_nil] at h'
  obtain ⟨c, h1, h2, h3, h4, h5⟩ := main_of_chosen h'
  have e : q.main.toTree = c.toTree := by simpa using h3
  have hr : q.main.rule = c.rule := by
    have : ∀ c : CQ, ∃ ks, c.toTree = .node c.rule ks := by intro c; cases c <;> exact ⟨_, by rfl⟩
    obtain ⟨k1, e1⟩ := this q.main
    obtain ⟨k2, e2⟩ := this c
    rw [e1, e2] at e
    exact (PTree.node.inj e).1
  refine ⟨?_, ?_⟩
  · obtain ⟨d'', h''⟩ := h4
    exact ⟨d'', by rw [hr, CQ.lv, e]; exact h''⟩
  · intro x hx
    rw [hx] at e hr
    cases c with
    | seq f rest =>
      simp only [CQ.toTree, CQTail.forest, PTree.node.injEq, List.cons.injEq, true_and] at e
      cases rest with
      | nil => exact h5 f rfl
      | cons o c' rest => cases o <;> simp [CQTail.forest, optLeaf] at e
    | _ => simp [CQ.rule] at hr

theorem query_end {q : CQuery} (h : q.WF) : ∃ t ts, withinLv q.within ++ [q.eof] = t :: ts ∧ stopDisj t.type := by
  obtain ⟨h1, h2, h3⟩ := h
  rcases q with ⟨m, _ | ⟨w, s⟩, e⟩
  · exact ⟨e, [], rfl, .inr h3⟩
  · exact ⟨w, [s, e], rfl, .inl (h2 w s rfl).1⟩

/-- A query with a chosen main query is chosen. -/
theorem best_query {q : CQuery} (h : q.WF) (hb : q.main.Best) (hc : q.main.CanonMain) :
    ∃ d, Chosen (.rule .query) q.toTree.leaves [q.toTree] d := by
  refine chosen_of_only (CQuery.fits h) ?_
  intro t' d' h'
  obtain ⟨q', h1, h2, h3⟩ := cst_of_D h'.derives
  have e3 : t' = q'.toTree := by simpa using h2
  subst e3
  rw [← h3] at h'
  obtain ⟨hb', hc'⟩ := main_best h'
  rw [lv_query, lv_query] at h3
  obtain ⟨t, ts, e1, e2⟩ := query_end h
  obtain ⟨t', ts', e1', e2'⟩ := query_end h1
  rw [e1, e1'] at h3
  have e4 := tight_unique (q'.main.tight h1.1).1 (q.main.tight h.1).1 (.inl e2') (.inl e2) h3
  rw [e4] at h3
  have h3 := List.append_cancel_left h3
  rw [← e1, ← e1'] at h3
  have e5 := CQ.Best.eq hb' hb (canonMain_rule h1.1 h.1 hc' hc e4) e4
  rcases q with ⟨m, w, e⟩
  rcases q' with ⟨m', w', e'⟩
  have e6 : w' = w ∧ e' = e := by
    rcases w with _ | ⟨w, s⟩ <;> rcases w' with _ | ⟨w', s'⟩ <;> simp [withinLv] at h3 ⊢
    · exact h3
    · exact ⟨⟨h3.1, h3.2.1⟩, h3.2.2⟩
  obtain ⟨rfl, rfl⟩ := e6
  have e5 : m'.toTree = m.toTree := e5
  simp only [CQuery.toTree, e5]

/-- The syntax of a token list without positions, in terms of its main query. -/
theorem bareSyntax_iff (ts : List Tok) (cst : CQuery) :
    BareSyntax ts cst ↔ cst.WF ∧ cst.main.lv ++ (withinLv cst.within ++ [cst.eof]) = ts ∧ cst.main.Best ∧ cst.main.CanonMain := by
  constructor
  · rintro ⟨h1, rfl, d, h3⟩
    exact ⟨h1, (lv_query cst).symm, main_best h3⟩
  · rintro ⟨h1, rfl, h3, h4⟩
    refine ⟨h1, lv_query cst, ?_⟩
    rw [← lv_query]
    exact best_query h1 h3 h4

end Fcsql
