/-
The chosen derivation of a query, part by part.
-/
import Verif.Proofs.Compose

set_option autoImplicit false
set_option linter.unusedSimpArgs false

namespace Fcsql

/-! ### Inversion of chosen derivations -/

theorem Chosen.rule_inv {r : Rule} {ts : List Tok} {f : List PTree} {c : List Bool} (h : Chosen (.rule r) ts f c) :
    ∃ ks, f = [.node r ks] ∧ Chosen (body r) ts ks c := by
  obtain ⟨ks, hd, rfl⟩ := D_rule.1 h.derives
  exact ⟨ks, rfl, Chosen.part (p := []) (z := []) hd (by simpa using h) fun f' c' h' => ⟨_, by simpa using D.rule h'⟩⟩

theorem Chosen.seq_inv {a b : G} {ts : List Tok} {f : List PTree} {c : List Bool} (h : Chosen (.seq a b) ts f c) :
    ∃ ta tb fa fb ca cb, ts = ta ++ tb ∧ f = fa ++ fb ∧ c = ca ++ cb ∧ Chosen a ta fa ca ∧ Chosen b tb fb cb := by
  obtain ⟨ta, tb, fa, fb, ca, cb, rfl, rfl, rfl, ha, hb⟩ := D_seq.1 h.derives
  refine ⟨ta, tb, fa, fb, ca, cb, rfl, rfl, rfl, ?_, ?_⟩
  · exact Chosen.part (p := []) (z := cb) ha (by simpa using h) fun f'' c'' h' => ⟨_, by simpa using D.seq h' hb⟩
  · exact Chosen.part (p := ca) (z := []) hb (by simpa using h) fun f'' c'' h' => ⟨_, by simpa using D.seq ha h'⟩

theorem Chosen.alt_inv {a b : G} {ts : List Tok} {f : List PTree} {c : List Bool} (h : Chosen (.alt a b) ts f c) :
    (∃ c', c = false :: c' ∧ Chosen a ts f c') ∨ (∃ c', c = true :: c' ∧ Chosen b ts f c' ∧ ∀ f' c'', ¬ D a ts f' c'') := by
  rcases D_alt.1 h.derives with ⟨c', rfl, hd⟩ | ⟨c', rfl, hd⟩
  · exact .inl ⟨c', rfl, Chosen.part (p := [false]) (z := []) hd (by simpa using h) fun f'' c'' h' => ⟨_, by simpa using D.altL h'⟩⟩
  · refine .inr ⟨c', rfl, Chosen.part (p := [true]) (z := []) hd (by simpa using h) fun f'' c'' h' => ⟨_, by simpa using D.altR h'⟩, ?_⟩
    intro f' c'' h'
    exact h.not_after (D.altL h') before_false_true

theorem Chosen.star_inv {a : G} {ts : List Tok} {f : List PTree} {c : List Bool} (h : Chosen (.star a) ts f c) :
    ∃ l : List (List Tok × List PTree), ts = l.flatMap Prod.fst ∧ f = l.flatMap Prod.snd ∧
      ∀ p ∈ l, ∃ c, Chosen a p.1 p.2 c := by
  have hd := h.derives
  generalize hg : G.star a = g at hd h
  induction hd with
  | starNil => exact ⟨[], rfl, rfl, by simp⟩
  | @starCons a' ts ts' f f' c c' ha hb iha ihb =>
    cases hg
    have h1 : Chosen a ts f c :=
      Chosen.part (p := [false]) (z := c') ha (by simpa using h) fun f'' c'' h' => ⟨_, by simpa using D.starCons h' hb⟩
    have h2 : Chosen (.star a) ts' f' c' :=
      Chosen.part (p := false :: c) (z := []) hb (by simpa using h) fun f'' c'' h' => ⟨_, by simpa using D.starCons ha h'⟩
    obtain ⟨l, e1, e2, h3⟩ := ihb rfl h2
    refine ⟨(ts, f) :: l, by simp [e1], by simp [e2], ?_⟩
    intro p hp
    rcases List.mem_cons.1 hp with rfl | hp
    · exact ⟨c, h1⟩
    · exact h3 p hp
  | eps => cases hg
  | tok _ => cases hg
  | rule _ => cases hg
  | seq _ _ => cases hg
  | altL _ => cases hg
  | altR _ => cases hg

theorem Chosen.tok_inv {t : TokType} {ts : List Tok} {f : List PTree} {c : List Bool} (h : Chosen (.tok t) ts f c) :
    ∃ x : Tok, x.type = t ∧ ts = [x] ∧ f = [.leaf x] := by
  obtain ⟨x, h1, h2, h3, -⟩ := D_tok.1 h.derives
  exact ⟨x, h1, h2, h3⟩

theorem Chosen.eps_inv {ts : List Tok} {f : List PTree} {c : List Bool} (h : Chosen .eps ts f c) : ts = [] ∧ f = [] := by
  obtain ⟨h1, h2, -⟩ := D_eps.1 h.derives
  exact ⟨h1, h2⟩

/-! ### Chosen constructs -/

/-- The tree of the construct is the chosen one for its tokens, for its rule. -/
def CQ.Best (c : CQ) : Prop := ∃ d, Chosen (.rule c.rule) c.lv [c.toTree] d

/-- The same for expressions (any expression rule). -/
def CExpr.Best (e : CExpr) : Prop := ∃ d, Chosen (.rule .expression) e.lv [.node .expression [e.toTree]] d

theorem CQ.Best.eq {c c' : CQ} (h : c.Best) (h' : c'.Best) (hr : c.rule = c'.rule) (hl : c.lv = c'.lv) : c.toTree = c'.toTree := by
  obtain ⟨d, h⟩ := h
  obtain ⟨d', h'⟩ := h'
  rw [hr, hl] at h
  simpa using (h.unique h').1

theorem CExpr.Best.eq {c c' : CExpr} (h : c.Best) (h' : c'.Best) (hl : c.lv = c'.lv) : c.toTree = c'.toTree := by
  obtain ⟨d, h⟩ := h
  obtain ⟨d', h'⟩ := h'
  rw [hl] at h
  simpa using (h.unique h').1

/-- Rules of queries. -/
def isQRule (r : Rule) : Prop := r = .query_simple ∨ r = .query_group ∨ r = .query_sequence ∨ r = .query_disjunction

/-- A chosen derivation of a query rule is the tree of a construct. -/
theorem best_of_chosen {r : Rule} (hr : isQRule r) {ts : List Tok} {f : List PTree} {d : List Bool} (h : Chosen (.rule r) ts f d) :
    ∃ c : CQ, c.WF ∧ c.rule = r ∧ c.lv = ts ∧ f = [c.toTree] ∧ c.Best := by
  obtain ⟨c, h1, h2, rfl⟩ := good_opQ (good_of_D h.derives) hr
  have hl : c.lv = ts := by
    have := leavesL_of_D h.derives
    simpa [PTree.leavesL] using this
  refine ⟨c, h1, h2, hl, rfl, d, ?_⟩
  rw [h2, hl]; exact h

theorem D_of_WF {c : CQ} (h : c.WF) : ∃ d, D (.rule c.rule) c.lv [c.toTree] d := by
  obtain ⟨d, hd⟩ := D_of_fits (c.fits h)
  exact ⟨d, by simpa [PTree.leavesL] using hd⟩

/-! ### Lists of items and operands -/

def seqTail : List CQ → CQTail
  | [] => .nil
  | c :: l => .cons none c (seqTail l)

def disjTail : List (Tok × CQ) → CQTail
  | [] => .nil
  | (o, c) :: l => .cons (some o) c (disjTail l)

theorem seqTail_of_WF : ∀ t : CQTail, t.WFseq → ∃ l, t = seqTail l ∧ ∀ c ∈ l, c.WF ∧ c.isItem
  | .nil, _ => ⟨[], rfl, by simp⟩
  | .cons sep c rest, h => by
    obtain ⟨rfl, g2, g3, g4⟩ := h
    obtain ⟨l, rfl, hl⟩ := seqTail_of_WF rest g4
    refine ⟨c :: l, rfl, ?_⟩
    intro x hx
    rcases List.mem_cons.1 hx with rfl | hx
    · exact ⟨g2, g3⟩
    · exact hl x hx

theorem seqTail_WF {l : List CQ} (h : ∀ c ∈ l, c.WF ∧ c.isItem) : (seqTail l).WFseq := by
  induction l with
  | nil => trivial
  | cons c l ih => exact ⟨rfl, (h c (by simp)).1, (h c (by simp)).2, ih fun x hx => h x (by simp [hx])⟩

theorem disjTail_of_WF : ∀ t : CQTail, t.WFdisj → ∃ l, t = disjTail l ∧ ∀ p ∈ l, p.1.type = .OR ∧ p.2.WF ∧ p.2.rule ≠ .query_disjunction
  | .nil, _ => ⟨[], rfl, by simp⟩
  | .cons sep c rest, h => by
    obtain ⟨⟨o, rfl, ho⟩, g2, g3, g4⟩ := h
    obtain ⟨l, rfl, hl⟩ := disjTail_of_WF rest g4
    refine ⟨(o, c) :: l, rfl, ?_⟩
    intro x hx
    rcases List.mem_cons.1 hx with rfl | hx
    · exact ⟨ho, g2, g3⟩
    · exact hl x hx

theorem disjTail_WF {l : List (Tok × CQ)} (h : ∀ p ∈ l, p.1.type = .OR ∧ p.2.WF ∧ p.2.rule ≠ .query_disjunction) :
    (disjTail l).WFdisj := by
  induction l with
  | nil => trivial
  | cons c l ih =>
    have := h c (by simp)
    exact ⟨⟨_, rfl, this.1⟩, this.2.1, this.2.2, ih fun x hx => h x (by simp [hx])⟩

theorem seqTail_forest (l : List CQ) : (seqTail l).forest = l.map CQ.toTree := by
  induction l with
  | nil => rfl
  | cons c l ih => simp [seqTail, CQTail.forest, optLeaf, ih]

theorem disjTail_forest (l : List (Tok × CQ)) : (disjTail l).forest = l.flatMap fun p => [.leaf p.1, p.2.toTree] := by
  induction l with
  | nil => rfl
  | cons c l ih => simp [disjTail, CQTail.forest, optLeaf, ih]

theorem leavesL_map_toTree (l : List CQ) : PTree.leavesL (l.map CQ.toTree) = itemsLv l := by
  induction l with
  | nil => rfl
  | cons c l ih => simp [PTree.leavesL, itemsLv, ih, CQ.lv] at *

theorem lv_seq (f : CQ) (l : List CQ) : (CQ.seq f (seqTail l)).lv = itemsLv (f :: l) := by
  rw [← leavesL_map_toTree]
  simp [CQ.lv, CQ.toTree, PTree.leaves, PTree.leavesL, seqTail_forest]

/-- Tokens of the operands after the first. -/
def opsLv (l : List (Tok × CQ)) : List Tok := l.flatMap fun p => p.1 :: p.2.lv

theorem lv_disj (f : CQ) (l : List (Tok × CQ)) : (CQ.disj f (disjTail l)).lv = f.lv ++ opsLv l := by
  have : ∀ l : List (Tok × CQ), PTree.leavesL (l.flatMap fun p => [.leaf p.1, p.2.toTree]) = opsLv l := by
    intro l
    induction l with
    | nil => rfl
    | cons c l ih => simp [PTree.leavesL, PTree.leaves, opsLv, ih, CQ.lv, leavesL_append] at *
  simp [CQ.lv, CQ.toTree, PTree.leaves, PTree.leavesL, disjTail_forest, this]

theorem seq_cases {c : CQ} (h : c.WF) (hr : c.rule = .query_sequence) : ∃ f l, c = .seq f (seqTail l) ∧ ∀ x ∈ f :: l, x.WF ∧ x.isItem := by
  cases c with
  | seq f rest =>
    obtain ⟨h1, h2, h3⟩ := h
    obtain ⟨l, rfl, hl⟩ := seqTail_of_WF rest h3
    refine ⟨f, l, rfl, ?_⟩
    intro x hx
    rcases List.mem_cons.1 hx with rfl | hx
    · exact ⟨h1, h2⟩
    · exact hl x hx
  | _ => simp [CQ.rule] at hr

theorem disj_cases {c : CQ} (h : c.WF) (hr : c.rule = .query_disjunction) : ∃ f p l, c = .disj f (disjTail (p :: l)) ∧
    f.WF ∧ f.rule ≠ .query_disjunction ∧ ∀ p' ∈ p :: l, p'.1.type = .OR ∧ p'.2.WF ∧ p'.2.rule ≠ .query_disjunction := by
  cases c with
  | disj f rest =>
    obtain ⟨h1, h2, h3, h4⟩ := h
    obtain ⟨l, rfl, hl⟩ := disjTail_of_WF rest h4
    cases l with
    | nil => exact absurd rfl h3
    | cons p l => exact ⟨f, p, l, rfl, h1, h2, hl⟩
  | _ => simp [CQ.rule] at hr

theorem seq_WF {f : CQ} {l : List CQ} (h : ∀ x ∈ f :: l, x.WF ∧ x.isItem) : (CQ.seq f (seqTail l)).WF :=
  ⟨(h f (by simp)).1, (h f (by simp)).2, seqTail_WF fun x hx => h x (by simp [hx])⟩

theorem disj_WF {f : CQ} {p : Tok × CQ} {l : List (Tok × CQ)} (h : f.WF) (hr : f.rule ≠ .query_disjunction)
    (hl : ∀ p' ∈ p :: l, p'.1.type = .OR ∧ p'.2.WF ∧ p'.2.rule ≠ .query_disjunction) : (CQ.disj f (disjTail (p :: l))).WF :=
  ⟨h, hr, by simp [disjTail], disjTail_WF hl⟩

/-- The items of a query that is no disjunction. -/
def CQ.items : CQ → List CQ
  | .seq f rest => f :: go rest
  | c => [c]
where
  go : CQTail → List CQ
    | .nil => []
    | .cons _ c rest => c :: go rest

theorem items_seq (f : CQ) (l : List CQ) : (CQ.seq f (seqTail l)).items = f :: l := by
  have : ∀ l, CQ.items.go (seqTail l) = l := by
    intro l
    induction l with
    | nil => rfl
    | cons c l ih => simp [seqTail, CQ.items.go, ih]
  simp [CQ.items, this]

theorem items_item {c : CQ} (h : c.isItem) : c.items = [c] := by
  cases c <;> simp [CQ.isItem, CQ.rule] at h <;> rfl

theorem items_good {c : CQ} (h : c.WF) (hr : c.rule ≠ .query_disjunction) : c.lv = itemsLv c.items ∧ ∀ x ∈ c.items, x.WF ∧ x.isItem := by
  by_cases hs : c.rule = .query_sequence
  · obtain ⟨f, l, rfl, hl⟩ := seq_cases h hs
    rw [items_seq, lv_seq]
    exact ⟨rfl, hl⟩
  · have hi : c.isItem := by
      revert hr hs; cases c <;> simp [CQ.isItem, CQ.rule]
    rw [items_item hi]
    exact ⟨by simp [itemsLv], by simpa using ⟨h, hi⟩⟩

theorem seqEnd_nil : SeqEnd [] := by simp [SeqEnd]

theorem items_eq {c c' : CQ} (h : c.WF) (h' : c'.WF) (hr : c.rule ≠ .query_disjunction) (hr' : c'.rule ≠ .query_disjunction)
    (e : c.lv = c'.lv) : c.items.map (fun x => (x.lv, x.rule)) = c'.items.map (fun x => (x.lv, x.rule)) := by
  obtain ⟨h1, h2⟩ := items_good h hr
  obtain ⟨h1', h2'⟩ := items_good h' hr'
  refine items_split h2 h2' seqEnd_nil seqEnd_nil ?_
  rw [← h1, ← h1', e]

/-- Whether it is a disjunction is determined by the tokens. -/
theorem disj_of_lv {c c' : CQ} (h : c.WF) (h' : c'.WF) (hr : c.rule = .query_disjunction) (e : c.lv = c'.lv) :
    c'.rule = .query_disjunction := by
  by_cases hr' : c'.rule = .query_disjunction
  · exact hr'
  · obtain ⟨f, p, l, rfl, h1, h2, h3⟩ := disj_cases h hr
    rw [lv_disj] at e
    refine (tight_stop (stop := stopSeq) ((f.tight h1).2 h2) ((c'.tight h').2 hr') (t := p.1) (r := p.2.lv ++ opsLv l)
      (.inl (.inl (h3 p (by simp)).1)) ?_).elim
    rw [← e]
    simp [opsLv]

/-! ### Sequences -/

theorem map_toTree_eq : ∀ {l l' : List CQ}, (∀ x ∈ l, x.Best) → (∀ x ∈ l', x.Best) →
    l.map (fun x => (x.lv, x.rule)) = l'.map (fun x => (x.lv, x.rule)) → l.map CQ.toTree = l'.map CQ.toTree
  | [], [], _, _, _ => rfl
  | [], _ :: _, _, _, e => by simp at e
  | _ :: _, [], _, _, e => by simp at e
  | c :: l, c' :: l', h, h', e => by
    simp only [List.map_cons, List.cons.injEq, Prod.mk.injEq] at e
    simp only [List.map_cons]
    rw [CQ.Best.eq (h c (by simp)) (h' c' (by simp)) e.1.2 e.1.1,
      map_toTree_eq (fun x hx => h x (by simp [hx])) (fun x hx => h' x (by simp [hx])) e.2]

/-- The items of a chosen sequence are chosen. -/
theorem CQ.Best.items {f : CQ} {l : List CQ} (hb : (CQ.seq f (seqTail l)).Best) : ∀ x ∈ f :: l, x.Best := by
  obtain ⟨d, hd⟩ := hb
  intro x hx
  obtain ⟨r, ks, e⟩ : ∃ r ks, x.toTree = .node r ks := by cases x <;> exact ⟨_, _, by rfl⟩
  have hr : r = x.rule := by cases x <;> simp [CQ.toTree] at e <;> simp [CQ.rule, e]
  subst hr
  have hsub : Subtree (.node x.rule ks) [(CQ.seq f (seqTail l)).toTree] := by
    refine .there (r := .query_sequence) (ks := (f :: l).map CQ.toTree) ?_ (.here ?_)
    · simp [CQ.toTree, seqTail_forest]
    · rw [← e]; exact List.mem_map_of_mem hx
  obtain ⟨c', h'⟩ := hd.subtree hsub
  refine ⟨c', ?_⟩
  have : x.lv = PTree.leavesL ks := by simp [CQ.lv, e, PTree.leaves]
  rw [this, e]
  exact h'

/-- A sequence of chosen items is chosen. -/
theorem best_seq {f : CQ} {l : List CQ} (h : ∀ x ∈ f :: l, x.WF ∧ x.isItem) (hb : ∀ x ∈ f :: l, x.Best) :
    (CQ.seq f (seqTail l)).Best := by
  refine chosen_of_only (CQ.fits _ (seq_WF h)) ?_
  intro t' d' h'
  obtain ⟨c, h1, h2, h3, h4, h5⟩ := best_of_chosen (r := .query_sequence) (by simp [isQRule]) h'
  obtain ⟨f', l', rfl, hl'⟩ := seq_cases h1 h2
  have e := items_eq h1 (seq_WF h) (by simp [CQ.rule]) (by simp [CQ.rule]) h3
  rw [items_seq, items_seq] at e
  have e2 := map_toTree_eq h5.items hb e
  have e3 : t' = (CQ.seq f' (seqTail l')).toTree := by simpa using h4
  rw [e3]
  simp only [CQ.toTree, seqTail_forest]
  rw [← List.map_cons, ← List.map_cons, e2]

/-! ### Disjunctions -/

/-- The form of an operand of a chosen disjunction: a single query, or a sequence that is not just a single query. -/
def CQ.CanonOp (c : CQ) : Prop :=
  c.rule = .query_simple ∨ (c.rule = .query_sequence ∧ ∀ x, c = .seq x .nil → x.rule ≠ .query_simple)

theorem canonOp_of_chosen {ts : List Tok} {f : List PTree} {d : List Bool}
    (h : Chosen (G.alts [.rule .query_simple, .rule .query_sequence, .rule .query_group]) ts f d) :
    ∃ c : CQ, c.WF ∧ c.lv = ts ∧ f = [c.toTree] ∧ c.Best ∧ c.CanonOp := by
  rcases h.alt_inv with ⟨d', -, h⟩ | ⟨d', -, h, hn⟩
  · obtain ⟨c, h1, h2, h3, h4, h5⟩ := best_of_chosen (by simp [isQRule]) h
    exact ⟨c, h1, h3, h4, h5, .inl h2⟩
  · rcases h.alt_inv with ⟨d', -, h⟩ | ⟨d', -, h, hn'⟩
    · obtain ⟨c, h1, h2, h3, h4, h5⟩ := best_of_chosen (by simp [isQRule]) h
      refine ⟨c, h1, h3, h4, h5, .inr ⟨h2, ?_⟩⟩
      rintro x rfl hx
      obtain ⟨dx, hdx⟩ := D_of_WF h1.1
      rw [hx] at hdx
      have : x.lv = ts := by rw [← h3]; simpa [itemsLv, seqTail] using (lv_seq x []).symm
      rw [this] at hdx
      exact hn _ _ hdx
    · obtain ⟨c, h1, h2, h3, h4, h5⟩ := best_of_chosen (by simp [isQRule]) h
      have hi : c.isItem := .inr h2
      obtain ⟨dx, hdx⟩ := D_of_WF (seq_WF (f := c) (l := []) (by simpa using ⟨h1, hi⟩))
      rw [lv_seq] at hdx
      simp only [itemsLv, List.flatMap_cons, List.flatMap_nil, List.append_nil, h3] at hdx
      exact absurd hdx (hn' _ _)

theorem canonOp_rule {c c' : CQ} (h : c.WF) (h' : c'.WF) (hc : c.CanonOp) (hc' : c'.CanonOp) (e : c.lv = c'.lv) : c.rule = c'.rule := by
  have nd : ∀ {c : CQ}, c.CanonOp → c.rule ≠ .query_disjunction := by
    rintro c (h | ⟨h, -⟩) <;> simp [h]
  have it := items_eq h h' (nd hc) (nd hc') e
  have key : ∀ {c c' : CQ}, c.WF → c'.WF → c'.CanonOp → c.rule = .query_simple → c'.rule = .query_sequence →
      c.items.map (fun x => (x.lv, x.rule)) = c'.items.map (fun x => (x.lv, x.rule)) → False := by
    intro c c' h h' hc' hr hr' it
    obtain ⟨f, l, rfl, hl⟩ := seq_cases h' hr'
    rw [items_seq, items_item (.inl hr)] at it
    simp only [List.map_cons, List.map_nil, List.cons.injEq, Prod.mk.injEq] at it
    obtain ⟨⟨-, e2⟩, e3⟩ := it
    have : l = [] := by simpa using e3.symm
    subst this
    rcases hc' with hc' | ⟨-, hc'⟩
    · simp [CQ.rule] at hc'
    · exact hc' f rfl (by rw [← e2, hr])
  rcases hc with hc | ⟨hc, hc2⟩
  · rcases hc' with hc' | ⟨hc', hc2'⟩
    · rw [hc, hc']
    · exact (key h h' (.inr ⟨hc', hc2'⟩) hc hc' it).elim
  · rcases hc' with hc' | ⟨hc', hc2'⟩
    · exact (key h' h (.inr ⟨hc, hc2⟩) hc' hc it.symm).elim
    · rw [hc, hc']

/-- The tokens of a disjunction determine its operands. -/
theorem ops_split : ∀ {f f' : CQ} {l l' : List (Tok × CQ)}, f.WF → f'.WF → f.rule ≠ .query_disjunction → f'.rule ≠ .query_disjunction →
    (∀ p ∈ l, p.1.type = .OR ∧ p.2.WF ∧ p.2.rule ≠ .query_disjunction) → (∀ p ∈ l', p.1.type = .OR ∧ p.2.WF ∧ p.2.rule ≠ .query_disjunction) →
    f.lv ++ opsLv l = f'.lv ++ opsLv l' → f.lv = f'.lv ∧ l.map (fun p => (p.1, p.2.lv)) = l'.map (fun p => (p.1, p.2.lv))
  | f, f', [], [], _, _, _, _, _, _, e => ⟨by simpa [opsLv] using e, rfl⟩
  | f, f', [], p :: l', h, h', hr, hr', _, hl', e => by
    refine (tight_stop (stop := stopSeq) ((f'.tight h').2 hr') ((f.tight h).2 hr) (t := p.1) (r := p.2.lv ++ opsLv l')
      (.inl (.inl (hl' p (by simp)).1)) ?_).elim
    simpa [opsLv] using e
  | f, f', p :: l, [], h, h', hr, hr', hl, _, e => by
    refine (tight_stop (stop := stopSeq) ((f.tight h).2 hr) ((f'.tight h').2 hr') (t := p.1) (r := p.2.lv ++ opsLv l)
      (.inl (.inl (hl p (by simp)).1)) ?_).elim
    simpa [opsLv] using e.symm
  | f, f', p :: l, p' :: l', h, h', hr, hr', hl, hl', e => by
    have e : f.lv ++ p.1 :: (p.2.lv ++ opsLv l) = f'.lv ++ p'.1 :: (p'.2.lv ++ opsLv l') := by simpa [opsLv] using e
    have e1 := tight_unique (stop := stopSeq) ((f.tight h).2 hr) ((f'.tight h').2 hr') (.inl (.inl (hl p (by simp)).1))
      (.inl (.inl (hl' p' (by simp)).1)) e
    rw [e1] at e
    have e2 := List.append_cancel_left e
    simp only [List.cons.injEq] at e2
    obtain ⟨-, g1, g2⟩ := hl p (by simp)
    obtain ⟨-, g1', g2'⟩ := hl' p' (by simp)
    obtain ⟨e3, e4⟩ := ops_split g1 g1' g2 g2' (fun x hx => hl x (by simp [hx])) (fun x hx => hl' x (by simp [hx])) e2.2
    exact ⟨e1, by simp [e2.1, e3, e4]⟩

/-- The parts of a chosen disjunction. -/
theorem disj_of_chosen {ts : List Tok} {t : PTree} {d : List Bool} (h : Chosen (.rule .query_disjunction) ts [t] d) :
    ∃ (f : CQ) (p : Tok × CQ) (l : List (Tok × CQ)), t = (CQ.disj f (disjTail (p :: l))).toTree ∧ ts = (CQ.disj f (disjTail (p :: l))).lv ∧
      (f.WF ∧ f.Best ∧ f.CanonOp) ∧ ∀ p' ∈ p :: l, p'.1.type = .OR ∧ p'.2.WF ∧ p'.2.Best ∧ p'.2.CanonOp := by
  obtain ⟨ks, e, hb⟩ := h.rule_inv
  simp only [List.cons.injEq, and_true] at e
  subst e
  obtain ⟨ta, tb, fa, fb, ca, cb, rfl, rfl, -, ha, hb2⟩ := hb.seq_inv
  obtain ⟨f, f1, rfl, rfl, f4, f5⟩ := canonOp_of_chosen ha
  obtain ⟨tc, td, fc, fd, cc, cd, rfl, rfl, -, hc, hd⟩ := hb2.seq_inv
  have part : ∀ {ts : List Tok} {fs : List PTree} {d : List Bool},
      Chosen (G.seqs [.tok .OR, G.alts [.rule .query_simple, .rule .query_sequence, .rule .query_group]]) ts fs d →
      ∃ p : Tok × CQ, ts = p.1 :: p.2.lv ∧ fs = [.leaf p.1, p.2.toTree] ∧ p.1.type = .OR ∧ p.2.WF ∧ p.2.Best ∧ p.2.CanonOp := by
    intro ts fs d h
    obtain ⟨t1, t2, f1, f2, c1, c2, rfl, rfl, -, h1, h2⟩ := h.seq_inv
    obtain ⟨x, hx, rfl, rfl⟩ := h1.tok_inv
    obtain ⟨c, g1, rfl, rfl, g4, g5⟩ := canonOp_of_chosen h2
    exact ⟨(x, c), rfl, rfl, hx, g1, g4, g5⟩
  obtain ⟨p, rfl, rfl, hp⟩ := part hc
  obtain ⟨l, rfl, rfl, hl⟩ := hd.star_inv
  have : ∃ m : List (Tok × CQ), l.flatMap Prod.fst = opsLv m ∧ l.flatMap Prod.snd = (m.flatMap fun p => [.leaf p.1, p.2.toTree]) ∧
      ∀ p' ∈ m, p'.1.type = .OR ∧ p'.2.WF ∧ p'.2.Best ∧ p'.2.CanonOp := by
    clear hd hb hb2 h ha hc
    induction l with
    | nil => exact ⟨[], rfl, rfl, by simp⟩
    | cons x l ih =>
      obtain ⟨m, e1, e2, e3⟩ := ih fun p hp => hl p (by simp [hp])
      obtain ⟨c, hc⟩ := hl x (by simp)
      obtain ⟨p', g1, g2, g3⟩ := part hc
      refine ⟨p' :: m, by simp [g1, e1, opsLv], by simp [g2, e2], ?_⟩
      intro y hy
      rcases List.mem_cons.1 hy with rfl | hy
      · exact g3
      · exact e3 y hy
  obtain ⟨m, e1, e2, e3⟩ := this
  refine ⟨f, p, m, ?_, ?_, ⟨f1, f4, f5⟩, ?_⟩
  · simp [CQ.toTree, disjTail_forest, e2]
  · rw [lv_disj]; simp [e1, opsLv]
  · intro y hy
    rcases List.mem_cons.1 hy with rfl | hy
    · exact hp
    · exact e3 y hy

theorem CanonOp.nd {c : CQ} (h : c.CanonOp) : c.rule ≠ .query_disjunction := by
  rcases h with h | ⟨h, -⟩ <;> simp [h]

theorem ops_toTree_eq : ∀ {l l' : List (Tok × CQ)}, (∀ p ∈ l, p.2.WF ∧ p.2.Best ∧ p.2.CanonOp) → (∀ p ∈ l', p.2.WF ∧ p.2.Best ∧ p.2.CanonOp) →
    l.map (fun p => (p.1, p.2.lv)) = l'.map (fun p => (p.1, p.2.lv)) →
    (l.flatMap fun p => [PTree.leaf p.1, p.2.toTree]) = (l'.flatMap fun p => [PTree.leaf p.1, p.2.toTree])
  | [], [], _, _, _ => rfl
  | [], _ :: _, _, _, e => by simp at e
  | _ :: _, [], _, _, e => by simp at e
  | c :: l, c' :: l', h, h', e => by
    simp only [List.map_cons, List.cons.injEq, Prod.mk.injEq] at e
    obtain ⟨h1, h2, h3⟩ := h c (by simp)
    obtain ⟨h1', h2', h3'⟩ := h' c' (by simp)
    simp only [List.flatMap_cons]
    rw [CQ.Best.eq h2 h2' (canonOp_rule h1 h1' h3 h3' e.1.2) e.1.2, e.1.1,
      ops_toTree_eq (fun x hx => h x (by simp [hx])) (fun x hx => h' x (by simp [hx])) e.2]

/-- A disjunction of chosen operands is chosen. -/
theorem best_disj {f : CQ} {p : Tok × CQ} {l : List (Tok × CQ)} (h : f.WF ∧ f.Best ∧ f.CanonOp)
    (hl : ∀ p' ∈ p :: l, p'.1.type = .OR ∧ p'.2.WF ∧ p'.2.Best ∧ p'.2.CanonOp) : (CQ.disj f (disjTail (p :: l))).Best := by
  have hl1 : ∀ p' ∈ p :: l, p'.1.type = .OR ∧ p'.2.WF ∧ p'.2.rule ≠ .query_disjunction := fun p' hp' =>
    ⟨(hl p' hp').1, (hl p' hp').2.1, CanonOp.nd (hl p' hp').2.2.2⟩
  have wf : (CQ.disj f (disjTail (p :: l))).WF := disj_WF h.1 (CanonOp.nd h.2.2) hl1
  refine chosen_of_only (CQ.fits _ wf) ?_
  intro t' d' h'
  obtain ⟨f', p', l', rfl, e, hf', hl'⟩ := disj_of_chosen h'
  have e : (CQ.disj f (disjTail (p :: l))).lv = (CQ.disj f' (disjTail (p' :: l'))).lv := e
  rw [lv_disj, lv_disj] at e
  obtain ⟨e1, e2⟩ := ops_split h.1 hf'.1 (CanonOp.nd h.2.2) (CanonOp.nd hf'.2.2) hl1
    (fun x hx => ⟨(hl' x hx).1, (hl' x hx).2.1, CanonOp.nd (hl' x hx).2.2.2⟩) e
  have e3 := ops_toTree_eq (fun x hx => (hl x hx).2) (fun x hx => (hl' x hx).2) e2
  have e4 := CQ.Best.eq h.2.1 hf'.2.1 (canonOp_rule h.1 hf'.1 h.2.2 hf'.2.2 e1) e1
  simp only [CQ.toTree, disjTail_forest, e3, e4]

end Fcsql
