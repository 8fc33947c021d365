/-
C67: the exact locations in queries put together from queries.
-/
import Verif.Props.Fragments
import Verif.Props.Grouping
import Verif.Spec.Placed

set_option autoImplicit false
set_option linter.unusedSimpArgs false

namespace Fcsql

attribute [local irreducible] parseQuery

theorem CQ.lv_ne (c : CQ) : c.lv ≠ [] := by
  intro h
  have : ∀ c : CQ, 0 < c.lv.length := by
    intro c
    apply CQ.rec (motive_1 := fun e => 0 < e.lv.length) (motive_2 := fun _ => True)
    · intro r q
      have : r.lv ≠ [] := CRegexp.leaves_ne
      rw [lv_implicit, List.length_append]
      have := List.length_pos_iff.2 this
      omega
    · intro lb e rb q; rw [lv_segment]; simp
    · intro lp c rp q _; rw [lv_group]; simp
    · intro f rest h _
      have h : 0 < f.toTree.leaves.length := h
      simp only [CQ.lv, CQ.toTree, PTree.leaves, PTree.leavesL, List.length_append]; omega
    · intro f rest h _
      have h : 0 < f.toTree.leaves.length := h
      simp only [CQ.lv, CQ.toTree, PTree.leaves, PTree.leavesL, List.length_append]; omega
    · trivial
    · intros; trivial
  have := this c
  rw [h] at this
  simp at this

/-- The construct of a parsed query without `within`, at position `k`. -/
theorem main_at {rt : Runtime} {cfg : Config} {q : PyStr} {n : Node} (h : (parseQuery rt cfg q).1 = .ok n) (hn : n.kind ≠ .withWithin) (k : Nat) :
    ∃ c : CQ, c.WF ∧ c.Best ∧ c.CanonMain ∧ LaidAt k c.lv q ∧ c.Denotes rt.toPyRuntime cfg (n.shift k) := by
  obtain ⟨cst, n0, he, hw, hb, hcan, hd, ht, -, hn'⟩ := parsed_main h
  rcases hn' with ⟨e, rfl⟩ | ⟨w, s, sc, -, -, rfl⟩
  · refine ⟨cst.main.map (Tok.shift k), CQ.WF_map ⟨(keeps_shift _).type⟩ _ hw, CQ.Best_shift _ hb, CQ.CanonMain_map hcan, ?_, CQ.Denotes_shift _ _ _ hd⟩
    have := LaidAt.of_lex he k
    rw [ht, e, withinLv, List.append_nil] at this
    rwa [CQ.lv, CQ.toTree_map, PTree.leaves_map]
  · exact absurd rfl hn

theorem Node.shift_kind (k : Int) (n : Node) : (n.shift k).kind = n.kind := by cases n; rfl

theorem Node.shift_loc (k : Int) (n : Node) : (n.shift k).loc = n.loc.map (Loc.shift k) := by cases n; rfl

/-- A parse from a laid-out construct. -/
theorem parse_at {rt : Runtime} {cfg : Config} {q : PyStr} {n : Node} {c : CQ} (hw : c.WF) (hb : c.Best) (hcan : c.CanonMain)
    (hl : LaidAt 0 c.lv q) (hd : c.Denotes rt.toPyRuntime cfg n) : (parseQuery rt cfg q).1 = .ok n := by
  obtain ⟨h1, h2⟩ := (laidAt_iff _ _).1 hl
  exact parse_main hw hb hcan h1 h2.symm hd

theorem LaidAt.join {k : Nat} {ts ts' : List Tok} {q q' : PyStr} (h : LaidAt k ts q) {c : Nat} (h' : LaidAt (k + q.length + 1) ts' q')
    (hc : isWs c = true) : LaidAt k (ts ++ ts') (q ++ c :: q') := by
  refine h.append (LaidAt.pre_ws (ws := [c]) (by simpa using h') (by simpa using hc)) ?_
  simp only [List.head?_cons, Option.some.injEq]
  rintro d rfl
  exact free_ws hc

/-! ### Ranges -/

theorem span_ends {cfg : Config} {ts u v x y : List Tok} (hu : u ≠ []) (hv : v ≠ []) (h1 : ts = u ++ x) (h2 : ts = y ++ v) {l l' : Option Loc}
    (e1 : l = cfg.span u) (e2 : l' = cfg.span v) :
    cfg.span ts = fromTo l l' := by
  subst e1 e2
  obtain ⟨a, u, rfl⟩ := List.exists_cons_of_ne_nil hu
  obtain ⟨v, b, rfl⟩ : ∃ v' b, v = v' ++ [b] := ⟨_, _, (List.dropLast_concat_getLast hv).symm⟩
  have h3 : ts.head? = some a := by rw [h1]; rfl
  have h4 : ts.getLast? = some b := by rw [h2, ← List.append_assoc, List.getLast?_concat]
  by_cases hc : cfg.enableSourceLocations = true
  · simp only [Config.span, hc, if_true, h3, h4, List.head?_cons, List.getLast?_concat]
    cases h5 : (a :: u).getLast? with
    | none => simp at h5
    | some z =>
      cases h6 : (v ++ [b]).head? with
      | none => simp at h6
      | some z => rfl
  · simp [Config.span, hc, fromTo]

theorem seqTail_last {rt : PyRuntime} {cfg : Config} : ∀ {l : List CQ} {ns : List Node}, (seqTail l).Denotes rt cfg ns → ∀ {b}, ns.getLast? = some b →
    ∃ (c : CQ) (y : List Tok), itemsLv l = y ++ c.lv ∧ b.loc = cfg.span c.lv
  | [], ns, h, b, hb => by
    obtain rfl : ns = [] := h
    simp at hb
  | c :: l, ns, h, b, hb => by
    obtain ⟨m, ms, h1, h2, rfl⟩ := h
    cases ms with
    | nil =>
      simp only [List.getLast?_singleton, Option.some.injEq] at hb
      subst hb
      have : l = [] := by
        cases l with
        | nil => rfl
        | cons c l => obtain ⟨_, _, _, _, h⟩ := h2; cases h
      subst this
      exact ⟨c, [], by simp [itemsLv], CQ.denotes_loc h1⟩
    | cons m' ms =>
      rw [List.getLast?_cons_cons] at hb
      obtain ⟨c', y, e1, e2⟩ := seqTail_last h2 hb
      exact ⟨c', c.lv ++ y, by simp only [itemsLv] at e1; simp [itemsLv, e1], e2⟩

theorem disjTail_last {rt : PyRuntime} {cfg : Config} : ∀ {l : List (Tok × CQ)} {ns : List Node}, (disjTail l).Denotes rt cfg ns → ∀ {b}, ns.getLast? = some b →
    ∃ (c : CQ) (y : List Tok), opsLv l = y ++ c.lv ∧ b.loc = cfg.span c.lv
  | [], ns, h, b, hb => by
    obtain rfl : ns = [] := h
    simp at hb
  | (o, c) :: l, ns, h, b, hb => by
    obtain ⟨m, ms, h1, h2, rfl⟩ := h
    cases ms with
    | nil =>
      simp only [List.getLast?_singleton, Option.some.injEq] at hb
      subst hb
      have : l = [] := by
        cases l with
        | nil => rfl
        | cons c l => obtain ⟨_, _, _, _, h⟩ := h2; cases h
      subst this
      exact ⟨c, [o], by simp [opsLv], CQ.denotes_loc h1⟩
    | cons m' ms =>
      rw [List.getLast?_cons_cons] at hb
      obtain ⟨c', y, e1, e2⟩ := disjTail_last h2 hb
      exact ⟨c', o :: (c.lv ++ y), by simp only [opsLv] at e1; simp [opsLv, e1], e2⟩

theorem hull_eq {cfg : Config} {n b : Node} {ns : List Node} {ts u v x y : List Tok} (hb : (n :: ns).getLast? = some b) (hu : u ≠ []) (hv : v ≠ [])
    (h1 : ts = u ++ x) (h2 : ts = y ++ v) (e1 : n.loc = cfg.span u) (e2 : b.loc = cfg.span v) : hull (n :: ns) = cfg.span ts := by
  rw [span_ends hu hv h1 h2 e1 e2, hull, hb]
  rfl

/-! ### Sequences -/

theorem items_at {rt : Runtime} {cfg : Config} : ∀ {ps : List (PyStr × Node)} (k : Nat), (∀ p ∈ ps, (parseQuery rt cfg p.1).1 = .ok p.2 ∧ p.2.isItem) →
      ∃ (l : List CQ), (∀ c ∈ l, c.WF ∧ c.isItem) ∧ (∀ c ∈ l, c.Best) ∧
        LaidAt k (itemsLv l) (joinWith [32] (ps.map Prod.fst)) ∧ (seqTail l).Denotes rt.toPyRuntime cfg (placed 1 k ps) ∧ l.length = ps.length
  | [], k, _ => ⟨[], by simp, by simp, .nil (by simp [joinWith]), rfl, rfl⟩
  | (q, n) :: ps, k, h => by
    obtain ⟨hp, hk⟩ := h (q, n) (by simp)
    obtain ⟨l, l1, l2, l3, l4, l5⟩ := items_at (ps := ps) (k + q.length + 1) fun x hx => h x (by simp [hx])
    obtain ⟨c, c1, c2, -, c4, c5⟩ := main_at hp (by rcases hk with ⟨_, _, h⟩ | ⟨_, _, h⟩ <;> simp [h]) k
    have ci : c.isItem := by
      rcases CQ.denotes_kind c5 with ⟨h, -⟩ | ⟨h, -⟩ | ⟨-, h⟩ | ⟨-, h⟩
      · exact .inl h
      · exact .inr h
      · rw [Node.shift_kind] at h
        rcases hk with ⟨_, _, h'⟩ | ⟨_, _, h'⟩ <;> simp [h] at h'
      · rw [Node.shift_kind] at h
        rcases hk with ⟨_, _, h'⟩ | ⟨_, _, h'⟩ <;> simp [h] at h'
    refine ⟨c :: l, ?_, ?_, ?_, ⟨_, _, c5, l4, rfl⟩, by simp [l5]⟩
    · intro x hx
      rcases List.mem_cons.1 hx with rfl | hx
      · exact ⟨c1, ci⟩
      · exact l1 x hx
    · intro x hx
      rcases List.mem_cons.1 hx with rfl | hx
      · exact c2
      · exact l2 x hx
    · cases ps with
      | nil =>
        have : l = [] := by simpa using l5
        subst this
        simpa [joinWith, itemsLv] using c4
      | cons p' ps => exact c4.join l3 (by decide)

/-- **C67.** Two or more queries that each parse to a segment or a group, written one after the other with spaces between them,
parse to the sequence of exactly these trees, each moved to the place of its text; the sequence extends from the start of the
first to the end of the last. -/
theorem C67_sequence (rt : Runtime) (cfg : Config) (ps : List (PyStr × Node)) (hlen : 2 ≤ ps.length)
    (h : ∀ p ∈ ps, (parseQuery rt cfg p.1).1 = .ok p.2 ∧ p.2.isItem) :
    (parseQuery rt cfg (joinWith [32] (ps.map Prod.fst))).1 = .ok (.mk .sequence (placed 1 0 ps) (hull (placed 1 0 ps))) := by
  obtain ⟨l, l1, l2, l3, l4, l5⟩ := items_at 0 h
  match l, ps with
  | f :: l, (q, n) :: ps =>
    refine parse_at (c := .seq f (seqTail l)) (seq_WF l1) (best_seq l1 l2) ?_ (by rw [lv_seq]; exact l3) ?_
    · intro x hx
      simp only [CQ.seq.injEq] at hx
      cases l with
      | nil =>
        simp only [List.length_cons, List.length_nil] at l5 hlen
        omega
      | cons c l => simp [seqTail] at hx
    · have l4' := l4
      obtain ⟨m, ms, d1, d2, d3⟩ := l4
      refine ⟨m, ms, d1, d2, ?_⟩
      rw [d3]
      congr 1
      obtain ⟨b, hb⟩ : ∃ b, (m :: ms).getLast? = some b := ⟨_, List.getLast?_eq_some_getLast (by simp)⟩
      rw [d3] at l4'
      obtain ⟨c', y, e1, e2⟩ := seqTail_last l4' hb
      refine hull_eq hb (CQ.lv_ne f) (CQ.lv_ne c') (x := itemsLv l) (y := y) ?_ ?_ (CQ.denotes_loc d1) e2
      · rw [← CQ.lv, lv_seq]; simp [itemsLv]
      · rw [← CQ.lv, lv_seq, e1]
  | _, [] => simp at hlen
  | [], _ :: _ => simp at l5

/-! ### Disjunctions -/

theorem operand_at {rt : Runtime} {cfg : Config} {q : PyStr} {n : Node} (h : (parseQuery rt cfg q).1 = .ok n) (hn : n.isOperand) (k : Nat) :
    ∃ c : CQ, c.WF ∧ c.Best ∧ c.CanonOp ∧ LaidAt k c.lv q ∧ c.Denotes rt.toPyRuntime cfg (n.shift k).operandAt := by
  have hw : n.kind ≠ .withWithin := by rcases hn with (⟨_, _, h⟩ | ⟨_, _, h⟩) | h <;> simp [h]
  obtain ⟨c, c1, c2, c3, c4, c5⟩ := main_at h hw k
  rcases CQ.denotes_kind c5 with ⟨hr, a, b, hk⟩ | ⟨hr, a, b, hk⟩ | ⟨hr, hk⟩ | ⟨-, hk⟩
  · exact ⟨c, c1, c2, .inl hr, c4, by simpa [Node.operandAt, hk] using c5⟩
  · have hi : ∀ x ∈ [c], x.WF ∧ x.isItem := by simp [c1, CQ.isItem, hr]
    have hlv : (CQ.seq c (seqTail [])).lv = c.lv := by rw [lv_seq]; simp [itemsLv]
    refine ⟨.seq c (seqTail []), seq_WF hi, best_seq hi (by simpa using c2), .inr ⟨rfl, ?_⟩, ?_, ?_⟩
    · intro x hx
      simp only [CQ.seq.injEq] at hx
      rw [← hx.1, hr]; simp
    · rw [hlv]; exact c4
    · simp only [Node.operandAt, hk]
      exact ⟨_, [], c5, rfl, by rw [← CQ.lv, hlv, ← CQ.denotes_loc c5]⟩
  · refine ⟨c, c1, c2, .inr ⟨hr, fun x hx => absurd hx (c3 x)⟩, c4, by simpa [Node.operandAt, hk] using c5⟩
  · rw [Node.shift_kind] at hk
    rcases hn with (⟨_, _, h⟩ | ⟨_, _, h⟩) | h <;> simp [hk] at h

theorem operands_at {rt : Runtime} {cfg : Config} : ∀ {ps : List (PyStr × Node)} {k : Nat} {q0 : PyStr} {ts0 : List Tok}, LaidAt k ts0 q0 →
      (∀ p ∈ ps, (parseQuery rt cfg p.1).1 = .ok p.2 ∧ p.2.isOperand) →
      ∃ (l : List (Tok × CQ)), (∀ p ∈ l, p.1.type = .OR ∧ p.2.WF ∧ p.2.Best ∧ p.2.CanonOp) ∧
        LaidAt k (ts0 ++ opsLv l) (joinWith py!" | " (q0 :: ps.map Prod.fst)) ∧
        (disjTail l).Denotes rt.toPyRuntime cfg ((placed 3 (k + q0.length + 3) ps).map Node.operandAt) ∧ l.length = ps.length
  | [], k, q0, ts0, h0, _ => ⟨[], by simp, by simpa [joinWith, opsLv] using h0, rfl, rfl⟩
  | (q, n) :: ps, k, q0, ts0, h0, h => by
    obtain ⟨hp, hk⟩ := h (q, n) (by simp)
    obtain ⟨c, c1, c2, c3, c4, c5⟩ := operand_at hp hk (k + q0.length + 3)
    obtain ⟨l, l1, l2, l3, l4⟩ := operands_at (ps := ps) c4 fun x hx => h x (by simp [hx])
    refine ⟨(tokAt (k + q0.length + 1) .OR py!"|", c) :: l, ?_, ?_, ⟨_, _, c5, l3, rfl⟩, by simp [l4]⟩
    · intro x hx
      rcases List.mem_cons.1 hx with rfl | hx
      · exact ⟨rfl, c1, c2, c3⟩
      · exact l1 x hx
    · have h1 : LaidAt (k + q0.length + 1) [tokAt (k + q0.length + 1) .OR py!"|"] py!"|" := LaidAt.one (.fixed (by decide))
      have := h0.join (h1.join (c := 32) l2 (by decide)) (c := 32) (by decide)
      simpa [joinWith, opsLv] using this

/-- **C67.** Two or more queries that each parse to a segment, a group or a sequence, written with ` | ` between them, parse to the
disjunction of exactly these trees, each moved to the place of its text; groups are wrapped in a one-element sequence at the
same place, and the disjunction extends from the start of the first to the end of the last. -/
theorem C67_disjunction (rt : Runtime) (cfg : Config) (ps : List (PyStr × Node)) (hlen : 2 ≤ ps.length)
    (h : ∀ p ∈ ps, (parseQuery rt cfg p.1).1 = .ok p.2 ∧ p.2.isOperand) :
    (parseQuery rt cfg (joinWith py!" | " (ps.map Prod.fst))).1 =
      .ok (.mk .disjunction ((placed 3 0 ps).map Node.operandAt) (hull (placed 3 0 ps))) := by
  match ps with
  | (q, n) :: ps =>
    obtain ⟨hp, hk⟩ := h (q, n) (by simp)
    obtain ⟨c, c1, c2, c3, c4, c5⟩ := operand_at hp hk 0
    obtain ⟨l, l1, l2, l3, l4⟩ := operands_at (ps := ps) c4 fun x hx => h x (by simp [hx])
    have hloc : ∀ n : Node, n.operandAt.loc = n.loc := by
      intro n
      cases n with | mk k cs l => cases k <;> rfl
    have hhull : ∀ ns : List Node, hull (ns.map Node.operandAt) = hull ns := by
      intro ns
      simp only [hull, List.head?_map, List.getLast?_map]
      congr 1
      · cases ns.head? <;> simp [hloc]
      · cases ns.getLast? <;> simp [hloc]
    rw [← hhull]
    match l with
    | [] =>
      simp only [List.length_cons, List.length_nil] at l4 hlen
      omega
    | x :: l =>
      have l1' : ∀ p ∈ x :: l, p.1.type = .OR ∧ p.2.WF ∧ p.2.rule ≠ .query_disjunction := fun p hp =>
        ⟨(l1 p hp).1, (l1 p hp).2.1, CanonOp.nd (l1 p hp).2.2.2⟩
      refine parse_at (c := .disj c (disjTail (x :: l))) (disj_WF c1 (CanonOp.nd c3) l1') (best_disj ⟨c1, c2, c3⟩ l1) (by rintro x h; cases h)
        (by rw [lv_disj]; exact l2) ⟨_, _, c5, l3, ?_⟩
      have e : (placed 3 0 ((q, n) :: ps)).map Node.operandAt =
          (n.shift ((0 : Nat) : Int)).operandAt :: (placed 3 (0 + q.length + 3) ps).map Node.operandAt := rfl
      rw [e]
      congr 1
      rw [← CQ.lv, lv_disj]
      obtain ⟨b, hb⟩ : ∃ b, ((placed 3 (0 + q.length + 3) ps).map Node.operandAt).getLast? = some b := by
        refine ⟨_, List.getLast?_eq_some_getLast ?_⟩
        intro h0
        rw [h0] at l3
        obtain ⟨_, _, _, _, h0⟩ := l3
        cases h0
      obtain ⟨c', y, e1, e2⟩ := disjTail_last l3 hb
      refine hull_eq (b := b) ?_ (CQ.lv_ne c) (CQ.lv_ne c') rfl (y := c.lv ++ y) (by rw [e1]; simp) (CQ.denotes_loc c5) e2
      rw [List.getLast?_cons, hb]; rfl
  | [] => simp at hlen

/-! ### Whitespace around -/

/-- The same tokens, moved. -/
theorem parse_shift {rt : Runtime} {cfg : Config} {q q' : PyStr} {n : Node} {k : Int} (h : (parseQuery rt cfg q).1 = .ok n)
    (h1 : lexErrors q' = []) (h2 : lexTokens q' = (lexTokens q).map (Tok.shift k)) : (parseQuery rt cfg q').1 = .ok (n.shift k) := by
  obtain ⟨cst, n0, he, hw, hb, hcan, hd, ht, hwi, hn⟩ := parsed_main h
  rw [ht] at h2
  rcases hn with ⟨e, rfl⟩ | ⟨w, s, sc, e, hsc, rfl⟩
  · rw [e, withinLv, List.append_nil] at h2
    exact parse_main (CQ.WF_map ⟨(keeps_shift _).type⟩ _ hw) (CQ.Best_shift _ hb) (CQ.CanonMain_map hcan) h1
      (by rw [h2, CQ.lv, CQ.toTree_map, PTree.leaves_map]) (CQ.Denotes_shift _ _ _ hd)
  · rw [e, withinLv] at h2
    obtain ⟨w1, w2⟩ := hwi w s e
    refine (parse_ok rt cfg _ _).2 ⟨h1, ⟨cst.main.map (Tok.shift k), some (w.shift k, s.shift k), eofTok q'⟩, ?_, ?_⟩
    · have hwf : (CQuery.mk (cst.main.map (Tok.shift k)) (some (w.shift k, s.shift k)) (eofTok q')).WF :=
        ⟨CQ.WF_map ⟨(keeps_shift _).type⟩ _ hw, by rintro _ _ ⟨⟩; exact ⟨w1, w2⟩, rfl⟩
      have hlv : (CQuery.mk (cst.main.map (Tok.shift k)) (some (w.shift k, s.shift k)) (eofTok q')).toTree.leaves = tokenStream q' := by
        rw [lv_query, tokenStream, h2, CQ.lv, CQ.toTree_map, PTree.leaves_map]
        simp [withinLv, CQ.lv]
      exact ⟨hwf, hlv, hlv ▸ best_query hwf (CQ.Best_shift _ hb) (CQ.CanonMain_map hcan)⟩
    · refine ⟨n0.shift k, sc, CQ.Denotes_shift _ _ _ hd, hsc, ?_⟩
      have e1 := span_shift cfg k [s]
      have e2 := span_shift cfg k (cst.main.lv ++ [w, s])
      simp only [List.map_append, List.map_cons, List.map_nil] at e1 e2
      simp only [CQ.toTree_map, PTree.leaves_map]
      simp only [CQ.lv] at e2
      rw [e1, e2]
      rfl

theorem Tok.shift_shift (j k : Int) (t : Tok) : (t.shift j).shift k = t.shift (j + k) := by
  simp only [Tok.shift, Tok.mk.injEq, true_and]; omega

theorem Tok.shift_zero (t : Tok) : t.shift 0 = t := by simp [Tok.shift]

mutual
theorem Node.shift_shift (j k : Int) : ∀ n : Node, (n.shift j).shift k = n.shift (j + k)
  | .mk kind cs l => by
    simp only [Node.shift, Node.shiftL_shift j k cs, Option.map_map]
    congr 2
    funext x
    simp only [Function.comp, Loc.shift, Loc.mk.injEq]; omega
theorem Node.shiftL_shift (j k : Int) : ∀ ns : List Node, Node.shiftL k (Node.shiftL j ns) = Node.shiftL (j + k) ns
  | [] => rfl
  | n :: ns => by simp only [Node.shiftL, Node.shift_shift j k n, Node.shiftL_shift j k ns]
end

mutual
theorem Node.shift_zero : ∀ n : Node, n.shift 0 = n
  | .mk kind cs l => by
    have : Loc.shift 0 = id := by funext x; simp [Loc.shift]
    simp only [Node.shift, Node.shiftL_zero cs, this, Option.map_id]
    rfl
theorem Node.shiftL_zero : ∀ ns : List Node, Node.shiftL 0 ns = ns
  | [] => rfl
  | n :: ns => by simp only [Node.shiftL, Node.shift_zero n, Node.shiftL_zero ns]
end

/-- The text is laid out exactly if it is with whitespace around. -/
theorem ws_around {q a b : PyStr} (ha : ∀ c ∈ a, isWs c = true) (hb : ∀ c ∈ b, isWs c = true) (h : lexErrors q = []) :
    lexErrors (a ++ q ++ b) = [] ∧ lexTokens (a ++ q ++ b) = (lexTokens q).map (Tok.shift a.length) := by
  rw [← laidAt_iff]
  have h1 : LaidAt a.length ((lexTokens q).map (Tok.shift a.length)) q := LaidAt.of_lex h a.length
  have h2 : LaidAt 0 ((lexTokens q).map (Tok.shift a.length)) (a ++ q) := LaidAt.pre_ws (by simpa using h1) ha
  have h3 := h2.append (ts' := []) (q' := b) (.nil hb) fun c hc => free_ws (hb c (List.mem_of_mem_head? hc))
  simpa using h3

theorem TokenText.head_ws {ty : TokType} {c : Nat} {w : PyStr} (h : TokenText ty (c :: w)) : isWs c = false := by
  cases hc : isWs c with
  | false => rfl
  | true =>
    exfalso
    have hn : isAlnum c = false ∧ isDigit c = false ∧ c ≠ 45 ∧ c ≠ 34 ∧ c ≠ 39 := by
      simp only [isWs_eq, wsRanges, inRanges, Bool.or_eq_true, Bool.and_eq_true, decide_eq_true_eq, Bool.or_false] at hc
      refine ⟨?_, ?_, by omega, by omega, by omega⟩
      · simp only [isAlnum, isLetter, isDigit, Bool.or_eq_false_iff, Bool.and_eq_false_iff, decide_eq_false_iff_not]; omega
      · simp only [isDigit, Bool.and_eq_false_iff, decide_eq_false_iff_not]; omega
    obtain ⟨hn1, hn2, hn3, hn4, hn5⟩ := hn
    generalize hw : c :: w = u at h
    have hcw : c ∈ u := by simp [← hw]
    cases h with
    | fixed h =>
      have : ∀ p ∈ fixedTokens, ∀ x ∈ p.2, isWs x = false := by decide
      have := this _ h c hcw
      simp [hc] at this
    | scope h =>
      obtain ⟨s, h⟩ := h
      have : ∀ p ∈ scopeWords, ∀ x ∈ p.1, isWs x = false := by decide
      have := this _ h c hcw
      simp [hc] at this
    | flags h =>
      have h2 : ∀ x ∈ py!"iIcCld", isWs x = false := by decide
      have := h2 _ (h.2 c hcw)
      simp [hc] at this
    | identifier h =>
      rcases h.chars c hcw with h | h
      · simp [hn1] at h
      · exact hn3 h
    | integer h1 h2 =>
      rw [List.all_eq_true] at h2
      have := h2 c hcw
      simp [hn2] at this
    | @literal w q ps h =>
      obtain ⟨hq, -, e⟩ := h
      rw [e] at hw
      simp only [litText, List.cons_append, List.cons.injEq] at hw
      rcases hq with rfl | rfl
      · exact hn4 hw.1
      · exact hn5 hw.1

theorem Laid.tail_ws {ts : List (TokType × PyStr)} {c : Nat} {q : PyStr} (hc : isWs c = true) (h : Laid ts (c :: q)) : Laid ts q := by
  generalize hr : c :: q = r at h
  cases h with
  | nil h => subst hr; exact .nil fun x hx => h x (by simp [hx])
  | @cons ws w rest ty ts h1 h2 h3 h4 =>
    cases ws with
    | cons d ws =>
      simp only [List.cons_append, List.cons.injEq] at hr
      obtain ⟨rfl, rfl⟩ := hr
      exact .cons (fun x hx => h1 x (by simp [hx])) h2 h3 h4
    | nil =>
      cases w with
      | nil => exact absurd rfl h2.ne_nil
      | cons d w =>
        simp only [List.nil_append, List.cons_append, List.cons.injEq] at hr
        obtain ⟨rfl, rfl⟩ := hr
        rw [h2.head_ws] at hc
        cases hc

theorem ws_stripped {a b q : PyStr} (ha : ∀ c ∈ a, isWs c = true) (hb : ∀ c ∈ b, isWs c = true)
    (h : lexErrors (a ++ q ++ b) = []) : lexErrors q = [] := by
  obtain ⟨ts, h0⟩ : ∃ ts, Laid ts (a ++ q ++ b) := ⟨_, (laid_iff _ _).2 ⟨h, rfl⟩⟩
  have h1 : ∃ ts, Laid ts (a ++ q) := by
    cases b with
    | nil => exact ⟨ts, by simpa using h0⟩
    | cons c b =>
      have hq : ∀ x, isWs x = true → x ≠ 34 ∧ x ≠ 39 := by
        intro x hx
        constructor <;> rintro rfl <;> revert hx <;> decide
      obtain ⟨T1, T2, -, h1, -⟩ := h0.cut (P := a ++ q) (w := b) (hb c (by simp))
        (fun hx => (hq 34 (hb 34 (by simp [hx]))).1 rfl) (fun hx => (hq 39 (hb 39 (by simp [hx]))).2 rfl) rfl
      exact ⟨T1, h1⟩
  obtain ⟨T, h1⟩ := h1
  clear h0 h
  induction a with
  | nil => exact ((laid_iff _ _).1 h1).1
  | cons c a ih => exact ih (fun x hx => ha x (by simp [hx])) (h1.tail_ws (ha c (by simp)))

/-- **C67.** Whitespace before and after a query changes nothing but its place. -/
theorem C67_whitespace_around (rt : Runtime) (cfg : Config) (a b Q : PyStr) (ha : ∀ c ∈ a, isWs c = true) (hb : ∀ c ∈ b, isWs c = true) (n' : Node) :
    (parseQuery rt cfg (a ++ Q ++ b)).1 = .ok n' ↔ ∃ n, (parseQuery rt cfg Q).1 = .ok n ∧ n' = n.shift a.length := by
  constructor
  · intro h
    have he := ws_stripped ha hb ((parse_ok rt cfg _ _).1 h).1
    have h2 := (ws_around ha hb he).2
    refine ⟨n'.shift (-a.length), parse_shift h he ?_, ?_⟩
    · rw [h2, List.map_map]
      have : Tok.shift (-(a.length : Int)) ∘ Tok.shift a.length = id := by
        funext t
        simp [Tok.shift_shift, Tok.shift_zero, Int.add_right_neg]
      rw [this, List.map_id]
    · rw [Node.shift_shift, Int.add_left_neg, Node.shift_zero]
  · rintro ⟨n, h, rfl⟩
    obtain ⟨h1, h2⟩ := ws_around ha hb ((parse_ok rt cfg _ _).1 h).1
    exact parse_shift h h1 h2

/-! ### within -/

theorem span_tokAt (cfg : Config) (k : Nat) (ty : TokType) (w : PyStr) : cfg.span [tokAt k ty w] = cfg.at k (k + w.length) := by
  by_cases hc : cfg.enableSourceLocations = true
  · simp [Config.span, Config.at, hc, tokAt]
  · simp [Config.span, Config.at, hc]

theorem fromTo_at (cfg : Config) (a b c d : Int) : fromTo (cfg.at a b) (cfg.at c d) = cfg.at a d := by
  by_cases hc : cfg.enableSourceLocations = true
  · simp [Config.at, hc, fromTo]
  · simp [Config.at, hc, fromTo]

/-- **C67.** `Q within w`, for a scope word `w`, parses exactly if `Q` parses to a query without `within`, and then to that
query, at the same place, within the scope at the place of its word; the whole extends from the start of the query to the end of the text. -/
theorem C67_within (rt : Runtime) (cfg : Config) (Q w : PyStr) (sc : Scope) (hw : (w, sc) ∈ scopeWords) (n' : Node) :
    (parseQuery rt cfg (Q ++ py!" within " ++ w)).1 = .ok n' ↔
      ∃ n, (parseQuery rt cfg Q).1 = .ok n ∧ n.kind ≠ .withWithin ∧
        n' = .mk .withWithin [n, .mk (.within sc) [] (cfg.at (Q.length + 8) (Q.length + 8 + w.length))]
          (fromTo n.loc (cfg.at (Q.length + 8) (Q.length + 8 + w.length))) := by
  have key : ∀ n, (parseQuery rt cfg Q).1 = .ok n → n.kind ≠ .withWithin → (parseQuery rt cfg (Q ++ py!" within " ++ w)).1 =
      .ok (.mk .withWithin [n, .mk (.within sc) [] (cfg.at (Q.length + 8) (Q.length + 8 + w.length))]
          (fromTo n.loc (cfg.at (Q.length + 8) (Q.length + 8 + w.length)))) := by
    intro n h hn
    obtain ⟨c, c1, c2, c3, c4, c5⟩ := main_at h hn 0
    have c5 : c.Denotes rt.toPyRuntime cfg n := by simpa [Node.shift_zero] using c5
    have t1 : LaidAt (Q.length + 1) [tokAt (Q.length + 1) .WITHIN py!"within"] py!"within" := LaidAt.one (.fixed (by decide))
    have t2 : LaidAt (Q.length + 8) [tokAt (Q.length + 8) .SIMPLE_WITHIN_SCOPE w] w := LaidAt.one (.scope ⟨sc, hw⟩)
    have l := c4.join (c := 32) (by simpa using t1.join (c := 32) t2 (by decide)) (by decide)
    have l : LaidAt 0 (c.lv ++ [tokAt (Q.length + 1) .WITHIN py!"within", tokAt (Q.length + 8) .SIMPLE_WITHIN_SCOPE w]) (Q ++ py!" within " ++ w) := by
      simpa using l
    obtain ⟨l1, l2⟩ := (laidAt_iff _ _).1 l
    generalize Q ++ py!" within " ++ w = q at l1 l2 ⊢
    generalize hu : tokAt (Q.length + 1) .WITHIN py!"within" = u at l2
    generalize hv : tokAt (Q.length + 8) .SIMPLE_WITHIN_SCOPE w = v at l2
    have hwf : (CQuery.mk c (some (u, v)) (eofTok q)).WF := ⟨c1, by rintro _ _ ⟨⟩; rw [← hu, ← hv]; exact ⟨rfl, rfl⟩, rfl⟩
    have hlv : (CQuery.mk c (some (u, v)) (eofTok q)).toTree.leaves = tokenStream q := by
      rw [lv_query, tokenStream, l2]; simp [withinLv]
    have hsp : cfg.span [v] = cfg.at (Q.length + 8) (Q.length + 8 + w.length) := by
      rw [← hv]
      by_cases hc : cfg.enableSourceLocations = true
      · simp [Config.span, Config.at, hc, tokAt]
      · simp [Config.span, Config.at, hc]
    refine (parse_ok rt cfg _ _).2 ⟨l1, ⟨c, some (u, v), eofTok q⟩, ⟨hwf, hlv, hlv ▸ best_query hwf c2 c3⟩, n, sc, c5, by rw [← hv]; exact hw, ?_⟩
    rw [hsp, ← hsp, ← CQ.lv, span_ends (u := c.lv) (v := [v]) (x := [u, v]) (y := c.lv ++ [u]) (CQ.lv_ne c) (by simp) rfl (by simp) (CQ.denotes_loc c5) rfl]
  constructor
  · intro h
    obtain ⟨m, h1, h2, -⟩ := (C44_within rt { cfg with enableSourceLocations := false } rfl Q w sc hw _).1 (parse_off h)
    obtain ⟨n, h3, h4⟩ := parse_on h1
    have hk : n.kind ≠ .withWithin := by rw [← unlocated_kind, h4]; exact h2
    refine ⟨n, h3, hk, ?_⟩
    have := key n h3 hk
    rw [h] at this
    exact Except.ok.inj this
  · rintro ⟨n, h, hn, rfl⟩
    exact key n h hn

/-! ### Parentheses -/

/-- **C67.** If `Q` parses to a query without `within`, then `(Q)` parses to the group of that query, moved by one character; the group
covers the whole text. -/
theorem C67_group (rt : Runtime) (cfg : Config) (Q : PyStr) (n : Node) (h : (parseQuery rt cfg Q).1 = .ok n) (hn : n.kind ≠ .withWithin) :
    (parseQuery rt cfg (py!"(" ++ Q ++ py!")")).1 = .ok (.mk (.qgroup 1 1) [(n.shift 1).contentAt] (cfg.at 0 (Q.length + 2))) := by
  obtain ⟨c, c1, c2, c3, c4, c5⟩ := main_at h hn 1
  have c5 : c.Denotes rt.toPyRuntime cfg (n.shift 1) := c5
  have hl : LaidAt 0 ((tokAt 0 .L_PAREN py!"(" :: c.lv) ++ [tokAt (Q.length + 1) .R_PAREN py!")"]) (py!"(" ++ Q ++ py!")") := by
    have h1 : LaidAt 0 (tokAt 0 .L_PAREN py!"(" :: c.lv) (py!"(" ++ Q) := LaidAt.one_cons (.fixed (by decide)) (by simp [Sticks]) c4
    refine h1.append ?_ (by simp only [List.head?_cons, Option.some.injEq]; rintro c rfl; exact free_of (by decide))
    have e : 0 + (py!"(" ++ Q).length = Q.length + 1 := by simp
    rw [e]
    exact LaidAt.one (.fixed (by decide))
  obtain ⟨c', d1, d2, d3, d4, d5⟩ : ∃ c' : CQ, c'.WF ∧ (c'.rule = .query_disjunction ∨ c'.rule = .query_sequence) ∧ c'.lv = c.lv ∧ c'.Best ∧
      c'.Denotes rt.toPyRuntime cfg (n.shift 1).contentAt := by
    have item : c.isItem → ∃ c' : CQ, c'.WF ∧ (c'.rule = .query_disjunction ∨ c'.rule = .query_sequence) ∧ c'.lv = c.lv ∧ c'.Best ∧
      c'.Denotes rt.toPyRuntime cfg (.mk .sequence [n.shift 1] (n.shift 1).loc) := by
      intro hi
      have hi : ∀ x ∈ [c], x.WF ∧ x.isItem := by simp [c1, hi]
      have hlv : (CQ.seq c (seqTail [])).lv = c.lv := by rw [lv_seq]; simp [itemsLv]
      exact ⟨.seq c (seqTail []), seq_WF hi, .inr rfl, hlv, best_seq hi (by simpa using c2), n.shift 1, [], c5, rfl,
        by rw [← CQ.lv, hlv, ← CQ.denotes_loc c5]⟩
    rcases CQ.denotes_kind c5 with ⟨hr, a, b, hk⟩ | ⟨hr, a, b, hk⟩ | ⟨hr, hk⟩ | ⟨hr, hk⟩
    · simpa only [Node.contentAt, hk] using item (.inl hr)
    · simpa only [Node.contentAt, hk] using item (.inr hr)
    · exact ⟨c, c1, .inr hr, rfl, c2, by simpa [Node.contentAt, hk] using c5⟩
    · exact ⟨c, c1, .inl hr, rfl, c2, by simpa [Node.contentAt, hk] using c5⟩
  have wf : (CQ.group (tokAt 0 .L_PAREN py!"(") c' (tokAt (Q.length + 1) .R_PAREN py!")") none).WF := ⟨rfl, d1, d2, rfl, by simp [optQuantWF]⟩
  have hlv : (CQ.group (tokAt 0 .L_PAREN py!"(") c' (tokAt (Q.length + 1) .R_PAREN py!")") none).lv =
      (tokAt 0 .L_PAREN py!"(" :: c.lv) ++ [tokAt (Q.length + 1) .R_PAREN py!")"] := by
    rw [lv_group, d3, quantLv_none]; simp
  refine parse_at wf (best_group wf d4) (by rintro x h; cases h) (by rw [hlv]; exact hl) ⟨_, 1, 1, d5, ⟨rfl, rfl⟩, ?_⟩
  rw [← CQ.lv, hlv, span_ends (ts := (tokAt 0 .L_PAREN py!"(" :: c.lv) ++ [tokAt (Q.length + 1) .R_PAREN py!")"]) (u := [tokAt 0 .L_PAREN py!"("]) (v := [tokAt (Q.length + 1) .R_PAREN py!")"])
    (x := c.lv ++ [tokAt (Q.length + 1) .R_PAREN py!")"]) (y := tokAt 0 .L_PAREN py!"(" :: c.lv) (by simp) (by simp) rfl rfl
    (span_tokAt cfg _ _ _).symm (span_tokAt cfg _ _ _).symm, fromTo_at]
  have : ((Q.length + 1 : Nat) : Int) + (py!")" : PyStr).length = (Q.length : Int) + 2 := by simp; omega
  rw [this]
  rfl

/-! ### Quantifiers -/

/-- The tokens of a quantifier at a place. -/
theorem quantText_at (cfg : Config) {rt : PyRuntime} {t : PyStr} {mn mx : Int} (h : QuantText rt t mn mx) (k : Nat) :
    (∀ c, t.head? = some c → Free c) ∧ ∃ (q : CQuant) (v y : List Tok), LaidAt k (quantLv (some q)) t ∧ q.WF ∧ q.Bounds rt mn mx ∧
      quantLv (some q) = y ++ v ∧ v ≠ [] ∧ ∃ a, cfg.span v = cfg.at a (k + t.length) := by
  have fr : ∀ {a : Nat} {r : PyStr}, a ∈ py!"()[]|&!/{}+*?,:\"'" → ∀ c, (a :: r).head? = some c → Free c := by
    intro a r h c hc
    simp only [List.head?_cons, Option.some.injEq] at hc
    subst hc
    exact free_of h
  have one : ∀ (ty : TokType) (w : PyStr) (k : Nat), (ty, w) ∈ fixedTokens → LaidAt k [tokAt k ty w] w := fun ty w k h => LaidAt.one (.fixed h)
  have int : ∀ {x : PyStr} {n : Int} {k : Nat} {ts : List Tok} {q : PyStr}, IsInt rt x n → LaidAt (k + x.length) ts q → (∀ c, q.head? = some c → Free c) →
      LaidAt k (tokAt k .INTEGER x :: ts) (x ++ q) := fun hx hq hc => (LaidAt.one (isInt_token hx)).append hq hc
  have rb := fun k => one .R_CURLY_BRACKET py!"}" k (by decide)
  have comma : ∀ {k : Nat} {ts : List Tok} {q : PyStr}, LaidAt (k + 1) ts q → LaidAt k (tokAt k .Q_COMMA py!"," :: ts) (py!"," ++ q) :=
    fun h => LaidAt.one_cons (.fixed (by decide)) (by simp [Sticks]) h
  have lcb : ∀ {k : Nat} {ts : List Tok} {q : PyStr}, LaidAt (k + 1) ts q → LaidAt k (tokAt k .L_CURLY_BRACKET py!"{" :: ts) (py!"{" ++ q) :=
    fun h => LaidAt.one_cons (.fixed (by decide)) (by simp [Sticks]) h
  cases h with
  | star => exact ⟨fr (by decide), .sym (tokAt k .Q_ZERO_OR_MORE py!"*"), _, [], one _ _ _ (by decide), .inr (.inl rfl), .inl ⟨rfl, rfl, rfl⟩, rfl, by simp [quantLv_sym], k, span_tokAt cfg _ _ _⟩
  | plus => exact ⟨fr (by decide), .sym (tokAt k .Q_ONE_OR_MORE py!"+"), _, [], one _ _ _ (by decide), .inl rfl, .inr (.inl ⟨rfl, rfl, rfl⟩), rfl, by simp [quantLv_sym], k, span_tokAt cfg _ _ _⟩
  | opt => exact ⟨fr (by decide), .sym (tokAt k .Q_ZERO_OR_ONE py!"?"), _, [], one _ _ _ (by decide), .inr (.inr rfl), .inr (.inr ⟨rfl, rfl, rfl⟩), rfl, by simp [quantLv_sym], k, span_tokAt cfg _ _ _⟩
  | @exactly x _ hx =>
    refine ⟨fr (by decide), .exactly (tokAt k .L_CURLY_BRACKET py!"{") (tokAt (k + 1) .INTEGER x) (tokAt (k + 1 + x.length) .R_CURLY_BRACKET py!"}"),
      [tokAt (k + 1 + x.length) .R_CURLY_BRACKET py!"}"], [tokAt k .L_CURLY_BRACKET py!"{", tokAt (k + 1) .INTEGER x], ?_, ⟨rfl, rfl, rfl⟩, ⟨hx.2.2, rfl⟩,
      by simp [quantLv_exactly], by simp, (k + 1 + x.length : Nat), ?_⟩
    · rw [quantLv_exactly]
      have := lcb (int hx (rb _) (fr (by decide))) (k := k)
      simpa using this
    · rw [span_tokAt]; congr 1; simp; omega
  | @atLeast x _ hx =>
    refine ⟨fr (by decide), .range (tokAt k .L_CURLY_BRACKET py!"{") (some (tokAt (k + 1) .INTEGER x)) (tokAt (k + 1 + x.length) .Q_COMMA py!",") none
        (tokAt (k + 1 + x.length + 1) .R_CURLY_BRACKET py!"}"),
      [tokAt (k + 1 + x.length + 1) .R_CURLY_BRACKET py!"}"], [tokAt k .L_CURLY_BRACKET py!"{", tokAt (k + 1) .INTEGER x, tokAt (k + 1 + x.length) .Q_COMMA py!","], ?_,
      ⟨rfl, rfl, rfl, by simp [tokAt], by simp, by simp⟩, ⟨hx.2.2, rfl⟩, by simp [quantLv_range], by simp, (k + 1 + x.length + 1 : Nat), ?_⟩
    · rw [quantLv_range]
      have := lcb (int hx (comma (rb _)) (fr (by decide))) (k := k)
      simpa using this
    · rw [span_tokAt]; congr 1; simp; omega
  | @atMost y _ hy =>
    refine ⟨fr (by decide), .range (tokAt k .L_CURLY_BRACKET py!"{") none (tokAt (k + 1) .Q_COMMA py!",") (some (tokAt (k + 1 + 1) .INTEGER y))
        (tokAt (k + 1 + 1 + y.length) .R_CURLY_BRACKET py!"}"),
      [tokAt (k + 1 + 1 + y.length) .R_CURLY_BRACKET py!"}"], [tokAt k .L_CURLY_BRACKET py!"{", tokAt (k + 1) .Q_COMMA py!",", tokAt (k + 1 + 1) .INTEGER y], ?_,
      ⟨rfl, rfl, rfl, by simp, by simp [tokAt], by simp⟩, ⟨rfl, hy.2.2⟩, by simp [quantLv_range], by simp, (k + 1 + 1 + y.length : Nat), ?_⟩
    · rw [quantLv_range]
      have := lcb (comma (int hy (rb _) (fr (by decide)))) (k := k)
      simpa using this
    · rw [span_tokAt]; congr 1; simp; omega
  | @between x y n m hx hy hle =>
    refine ⟨fr (by decide), .range (tokAt k .L_CURLY_BRACKET py!"{") (some (tokAt (k + 1) .INTEGER x)) (tokAt (k + 1 + x.length) .Q_COMMA py!",")
        (some (tokAt (k + 1 + x.length + 1) .INTEGER y)) (tokAt (k + 1 + x.length + 1 + y.length) .R_CURLY_BRACKET py!"}"),
      [tokAt (k + 1 + x.length + 1 + y.length) .R_CURLY_BRACKET py!"}"],
      [tokAt k .L_CURLY_BRACKET py!"{", tokAt (k + 1) .INTEGER x, tokAt (k + 1 + x.length) .Q_COMMA py!",", tokAt (k + 1 + x.length + 1) .INTEGER y], ?_,
      ⟨rfl, rfl, rfl, by simp [tokAt], by simp [tokAt], by simp⟩, ⟨hx.2.2, hy.2.2, hle⟩, by simp [quantLv_range], by simp, (k + 1 + x.length + 1 + y.length : Nat), ?_⟩
    · rw [quantLv_range]
      have := lcb (int hx (comma (int hy (rb _) (fr (by decide)))) (fr (by decide))) (k := k)
      simpa using this
    · rw [span_tokAt]; congr 1; simp; omega

theorem no_quant_at {k : Nat} {ts : List Tok} {Q : PyStr} {c : Nat} (hl : LaidAt k ts Q) (hQ : Q.getLast? = some c) (hws : isWs c = false)
    (hc : c ∉ py!"*+?}") {q : Option CQuant} (hq : optQuantWF q) {u : List Tok} (e : ts = u ++ quantLv q) : q = none := by
  have hq' := optQuantWF_map ⟨keeps_erase.type⟩ hq
  have : q.map (CQuant.map Tok.erase) = none := by
    refine no_quant hl.laid hQ hws hc hq' (u := u.map Tok.erase) ?_
    rw [e, quantLv, optQuant_map, PTree.leavesL_map, ← quantLv]
    simp [Function.comp_def, Tok.ofWhat, Tok.what]
    rfl
  simpa using this

/-- **C67.** If `Q` parses to a segment or a group and does not end with a quantifier, then `Q` followed by a quantifier parses to the
same node with the bounds of the quantifier; its parts keep their places, and the node extends to the end of the text. -/
theorem C67_quantifier (rt : Runtime) (cfg : Config) (Q t : PyStr) (n : Node) (c : Nat) (mn mx : Int)
    (h : (parseQuery rt cfg Q).1 = .ok n) (hn : n.isItem) (hQ : Q.getLast? = some c) (hws : isWs c = false) (hcq : c ∉ py!"*+?}")
    (ht : QuantText rt.toPyRuntime t mn mx) :
    (parseQuery rt cfg (Q ++ t)).1 =
      .ok (.mk (n.kind.withBounds mn mx) n.children (n.loc.map fun l => ⟨l.start, Q.length + t.length⟩)) := by
  obtain ⟨x, c1, c2, c3, c4, c5⟩ := main_at h (by rcases hn with ⟨_, _, h⟩ | ⟨_, _, h⟩ <;> simp [h]) 0
  have c5 : x.Denotes rt.toPyRuntime cfg n := by simpa [Node.shift_zero] using c5
  obtain ⟨hfree, q, v, y, hlq, qwf, qb, hv, hvn, a, hspan⟩ := quantText_at cfg ht (0 + Q.length)
  have wfq : optQuantWF (some q) := by intro x hx; cases hx; exact qwf
  have hl := c4.append hlq hfree
  have sp : ∀ ts : List Tok, ts = x.lv ++ quantLv (some q) → cfg.span ts = n.loc.map fun l => ⟨l.start, Q.length + t.length⟩ := by
    rintro ts rfl
    rw [span_ends (u := x.lv) (v := v) (y := x.lv ++ y) (CQ.lv_ne x) hvn rfl (by rw [hv]; simp) (CQ.denotes_loc c5) hspan.symm]
    by_cases hc : cfg.enableSourceLocations = true
    · cases hloc : n.loc with
      | none => simp [Config.at, hc, fromTo]
      | some l => simp [Config.at, hc, fromTo]
    · have : n.loc = none := by rw [CQ.denotes_loc c5]; simp [Config.span, hc]
      simp [this, fromTo]
  cases x with
  | implicit r q0 =>
    obtain ⟨w1, w2⟩ := c1
    obtain rfl := no_quant_at c4 hQ hws hcq w2 (lv_implicit r q0)
    have wf : (CQ.implicit r (some q)).WF := ⟨w1, wfq⟩
    have hlv : (CQ.implicit r (some q)).lv = (CQ.implicit r none).lv ++ quantLv (some q) := by simp [lv_implicit, quantLv_none]
    refine parse_at wf (best_implicit wf) (by rintro x h; cases h) (by rw [hlv]; exact hl) ?_
    rw [← sp _ hlv]
    obtain ⟨v, fl, _, _, d1, -, rfl⟩ := c5
    exact ⟨v, fl, mn, mx, d1, qb, rfl⟩
  | segment lb e rb q0 =>
    obtain ⟨w1, w2, w3, w4⟩ := c1
    obtain rfl := no_quant_at (u := lb :: (exprLv e ++ [rb])) c4 hQ hws hcq w4 (by simp [lv_segment])
    have wf : (CQ.segment lb e rb (some q)).WF := ⟨w1, w2, w3, wfq⟩
    have hlv : (CQ.segment lb e rb (some q)).lv = (CQ.segment lb e rb none).lv ++ quantLv (some q) := by simp [lv_segment, quantLv_none]
    refine parse_at wf (best_segment wf c2.expr) (by rintro x h; cases h) (by rw [hlv]; exact hl) ?_
    rw [← sp _ hlv]
    obtain ⟨m, _, _, d1, -, rfl⟩ := c5
    exact ⟨m, mn, mx, d1, qb, rfl⟩
  | group lp x rp q0 =>
    obtain ⟨w1, w2, w3, w4, w5⟩ := c1
    obtain rfl := no_quant_at (u := lp :: (x.lv ++ [rp])) c4 hQ hws hcq w5 (by simp [lv_group])
    have wf : (CQ.group lp x rp (some q)).WF := ⟨w1, w2, w3, w4, wfq⟩
    have hlv : (CQ.group lp x rp (some q)).lv = (CQ.group lp x rp none).lv ++ quantLv (some q) := by simp [lv_group, quantLv_none]
    refine parse_at wf (best_group wf c2.content) (by rintro x h; cases h) (by rw [hlv]; exact hl) ?_
    rw [← sp _ hlv]
    obtain ⟨m, _, _, d1, -, rfl⟩ := c5
    exact ⟨m, mn, mx, d1, qb, rfl⟩
  | seq f l =>
    obtain ⟨m, ms, -, -, rfl⟩ := c5
    rcases hn with ⟨_, _, h⟩ | ⟨_, _, h⟩ <;> cases h
  | disj f l =>
    obtain ⟨m, ms, -, -, rfl⟩ := c5
    rcases hn with ⟨_, _, h⟩ | ⟨_, _, h⟩ <;> cases h

/-! ### Cases -/

/-- The segment of a bare literal at a place. -/
def litAt (s : PyStr) (mn mx a b c : Int) : Node :=
  .mk (.segment mn mx) [.mk (.expression none py!"text" .EQUALS s none) [] (some ⟨a, b⟩)] (some ⟨a, c⟩)

example : (parseQuery rt0 locConfig py!"'a'* ('b') 'c'").1 = .ok (.mk .sequence
    [litAt py!"a" 0 (-1) 0 3 4, .mk (.qgroup 1 1) [.mk .sequence [litAt py!"b" 1 1 6 9 9] (some ⟨6, 9⟩)] (some ⟨5, 10⟩), litAt py!"c" 1 1 11 14 14]
    (some ⟨0, 14⟩)) :=
  C67_sequence rt0 locConfig
    [(py!"'a'*", litAt py!"a" 0 (-1) 0 3 4), (py!"('b')", .mk (.qgroup 1 1) [.mk .sequence [litAt py!"b" 1 1 1 4 4] (some ⟨1, 4⟩)] (some ⟨0, 5⟩)),
     (py!"'c'", litAt py!"c" 1 1 0 3 3)] (by decide) (by
      intro p hp
      simp only [List.mem_cons, List.not_mem_nil, or_false] at hp
      rcases hp with rfl | rfl | rfl
      · exact ⟨by decide +kernel, .inl ⟨_, _, rfl⟩⟩
      · exact ⟨by decide +kernel, .inr ⟨_, _, rfl⟩⟩
      · exact ⟨by decide +kernel, .inl ⟨_, _, rfl⟩⟩)

example : (parseQuery rt0 locConfig py!"'a' | ('b')").1 = .ok (.mk .disjunction
    [litAt py!"a" 1 1 0 3 3, .mk .sequence [.mk (.qgroup 1 1) [.mk .sequence [litAt py!"b" 1 1 7 10 10] (some ⟨7, 10⟩)] (some ⟨6, 11⟩)] (some ⟨6, 11⟩)]
    (some ⟨0, 11⟩)) :=
  C67_disjunction rt0 locConfig
    [(py!"'a'", litAt py!"a" 1 1 0 3 3), (py!"('b')", .mk (.qgroup 1 1) [.mk .sequence [litAt py!"b" 1 1 1 4 4] (some ⟨1, 4⟩)] (some ⟨0, 5⟩))] (by decide) (by
      intro p hp
      simp only [List.mem_cons, List.not_mem_nil, or_false] at hp
      rcases hp with rfl | rfl
      · exact ⟨by decide +kernel, .inl (.inl ⟨_, _, rfl⟩)⟩
      · exact ⟨by decide +kernel, .inl (.inr ⟨_, _, rfl⟩)⟩)

example : (parseQuery rt0 locConfig py!"  'a'\n").1 = .ok (litAt py!"a" 1 1 2 5 5) :=
  (C67_whitespace_around rt0 locConfig py!"  " py!"\n" py!"'a'" (by decide) (by decide) _).2 ⟨litAt py!"a" 1 1 0 3 3, by decide +kernel, rfl⟩

example : (parseQuery rt0 locConfig py!"'a' within turn").1 =
    .ok (.mk .withWithin [litAt py!"a" 1 1 0 3 3, .mk (.within .TURN) [] (some ⟨11, 15⟩)] (some ⟨0, 15⟩)) :=
  (C67_within rt0 locConfig py!"'a'" py!"turn" .TURN (by decide) _).2 ⟨litAt py!"a" 1 1 0 3 3, by decide +kernel, by decide, rfl⟩

example : (parseQuery rt0 locConfig py!"('a')").1 = .ok (.mk (.qgroup 1 1) [.mk .sequence [litAt py!"a" 1 1 1 4 4] (some ⟨1, 4⟩)] (some ⟨0, 5⟩)) :=
  C67_group rt0 locConfig py!"'a'" (litAt py!"a" 1 1 0 3 3) (by decide +kernel) (by decide)

example : (parseQuery rt0 locConfig py!"'a'{02,17}").1 = .ok (litAt py!"a" 2 17 0 3 10) :=
  C67_quantifier rt0 locConfig py!"'a'" py!"{02,17}" (litAt py!"a" 1 1 0 3 3) 39 2 17 (by decide +kernel) (.inl ⟨_, _, rfl⟩) rfl (by decide) (by decide)
    (.between (x := py!"02") (y := py!"17") ⟨by decide, by decide, .inr (by decide), by decide⟩ ⟨by decide, by decide, .inr (by decide), by decide⟩ (by decide))

end Fcsql
