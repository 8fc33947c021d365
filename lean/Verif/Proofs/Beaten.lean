/-
Trees that are not the chosen ones: another derivation takes an earlier alternative.
-/
import Verif.Proofs.Precedence

set_option autoImplicit false
set_option linter.unusedSimpArgs false

namespace Fcsql

/-- Every derivation of `u` with trees `f` is preceded by another derivation of a prefix of `u ++ v`, the rest satisfying `K`. -/
def Beaten (g : G) (u v : List Tok) (K : List Tok → Prop) (f : List PTree) : Prop :=
  ∀ c, D g u f c → ∃ u' v' f' c', u' ++ v' = u ++ v ∧ D g u' f' c' ∧ K v' ∧ Before c' c

/-- All derivations have `n` trees. -/
def Width (g : G) (n : Nat) : Prop := ∀ u f c, D g u f c → f.length = n

theorem width_tok {t : TokType} : Width (.tok t) 1 := by
  intro u f c h
  obtain ⟨y, -, -, rfl, -⟩ := D_tok.1 h
  rfl

theorem width_rule {r : Rule} : Width (.rule r) 1 := by
  intro u f c h
  obtain ⟨y, -, rfl⟩ := D_rule.1 h
  rfl

theorem width_alt {a b : G} {n : Nat} (ha : Width a n) (hb : Width b n) : Width (.alt a b) n := by
  intro u f c h
  rcases D_alt.1 h with ⟨_, -, h2⟩ | ⟨_, -, h2⟩
  · exact ha _ _ _ h2
  · exact hb _ _ _ h2

theorem width_seq {a b : G} {n m : Nat} (ha : Width a n) (hb : Width b m) : Width (.seq a b) (n + m) := by
  intro u f c h
  obtain ⟨ta, tb, fa, fb, ca, cb, rfl, rfl, rfl, h1, h2⟩ := D_seq.1 h
  simp [ha _ _ _ h1, hb _ _ _ h2]

theorem width_gP : Width gP 1 := width_alt width_rule (width_alt width_rule (width_alt width_rule width_rule))
theorem width_gQ : Width gQ 1 := width_alt width_rule (width_alt width_rule width_rule)
theorem width_gR : Width gR 1 := width_alt width_rule (width_alt width_rule (width_alt width_rule width_rule))
theorem width_OP : Width (.seq (.tok .OR) gP) 2 := width_seq width_tok width_gP
theorem width_AR : Width (.seq (.tok .AND) gR) 2 := width_seq width_tok width_gR

theorem beaten_rule {r : Rule} {u v : List Tok} {K : List Tok → Prop} {ks : List PTree} (h : Beaten (body r) u v K ks) :
    Beaten (.rule r) u v K [.node r ks] := by
  intro c hd
  obtain ⟨f, hd2, e⟩ := D_rule.1 hd
  simp only [List.cons.injEq, PTree.node.injEq, true_and, and_true] at e
  subst e
  obtain ⟨u', v', f', c', h1, h2, h3, h4⟩ := h c hd2
  exact ⟨u', v', _, c', h1, .rule h2, h3, h4⟩

theorem split_width {a : G} {n : Nat} (hw : Width a n) {u1 u2 : List Tok} {f1 f2 : List PTree} (hn : f1.length = n)
    (hl : PTree.leavesL f1 = u1) {ta tb : List Tok} {fa fb : List PTree} {ca : List Bool} (ha : D a ta fa ca)
    (eu : u1 ++ u2 = ta ++ tb) (ef : f1 ++ f2 = fa ++ fb) : ta = u1 ∧ tb = u2 ∧ fa = f1 ∧ fb = f2 := by
  obtain ⟨rfl, rfl⟩ := List.append_inj ef (by rw [hn, hw _ _ _ ha])
  have := leavesL_of_D ha
  rw [hl] at this
  subst this
  exact ⟨rfl, (List.append_cancel_left eu).symm, rfl, rfl⟩

theorem beaten_seqL {a b : G} {n : Nat} (hw : Width a n) {u1 u2 v : List Tok} {K : List Tok → Prop} {f1 f2 : List PTree} (hn : f1.length = n)
    (hl : PTree.leavesL f1 = u1) (h : Beaten a u1 (u2 ++ v) (After b K) f1) : Beaten (.seq a b) (u1 ++ u2) v K (f1 ++ f2) := by
  intro c hd
  obtain ⟨ta, tb, fa, fb, ca, cb, eu, ef, rfl, ha, hb⟩ := D_seq.1 hd
  obtain ⟨rfl, rfl, rfl, rfl⟩ := split_width hw hn hl ha eu ef
  obtain ⟨u', v', f', c', h1, h2, ⟨w, z, g, d, rfl, hb', hz⟩, h4⟩ := h ca ha
  exact ⟨u' ++ w, z, _, _, by simpa using h1, .seq h2 hb', hz, h4.append⟩

theorem beaten_seqR {a b : G} {n : Nat} (hw : Width a n) {u1 u2 v : List Tok} {K : List Tok → Prop} {f1 f2 : List PTree} (hn : f1.length = n)
    (hl : PTree.leavesL f1 = u1) (h : Beaten b u2 v K f2) : Beaten (.seq a b) (u1 ++ u2) v K (f1 ++ f2) := by
  intro c hd
  obtain ⟨ta, tb, fa, fb, ca, cb, eu, ef, rfl, ha, hb⟩ := D_seq.1 hd
  obtain ⟨rfl, rfl, rfl, rfl⟩ := split_width hw hn hl ha eu ef
  obtain ⟨u', v', f', c', h1, h2, hz, h4⟩ := h cb hb
  exact ⟨ta ++ u', v', _, _, by simp [h1], .seq ha h2, hz, h4.prepend⟩

theorem beaten_starHead {a : G} {n : Nat} (hw : Width a n) {u1 u2 v : List Tok} {K : List Tok → Prop} {f1 f2 : List PTree} (hn : f1.length = n)
    (hn0 : n ≠ 0) (hl : PTree.leavesL f1 = u1) (h : Beaten a u1 (u2 ++ v) (After (.star a) K) f1) :
    Beaten (.star a) (u1 ++ u2) v K (f1 ++ f2) := by
  intro c hd
  rcases D_star.1 hd with ⟨-, e, -⟩ | ⟨ta, tb, fa, fb, ca, cb, eu, ef, rfl, ha, hb⟩
  · have := congrArg List.length e
    rw [List.length_append, hn, List.length_nil] at this
    omega
  obtain ⟨rfl, rfl, rfl, rfl⟩ := split_width hw hn hl ha eu ef
  obtain ⟨u', v', f', c', h1, h2, ⟨w, z, g, d, rfl, hb', hz⟩, h4⟩ := h ca ha
  exact ⟨u' ++ w, z, _, _, by simpa using h1, .starCons h2 hb', hz, h4.append.cons⟩

theorem beaten_starTail {a : G} {n : Nat} (hw : Width a n) {u1 u2 v : List Tok} {K : List Tok → Prop} {f1 f2 : List PTree} (hn : f1.length = n)
    (hn0 : n ≠ 0) (hl : PTree.leavesL f1 = u1) (h : Beaten (.star a) u2 v K f2) : Beaten (.star a) (u1 ++ u2) v K (f1 ++ f2) := by
  intro c hd
  rcases D_star.1 hd with ⟨-, e, -⟩ | ⟨ta, tb, fa, fb, ca, cb, eu, ef, rfl, ha, hb⟩
  · have := congrArg List.length e
    rw [List.length_append, hn, List.length_nil] at this
    omega
  obtain ⟨rfl, rfl, rfl, rfl⟩ := split_width hw hn hl ha eu ef
  obtain ⟨u', v', f', c', h1, h2, hz, h4⟩ := h cb hb
  exact ⟨ta ++ u', v', _, _, by simp [h1], .starCons ha h2, hz, h4.prepend.cons⟩

theorem beaten_here {a b : G} {u v : List Tok} {K : List Tok → Prop} {f : List PTree} (hna : ∀ c, ¬ D a u f c) (h : After a K (u ++ v)) :
    Beaten (.alt a b) u v K f := by
  intro c hd
  rcases D_alt.1 hd with ⟨c', rfl, hd2⟩ | ⟨c', rfl, hd2⟩
  · exact absurd hd2 (hna c')
  obtain ⟨w, z, g, d, e, hd3, hz⟩ := h
  exact ⟨w, z, g, _, e.symm, .altL hd3, hz, before_false_true⟩

theorem beaten_altL {a b : G} {u v : List Tok} {K : List Tok → Prop} {f : List PTree} (hnb : ∀ c, ¬ D b u f c) (h : Beaten a u v K f) :
    Beaten (.alt a b) u v K f := by
  intro c hd
  rcases D_alt.1 hd with ⟨c', rfl, hd2⟩ | ⟨c', rfl, hd2⟩
  · obtain ⟨u', v', f', c'', h1, h2, hz, h4⟩ := h c' hd2
    exact ⟨u', v', _, _, h1, .altL h2, hz, h4.cons⟩
  · exact absurd hd2 (hnb c')

theorem beaten_altR {a b : G} {u v : List Tok} {K : List Tok → Prop} {f : List PTree} (hna : ∀ c, ¬ D a u f c) (h : Beaten b u v K f) :
    Beaten (.alt a b) u v K f := by
  intro c hd
  rcases D_alt.1 hd with ⟨c', rfl, hd2⟩ | ⟨c', rfl, hd2⟩
  · exact absurd hd2 (hna c')
  · obtain ⟨u', v', f', c'', h1, h2, hz, h4⟩ := h c' hd2
    exact ⟨u', v', _, _, h1, .altR h2, hz, h4.cons⟩

theorem Beaten.not_chosen {g : G} {u : List Tok} {f : List PTree} (h : Beaten g u [] (· = []) f) {c : List Bool} : ¬ Chosen g u f c := by
  intro hc
  obtain ⟨u', v', f', c', h1, h2, rfl, h4⟩ := h c hc.derives
  have : u' = u := by simpa using h1
  subst this
  exact hc.not_after h2 h4

/-! ### Derivations of expressions -/

theorem D_expr {e : CExpr} (h : e.WF) {r : Rule} (hr : e.rule = r) : ∃ c, D (.rule r) e.lv [e.toTree] c := by
  subst hr
  have := D_of_fits (e.fits h)
  simpa [PTree.leavesL] using this

theorem D_gP {e : CExpr} (h : e.WF) (hr : e.rule ≠ .expression_or) : ∃ c, D gP e.lv [e.toTree] c := by
  have := D_of_fits (fits_alts (rs := [.expression_basic, .expression_group, .expression_and, .expression_not]) (e.fits h)
    (by revert hr; cases e <;> simp [CExpr.rule]))
  rw [show PTree.leavesL [e.toTree] = e.lv by simp [PTree.leavesL, CExpr.lv]] at this
  exact this

theorem D_not_rule {r : Rule} {e : CExpr} {u : List Tok} (hr : e.rule ≠ r) (c : List Bool) : ¬ D (.rule r) u [e.toTree] c := by
  intro h
  obtain ⟨f, -, e'⟩ := D_rule.1 h
  cases e <;> simp only [CExpr.toTree, List.cons.injEq, PTree.node.injEq, and_true] at e' <;> exact hr e'.1

theorem tailOf_WF {o : Tok} {op : TokType} {no : Rule} (ho : o.type = op) {l : List CExpr} (h : ∀ e ∈ l, e.WF ∧ e.rule ≠ no) :
    (tailOf o l).WF op no := by
  induction l with
  | nil => trivial
  | cons e l ih => exact ⟨ho, (h e (by simp)).1, (h e (by simp)).2, ih fun x hx => h x (by simp [hx])⟩

theorem andE_WF {f : CExpr} {l : List CExpr} (hf : f.WF ∧ f.rule ≠ .expression_or ∧ f.rule ≠ .expression_and)
    (hl : ∀ e ∈ l, e.WF ∧ e.rule ≠ .expression_and) : (andE f l).WF := by
  cases l with
  | nil => exact hf.1
  | cons e l => exact ⟨hf.1, hf.2.1, hf.2.2, by simp [tailOf], tailOf_WF rfl hl⟩

theorem orE_WF {f : CExpr} {l : List CExpr} (hf : f.WF ∧ f.rule ≠ .expression_or) (hl : ∀ e ∈ l, e.WF ∧ e.rule ≠ .expression_or) :
    (orE f l).WF := by
  cases l with
  | nil => exact hf.1
  | cons e l => exact ⟨hf.1, hf.2, by simp [tailOf], tailOf_WF rfl hl⟩

theorem andE_lv (f : CExpr) (l : List CExpr) : (andE f l).lv = f.lv ++ l.flatMap fun e => andTok :: e.lv := by
  cases l with
  | nil => simp [andE]
  | cons e l =>
    have : (andE f (e :: l)).lv = f.lv ++ PTree.leavesL (opForest andTok (e :: l)) := by
      rw [← tailOf_forest]
      simp [andE, CExpr.lv, CExpr.toTree, PTree.leaves, PTree.leavesL]
    rw [this, opForest_leaves]

theorem orE_lv (f : CExpr) (l : List CExpr) : (orE f l).lv = f.lv ++ l.flatMap fun e => orTok :: e.lv := by
  cases l with
  | nil => simp [orE]
  | cons e l =>
    have : (orE f (e :: l)).lv = f.lv ++ PTree.leavesL (opForest orTok (e :: l)) := by
      rw [← tailOf_forest]
      simp [orE, CExpr.lv, CExpr.toTree, PTree.leaves, PTree.leavesL]
    rw [this, opForest_leaves]

theorem unitE_ok {u : CUnit} (h : Atom u.2) : (unitE u).WF ∧ (unitE u).rule ≠ .expression_or ∧ (unitE u).rule ≠ .expression_and :=
  ⟨notsE_WF h.wf, notsE_rule h.small⟩

theorem andE_rule {f : CExpr} {l : List CExpr} (hf : f.rule ≠ .expression_or) : (andE f l).rule ≠ .expression_or := by
  cases l with
  | nil => exact hf
  | cons e l => simp [andE, CExpr.rule]

theorem chunkE_ok {c : CChunk} (h : ChunkOk c) : (chunkE c).WF ∧ (chunkE c).rule ≠ .expression_or := by
  refine ⟨andE_WF (unitE_ok (h c.1 (by simp))) ?_, andE_rule (unitE_ok (h c.1 (by simp))).2.1⟩
  intro e he
  obtain ⟨u, hu, rfl⟩ := List.mem_map.1 he
  have := unitE_ok (h u (by simp [hu]))
  exact ⟨this.1, this.2.2⟩

theorem D_chunks {Cs : List CChunk} (h : ∀ c ∈ Cs, ChunkOk c) : ∃ c, D gO (chunksLv Cs) (opForest orTok (Cs.map chunkE)) c := by
  induction Cs with
  | nil => exact ⟨_, .starNil⟩
  | cons x Cs ih =>
    obtain ⟨c1, h1⟩ := ih fun d hd => h d (by simp [hd])
    obtain ⟨hw, hr⟩ := chunkE_ok (h x (by simp))
    obtain ⟨c2, h2⟩ := D_gP hw hr
    have := D.starCons (.seq (.tok (t := .OR) (x := orTok) rfl) h2) h1
    rw [chunkE_lv] at this
    exact ⟨_, by simpa [chunksLv, opForest] using this⟩

theorem after_star {Cs : List CChunk} (h : ∀ c ∈ Cs, ChunkOk c) : After gO (· = []) (chunksLv Cs) := by
  obtain ⟨c, hc⟩ := D_chunks h
  exact ⟨_, [], _, c, by simp, hc, rfl⟩

theorem after_plus {Cs : List CChunk} (h : ∀ c ∈ Cs, ChunkOk c) (hn : Cs ≠ []) : After (.seq (.seq (.tok .OR) gP) gO) (· = []) (chunksLv Cs) := by
  cases Cs with
  | nil => exact absurd rfl hn
  | cons x Cs =>
    obtain ⟨c1, h1⟩ := D_chunks (Cs := Cs) fun d hd => h d (by simp [hd])
    obtain ⟨hw, hr⟩ := chunkE_ok (h x (by simp))
    obtain ⟨c2, h2⟩ := D_gP hw hr
    have := D.seq (.seq (.tok (t := .OR) (x := orTok) rfl) h2) h1
    rw [chunkE_lv] at this
    exact ⟨_, [], _, _, by simp [chunksLv], this, rfl⟩

/-! ### Other readings -/

/-- `!a | ... | b & c` can be read as `!(a | ... | b) & c`. -/
theorem other_and {k : Nat} {a : CExpr} {S : List CChunk} {w x : CUnit} {l : List CUnit} {R : List CChunk} (ha : Atom a)
    (hS : ∀ s ∈ S, ChunkOk s ∧ s.2 = []) (hd : ChunkOk (w, x :: l)) {K : List Tok → Prop} (hK : K (chunksLv R)) :
    After (.rule .expression_and) K (chunkLv ((k + 1, a), []) ++ chunksLv (S ++ (w, x :: l) :: R)) := by
  let inner := orE (unitE (k, a)) (S.map chunkE ++ [unitE w])
  let e := andE (.not notTok inner) ((x :: l).map unitE)
  have hi : inner.WF := by
    refine orE_WF ⟨(unitE_ok (u := (k, a)) ha).1, (unitE_ok (u := (k, a)) ha).2.1⟩ ?_
    intro y hy
    rcases List.mem_append.1 hy with hy | hy
    · obtain ⟨s, hs, rfl⟩ := List.mem_map.1 hy
      exact chunkE_ok (hS s hs).1
    · rw [List.mem_singleton] at hy
      subst hy
      have := unitE_ok (hd w (by simp))
      exact ⟨this.1, this.2.1⟩
  have he : e.WF := by
    refine andE_WF ⟨⟨rfl, hi⟩, by simp [CExpr.rule], by simp [CExpr.rule]⟩ ?_
    intro y hy
    obtain ⟨u, hu, rfl⟩ := List.mem_map.1 hy
    have := unitE_ok (hd u (List.mem_cons_of_mem _ hu))
    exact ⟨this.1, this.2.2⟩
  obtain ⟨c, hc⟩ := D_expr he (r := .expression_and) (by simp [e, andE, CExpr.rule])
  refine ⟨_, chunksLv R, _, c, ?_, hc, hK⟩
  show _ = e.lv ++ _
  have e1 : e.lv = notTok :: inner.lv ++ restLv (x :: l) := by
    rw [andE_lv, CExpr.lv_not]
    simp [restLv, List.flatMap_map, unitE_lv]
  have e2 : inner.lv = unitLv (k, a) ++ chunksLv S ++ orTok :: unitLv w := by
    rw [orE_lv, unitE_lv]
    simp [chunksLv, List.flatMap_map, chunkE_lv, unitE_lv]
  rw [e1, e2]
  simp [chunkLv, chunksLv, restLv, unitLv, List.replicate_succ]

/-- `... & !a ... | c` can be read as `... & (!a ... | c)`. -/
theorem other_or {u : CUnit} {l : List CUnit} {d : CChunk} {R : List CChunk} (hu : ChunkOk (u, l)) (hd : ChunkOk d)
    {K : List Tok → Prop} (hK : K (chunksLv R)) :
    After (.rule .expression_or) (After (.star (.seq (.tok .AND) gR)) K) (unitLv u ++ (restLv l ++ chunksLv (d :: R))) := by
  let e := orE (chunkE (u, l)) [chunkE d]
  have he : e.WF := by
    refine orE_WF (chunkE_ok hu) ?_
    intro y hy
    rw [List.mem_singleton] at hy
    subst hy
    exact chunkE_ok hd
  obtain ⟨c, hc⟩ := D_expr he (r := .expression_or) (by simp [e, orE, CExpr.rule])
  refine ⟨_, chunksLv R, _, c, ?_, hc, ⟨[], chunksLv R, [], _, rfl, .starNil, hK⟩⟩
  show _ = e.lv ++ _
  rw [orE_lv, chunkE_lv]
  simp [chunkE_lv, chunkLv, chunksLv, restLv]

theorem unitE_toTree_leaves (u : CUnit) : PTree.leavesL [(unitE u).toTree] = unitLv u := by
  rw [← unitE_lv]; simp [PTree.leavesL, CExpr.lv]

theorem chunkE_toTree_leaves (c : CChunk) : PTree.leavesL [(chunkE c).toTree] = chunkLv c := by
  rw [← chunkE_lv]; simp [PTree.leavesL, CExpr.lv]

/-- A single negated atom as operand of a disjunction is beaten by a conjunction. -/
theorem beaten_lone {k : Nat} {a : CExpr} {v : List Tok} {K : List Tok → Prop}
    (h : After (.rule .expression_and) K (chunkLv ((k + 1, a), []) ++ v)) :
    Beaten gP (chunkLv ((k + 1, a), [])) v K [(chunkE ((k + 1, a), [])).toTree] := by
  have hr : (chunkE ((k + 1, a), [])).rule = .expression_not := by simp [chunkE, andE, unitE, notsE, CExpr.rule]
  exact beaten_altR (D_not_rule (by simp [hr])) (beaten_altR (D_not_rule (by simp [hr])) (beaten_here (D_not_rule (by simp [hr])) h))

/-- A negated operand of a conjunction is beaten by a disjunction. -/
theorem beaten_later {k : Nat} {a : CExpr} {v : List Tok} {K : List Tok → Prop} (h : After (.rule .expression_or) K (unitLv (k + 1, a) ++ v)) :
    Beaten gR (unitLv (k + 1, a)) v K [(unitE (k + 1, a)).toTree] := by
  have hr : (unitE (k + 1, a)).rule = .expression_not := by simp [unitE, notsE, CExpr.rule]
  exact beaten_altR (D_not_rule (by simp [hr])) (beaten_altR (D_not_rule (by simp [hr])) (beaten_here (D_not_rule (by simp [hr])) h))

theorem beaten_ands {l1 l2 : List CUnit} {k : Nat} {a : CExpr} {v : List Tok} {K : List Tok → Prop}
    (h : After (.rule .expression_or) (After (.star (.seq (.tok .AND) gR)) K) (unitLv (k + 1, a) ++ (restLv l2 ++ v))) :
    Beaten (.star (.seq (.tok .AND) gR)) (restLv (l1 ++ (k + 1, a) :: l2)) v K (opForest andTok ((l1 ++ (k + 1, a) :: l2).map unitE)) := by
  induction l1 with
  | nil =>
    have e : restLv ([] ++ (k + 1, a) :: l2) = ([andTok] ++ unitLv (k + 1, a)) ++ restLv l2 := by simp [restLv]
    have ef : opForest andTok (([] ++ (k + 1, a) :: l2).map unitE) =
        ([.leaf andTok] ++ [(unitE (k + 1, a)).toTree]) ++ opForest andTok (l2.map unitE) := by simp [opForest]
    rw [e, ef]
    refine beaten_starHead width_AR rfl (by simp) ?_ (beaten_seqR width_tok rfl rfl (beaten_later h))
    simpa [PTree.leavesL, PTree.leaves] using unitE_toTree_leaves (k + 1, a)
  | cons u l1 ih =>
    have e : restLv (u :: l1 ++ (k + 1, a) :: l2) = ([andTok] ++ unitLv u) ++ restLv (l1 ++ (k + 1, a) :: l2) := by simp [restLv]
    have ef : opForest andTok ((u :: l1 ++ (k + 1, a) :: l2).map unitE) =
        ([.leaf andTok] ++ [(unitE u).toTree]) ++ opForest andTok ((l1 ++ (k + 1, a) :: l2).map unitE) := by simp [opForest]
    rw [e, ef]
    refine beaten_starTail width_AR rfl (by simp) ?_ ih
    simpa [PTree.leavesL, PTree.leaves] using unitE_toTree_leaves u

/-- `a+` instead of `a*`. -/
theorem Beaten.plus {a : G} {n : Nat} (hw : Width a n) {u1 u2 v : List Tok} {K : List Tok → Prop} {f1 f2 : List PTree} (hn : f1.length = n)
    (hl : PTree.leavesL f1 = u1) (h : Beaten (.star a) (u1 ++ u2) v K (f1 ++ f2)) : Beaten (.seq a (.star a)) (u1 ++ u2) v K (f1 ++ f2) := by
  intro c hd
  obtain ⟨ta, tb, fa, fb, ca, cb, eu, ef, rfl, ha, hb⟩ := D_seq.1 hd
  obtain ⟨rfl, rfl, rfl, rfl⟩ := split_width hw hn hl ha eu ef
  obtain ⟨u', v', f', c', h1, h2, hz, p, x, y, e1, e2⟩ := h _ (.starCons ha hb)
  cases p with
  | nil => simp at e2
  | cons b p =>
    simp only [List.cons_append, List.cons.injEq] at e1 e2
    obtain ⟨rfl, e2⟩ := e2
    rcases D_star.1 h2 with ⟨-, -, e3⟩ | ⟨ta', tb', fa', fb', ca', cb', rfl, rfl, rfl, ha', hb'⟩
    · rw [e1] at e3; simp at e3
    · refine ⟨_, v', _, _, h1, .seq ha' hb', hz, p, x, y, ?_, e2⟩
      simpa using e1

/-- A chunk with a negation after its first operand. -/
theorem beaten_chunk {u : CUnit} {l1 l2 : List CUnit} {k : Nat} {a : CExpr} {v : List Tok} {K : List Tok → Prop}
    (h : After (.rule .expression_or) (After (.star (.seq (.tok .AND) gR)) K) (unitLv (k + 1, a) ++ (restLv l2 ++ v))) :
    Beaten gP (chunkLv (u, l1 ++ (k + 1, a) :: l2)) v K [(chunkE (u, l1 ++ (k + 1, a) :: l2)).toTree] := by
  have hr : (chunkE (u, l1 ++ (k + 1, a) :: l2)).rule = .expression_and := by
    cases l1 <;> simp [chunkE, andE, CExpr.rule]
  refine beaten_altR (D_not_rule (by simp [hr])) (beaten_altR (D_not_rule (by simp [hr])) (beaten_altL (D_not_rule (by simp [hr])) ?_))
  have ef : (chunkE (u, l1 ++ (k + 1, a) :: l2)).toTree =
      .node .expression_and ([(unitE u).toTree] ++ opForest andTok ((l1 ++ (k + 1, a) :: l2).map unitE)) := by
    cases l1 <;> simp [chunkE, andE, CExpr.toTree, tailOf, CTail.forest, tailOf_forest, opForest]
  rw [ef]
  refine beaten_rule (beaten_seqR width_gQ rfl (unitE_toTree_leaves u) ?_)
  have hb := beaten_ands (l1 := l1) h
  cases l1 with
  | nil =>
    have e : restLv ([] ++ (k + 1, a) :: l2) = (andTok :: unitLv (k + 1, a)) ++ restLv l2 := by simp [restLv]
    have ef : opForest andTok (([] ++ (k + 1, a) :: l2).map unitE) =
        [.leaf andTok, (unitE (k + 1, a)).toTree] ++ opForest andTok (l2.map unitE) := by simp [opForest]
    rw [e, ef] at hb
    rw [ef]
    have := Beaten.plus width_AR rfl (by simpa [PTree.leavesL, PTree.leaves] using unitE_toTree_leaves (k + 1, a)) hb
    rw [← e] at this
    exact this
  | cons w l1 =>
    have e : restLv (w :: l1 ++ (k + 1, a) :: l2) = (andTok :: unitLv w) ++ restLv (l1 ++ (k + 1, a) :: l2) := by simp [restLv]
    have ef : opForest andTok ((w :: l1 ++ (k + 1, a) :: l2).map unitE) =
        [.leaf andTok, (unitE w).toTree] ++ opForest andTok ((l1 ++ (k + 1, a) :: l2).map unitE) := by simp [opForest]
    rw [e, ef] at hb
    rw [ef]
    have := Beaten.plus width_AR rfl (by simpa [PTree.leavesL, PTree.leaves] using unitE_toTree_leaves w) hb
    rw [← e] at this
    exact this

/-! ### Lists -/

theorem first_long {Cs : List CChunk} (h : ∃ c ∈ Cs, c.2 ≠ []) : ∃ S d R, Cs = S ++ d :: R ∧ (∀ s ∈ S, s.2 = []) ∧ d.2 ≠ [] := by
  induction Cs with
  | nil => obtain ⟨c, hc, -⟩ := h; simp at hc
  | cons c Cs ih =>
    by_cases hc : c.2 = []
    · obtain ⟨d, hd, hn⟩ := h
      rcases List.mem_cons.1 hd with rfl | hd
      · exact absurd hc hn
      obtain ⟨S, d, R, rfl, h1, h2⟩ := ih ⟨d, hd, hn⟩
      refine ⟨c :: S, d, R, rfl, ?_, h2⟩
      intro s hs
      rcases List.mem_cons.1 hs with rfl | hs
      · exact hc
      · exact h1 s hs
    · exact ⟨[], c, Cs, rfl, by simp, hc⟩

theorem later_split {c : CChunk} (h : LaterNegation c.list) : ∃ l1 k a l2, c.2 = l1 ++ (k + 1, a) :: l2 := by
  obtain ⟨k, a, hm⟩ := h
  obtain ⟨l1, l2, e⟩ := List.append_of_mem hm
  exact ⟨l1, k, a, l2, e⟩

theorem lone_split {c : CChunk} (h : LoneNegation c.list) : ∃ k a, c = ((k + 1, a), []) := by
  obtain ⟨k, a, e⟩ := h
  simp only [CChunk.list, List.cons.injEq] at e
  exact ⟨k, a, Prod.ext e.1 e.2⟩

theorem CChunk.list_length (c : CChunk) : c.list.length = 1 ↔ c.2 = [] := by
  rcases c with ⟨u, _ | ⟨w, l⟩⟩ <;> simp [CChunk.list]

/-- The operand is beaten if a later chunk takes part in its negation. -/
theorem beaten_operand {c : CChunk} {Cs : List CChunk} (h : ∀ x ∈ c :: Cs, ChunkOk x) {K : List Tok → Prop} (keep : List CChunk → Prop)
    (hK : ∀ R, (∀ x ∈ R, ChunkOk x) → keep R → K (chunksLv R))
    (hc : (LoneNegation c.list ∧ ∃ S d R, Cs = S ++ d :: R ∧ d.2 ≠ [] ∧ (∀ s ∈ S, s.2 = []) ∧ keep R) ∨
      (LaterNegation c.list ∧ ∃ d R, Cs = d :: R ∧ keep R)) :
    Beaten gP (chunkLv c) (chunksLv Cs) K [(chunkE c).toTree] := by
  rcases hc with ⟨hl, S, d, R, rfl, h1, h2, h3⟩ | ⟨hl, d, R, rfl, h3⟩
  · obtain ⟨k, a, rfl⟩ := lone_split hl
    rcases d with ⟨w, _ | ⟨x, l⟩⟩
    · simp at h1
    · refine beaten_lone (other_and (h ((k + 1, a), []) (by simp) (k + 1, a) (by simp)) (fun s hs => ⟨h s (by simp [hs]), h2 s hs⟩)
        (h _ (by simp)) (hK R (fun y hy => h y (by simp [hy])) h3))
  · obtain ⟨l1, k, a, l2, e⟩ := later_split hl
    rcases c with ⟨u, l⟩
    simp only at e
    subst e
    refine beaten_chunk (other_or ?_ (h d (by simp)) (hK R (fun y hy => h y (by simp [hy])) h3))
    intro y hy
    refine h (u, l1 ++ (k + 1, a) :: l2) (by simp) y ?_
    simp at hy ⊢
    rcases hy with rfl | hy <;> simp [*]

theorem chunk_tree_leaves (c : CChunk) : PTree.leavesL [.leaf orTok, (chunkE c).toTree] = orTok :: chunkLv c := by
  rw [← chunkE_lv]; simp [PTree.leavesL, PTree.leaves, CExpr.lv]

theorem beaten_chunks {Cs : List CChunk} (h : ∀ c ∈ Cs, ChunkOk c) (hc : ¬ CalmRest (Cs.map CChunk.list)) :
    Beaten gO (chunksLv Cs) [] (· = []) (opForest orTok (Cs.map chunkE)) := by
  induction Cs with
  | nil => exact absurd trivial hc
  | cons c Cs ih =>
    have e : chunksLv (c :: Cs) = ([orTok] ++ chunkLv c) ++ chunksLv Cs := by simp [chunksLv]
    have ef : opForest orTok ((c :: Cs).map chunkE) = ([.leaf orTok] ++ [(chunkE c).toTree]) ++ opForest orTok (Cs.map chunkE) := by simp [opForest]
    rw [e, ef]
    by_cases hrest : CalmRest (Cs.map CChunk.list)
    · refine beaten_starHead width_OP rfl (by simp) (chunk_tree_leaves c) (beaten_seqR width_tok rfl rfl ?_)
      rw [List.append_nil]
      refine beaten_operand h (fun _ => True) (fun R hR _ => after_star hR) ?_
      by_cases h1 : LoneNegation c.list → ∀ C' ∈ Cs.map CChunk.list, C'.length = 1
      · by_cases h2 : LaterNegation c.list → Cs.map CChunk.list = []
        · exact absurd ⟨h1, h2, hrest⟩ hc
        · rw [Classical.not_imp] at h2
          refine .inr ⟨h2.1, ?_⟩
          cases Cs with
          | nil => exact absurd rfl h2.2
          | cons d R => exact ⟨d, R, rfl, trivial⟩
      · rw [Classical.not_imp] at h1
        refine .inl ⟨h1.1, ?_⟩
        have : ∃ d ∈ Cs, d.2 ≠ [] := by
          refine Classical.byContradiction fun hn => h1.2 ?_
          intro C' hC'
          obtain ⟨d, hd, rfl⟩ := List.mem_map.1 hC'
          rw [CChunk.list_length]
          exact Classical.byContradiction fun hd2 => hn ⟨d, hd, hd2⟩
        obtain ⟨S, d, R, e, k1, k2⟩ := first_long this
        exact ⟨S, d, R, e, k2, k1, trivial⟩
    · exact beaten_starTail width_OP rfl (by simp) (chunk_tree_leaves c) (ih (fun d hd => h d (by simp [hd])) hrest)

/-- **The chosen tree** is another one, if the chunks are not calm. -/
theorem not_best_whole {c : CChunk} {Cs : List CChunk} (h : ∀ x ∈ c :: Cs, ChunkOk x) (hc : ¬ Calm ((c :: Cs).map CChunk.list)) :
    ¬ (wholeE c Cs).Best := by
  rintro ⟨dd, hb⟩
  suffices hs : Beaten (.rule .expression_or) (wholeLv c Cs) [] (· = []) [(wholeE c Cs).toTree] by
    have hr : (wholeE c Cs).rule = .expression_or := by
      obtain ⟨e, he⟩ | hn := Classical.em (∃ e, Cs = [] ∧ e = c)
      · obtain ⟨rfl, -⟩ := he
        refine absurd ⟨?_, ?_, trivial⟩ hc <;> simp
      · cases Cs with
        | nil => exact absurd ⟨c, rfl, rfl⟩ hn
        | cons d Cs => simp [wholeE, orE, CExpr.rule]
    rw [wholeE_lv] at hb
    refine Beaten.not_chosen (beaten_rule ?_) hb
    refine beaten_altR (D_not_rule (by simp [hr])) (beaten_altR (D_not_rule (by simp [hr])) (beaten_altL ?_ hs))
    intro c' hd
    rcases D_alt.1 hd with ⟨c'', -, hd2⟩ | ⟨c'', -, hd2⟩
    · exact D_not_rule (by simp [hr]) _ hd2
    · exact D_not_rule (by simp [hr]) _ hd2
  cases Cs with
  | nil => refine absurd ⟨?_, ?_, trivial⟩ hc <;> simp
  | cons d Cs =>
    have ef : (wholeE c (d :: Cs)).toTree = .node .expression_or ([(chunkE c).toTree] ++ opForest orTok ((d :: Cs).map chunkE)) := by
      simp [wholeE, orE, CExpr.toTree, tailOf, CTail.forest, tailOf_forest, opForest]
    rw [ef]
    refine beaten_rule ?_
    by_cases hrest : CalmRest ((d :: Cs).map CChunk.list)
    · refine beaten_seqL width_gP rfl (chunkE_toTree_leaves c) ?_
      rw [List.append_nil]
      refine beaten_operand h (· ≠ []) (fun R hR hn => after_plus hR hn) ?_
      by_cases h1 : LoneNegation c.list → ∀ C' ∈ ((d :: Cs).map CChunk.list).dropLast, C'.length = 1
      · by_cases h2 : LaterNegation c.list → ((d :: Cs).map CChunk.list).length ≤ 1
        · exact absurd ⟨h1, h2, hrest⟩ hc
        · rw [Classical.not_imp] at h2
          refine .inr ⟨h2.1, d, Cs, rfl, ?_⟩
          rintro rfl
          simp at h2
      · rw [Classical.not_imp] at h1
        refine .inl ⟨h1.1, ?_⟩
        obtain ⟨L, z, eL⟩ : ∃ L z, d :: Cs = L ++ [z] :=
          ⟨(d :: Cs).dropLast, (d :: Cs).getLast (by simp), (List.dropLast_concat_getLast (by simp)).symm⟩
        have e2 : ((d :: Cs).map CChunk.list).dropLast = L.map CChunk.list := by
          rw [eL, List.map_append, List.map_singleton, List.dropLast_concat]
        have : ∃ x ∈ L, x.2 ≠ [] := by
          refine Classical.byContradiction fun hn => h1.2 ?_
          intro C' hC'
          rw [e2] at hC'
          obtain ⟨x, hx, rfl⟩ := List.mem_map.1 hC'
          rw [CChunk.list_length]
          exact Classical.byContradiction fun hx2 => hn ⟨x, hx, hx2⟩
        obtain ⟨S, x, R, rfl, k1, k2⟩ := first_long this
        exact ⟨S, x, R ++ [z], by rw [eL]; simp, k2, k1, by simp⟩
    · refine beaten_seqR width_gP rfl (chunkE_toTree_leaves c) ?_
      have hb := beaten_chunks (Cs := d :: Cs) (fun x hx => h x (List.mem_cons_of_mem _ hx)) hrest
      have e : chunksLv (d :: Cs) = (orTok :: chunkLv d) ++ chunksLv Cs := by simp [chunksLv]
      have ef : opForest orTok ((d :: Cs).map chunkE) = [.leaf orTok, (chunkE d).toTree] ++ opForest orTok (Cs.map chunkE) := by simp [opForest]
      rw [e, ef] at hb
      rw [ef]
      have := Beaten.plus width_OP rfl (chunk_tree_leaves d) hb
      rw [← e] at this
      exact this

/-- The tree by precedence is the chosen one exactly if the chunks are calm. -/
theorem best_whole_iff {c : CChunk} {Cs : List CChunk} (h : ∀ x ∈ c :: Cs, ChunkOk x) :
    (wholeE c Cs).Best ↔ Calm ((c :: Cs).map CChunk.list) :=
  ⟨fun hb => Classical.byContradiction fun hc => not_best_whole h hc hb, best_whole h⟩

end Fcsql
