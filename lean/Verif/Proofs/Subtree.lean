/-
Parts of a chosen derivation are chosen; every grammatical token list has a chosen derivation;
well-formed concrete syntax trees are derivation trees.
-/
import Verif.Proofs.Cst

set_option autoImplicit false
set_option linter.unusedSimpArgs false

namespace Fcsql

/-! ### Existence -/

theorem ruleRank_le (r : Rule) : ruleRank r ≤ 100 := by cases r <;> decide

/-- Whatever can be derived has a chosen derivation. -/
theorem exists_chosen {r : Rule} {ts : List Tok} {f : List PTree} {c : List Bool} (h : D (.rule r) ts f c) :
    ∃ f' c', Chosen (.rule r) ts f' c' := by
  have hrank : ∀ n, 100 * n + (G.rule r).rank ≤ parseFuel n := by
    intro n
    have := ruleRank_le r
    simp only [G.rank, parseFuel]; omega
  have hm := run_complete h rfl [] _ (hrank ts.length)
  rw [List.append_nil] at hm
  cases hs : (run (parseFuel ts.length) (.rule r) ts).find? (fun s => s.rest.isEmpty) with
  | none =>
    rw [List.find?_eq_none] at hs
    exact absurd rfl (hs _ hm)
  | some s =>
    obtain ⟨hm2, hr, hfirst⟩ := find_first_of_pairwise (run_pairwise _ _ _) hs
    obtain ⟨pre, e, hd⟩ := run_sound _ _ _ _ hm2
    have hrest : s.rest = [] := by simpa using hr
    rw [hrest, List.append_nil] at e
    subst e
    refine ⟨s.forest, s.choices, hd, ?_⟩
    intro f2 c2 h2
    have hm2 := run_complete h2 rfl [] _ (hrank ts.length)
    rw [List.append_nil] at hm2
    rcases hfirst _ hm2 rfl with h3 | h3
    · exact .inl ⟨by rw [← h3], by rw [← h3]⟩
    · exact .inr h3

/-! ### Contexts -/

theorem before_total (c c' : List Bool) :
    (∃ z, c' = c ++ z) ∨ (∃ z, c = c' ++ z) ∨ Before c c' ∨ Before c' c := by
  induction c generalizing c' with
  | nil => exact .inl ⟨c', rfl⟩
  | cons x c ih =>
    cases c' with
    | nil => exact .inr (.inl ⟨_, rfl⟩)
    | cons y c' =>
      by_cases hxy : x = y
      · subst hxy
        rcases ih c' with ⟨z, rfl⟩ | ⟨z, rfl⟩ | h | h
        · exact .inl ⟨z, rfl⟩
        · exact .inr (.inl ⟨z, rfl⟩)
        · exact .inr (.inr (.inl h.cons))
        · exact .inr (.inr (.inr h.cons))
      · cases x <;> cases y
        · exact absurd rfl hxy
        · exact .inr (.inr (.inl before_false_true))
        · exact .inr (.inr (.inr before_false_true))
        · exact absurd rfl hxy

/-- Two derivations of the same tokens from the same expression are equal or ordered. -/
theorem D_compare {g : G} {ts : List Tok} {f f' : List PTree} {c c' : List Bool} (h : D g ts f c) (h' : D g ts f' c') :
    (f' = f ∧ c' = c) ∨ Before c c' ∨ Before c' c := by
  rcases before_total c c' with ⟨z, e⟩ | ⟨z, e⟩ | hb | hb
  · obtain ⟨-, h2, h3⟩ := D_unique (x := z) (y := []) (r := []) (r' := []) h h' (by simp [e]) rfl
    exact .inl ⟨h2.symm, h3.symm⟩
  · obtain ⟨-, h2, h3⟩ := D_unique (x := []) (y := z) (r := []) (r' := []) h h' (by simp [e]) rfl
    exact .inl ⟨h2.symm, h3.symm⟩
  · exact .inr (.inl hb)
  · exact .inr (.inr hb)

/-- A derivation that is nowhere after another one is chosen. -/
theorem chosen_of_not_after {g : G} {ts : List Tok} {f : List PTree} {c : List Bool} (h : D g ts f c)
    (hn : ∀ f' c', D g ts f' c' → ¬ Before c' c) : Chosen g ts f c := by
  refine ⟨h, fun f' c' h' => ?_⟩
  rcases D_compare h h' with h1 | h1 | h1
  · exact .inl h1
  · exact .inr h1
  · exact absurd h1 (hn _ _ h')

theorem Chosen.not_after {g : G} {ts : List Tok} {f f' : List PTree} {c c' : List Bool} (h : Chosen g ts f c)
    (h' : D g ts f' c') : ¬ Before c' c := by
  intro hb
  rcases h.first _ _ h' with ⟨rfl, rfl⟩ | hb'
  · exact hb.irrefl
  · exact hb.asymm hb'

/-- A part of a chosen derivation is chosen. -/
theorem Chosen.part {g G' : G} {us ts : List Tok} {f F : List PTree} {c p z : List Bool} (h : D g us f c)
    (hc : Chosen G' ts F (p ++ (c ++ z))) (k : ∀ f' c', D g us f' c' → ∃ F', D G' ts F' (p ++ (c' ++ z))) :
    Chosen g us f c := by
  refine chosen_of_not_after h fun f' c' h' hb => ?_
  obtain ⟨F', hF⟩ := k f' c' h'
  exact hc.not_after hF (Before.append_left (Before.append_right hb))

/-- `t` occurs in the forest. -/
inductive Subtree : PTree → List PTree → Prop
  | here {t : PTree} {f : List PTree} : t ∈ f → Subtree t f
  | there {t : PTree} {f ks : List PTree} {r : Rule} : .node r ks ∈ f → Subtree t ks → Subtree t f

theorem subtree_append {t : PTree} {f f' : List PTree} (h : Subtree t (f ++ f')) : Subtree t f ∨ Subtree t f' := by
  cases h with
  | here h =>
    rcases List.mem_append.1 h with h | h
    · exact .inl (.here h)
    · exact .inr (.here h)
  | there h h' =>
    rcases List.mem_append.1 h with h | h
    · exact .inl (.there h h')
    · exact .inr (.there h h')

/-- Every rule node of a chosen derivation is chosen for its own tokens. -/
theorem Chosen.subtree {g : G} {ts : List Tok} {f : List PTree} {c : List Bool} (h : Chosen g ts f c) {r : Rule}
    {ks : List PTree} (hs : Subtree (.node r ks) f) :
    ∃ c', Chosen (.rule r) (PTree.leavesL ks) [.node r ks] c' := by
  obtain ⟨hd, hc⟩ := h
  have hch : Chosen g ts f c := ⟨hd, hc⟩
  clear hc
  induction hd with
  | eps =>
    cases hs with
    | here h => simp at h
    | there h _ => simp at h
  | tok _ =>
    cases hs with
    | here h => simp at h
    | there h _ => simp at h
  | @rule r' ts f c hd ih =>
    have hb : Chosen (body r') ts f c := Chosen.part (p := []) (z := []) hd (by simpa using hch)
      fun f' c' h' => ⟨_, by simpa using D.rule h'⟩
    cases hs with
    | here h =>
      simp only [List.mem_singleton, PTree.node.injEq] at h
      obtain ⟨rfl, rfl⟩ := h
      rw [leavesL_of_D hd]
      exact ⟨c, hch⟩
    | there h h' =>
      simp only [List.mem_singleton, PTree.node.injEq] at h
      obtain ⟨rfl, rfl⟩ := h
      exact ih h' hb
  | @seq a b ts ts' f f' c c' ha hb iha ihb =>
    rcases subtree_append hs with h | h
    · exact iha h (Chosen.part (p := []) (z := c') ha (by simpa using hch) fun f'' c'' h' => ⟨_, by simpa using D.seq h' hb⟩)
    · exact ihb h (Chosen.part (p := c) (z := []) hb (by simpa using hch) fun f'' c'' h' => ⟨_, by simpa using D.seq ha h'⟩)
  | @altL a b ts f c h ih =>
    exact ih hs (Chosen.part (p := [false]) (z := []) h (by simpa using hch) fun f'' c'' h' => ⟨_, by simpa using D.altL h'⟩)
  | @altR a b ts f c h ih =>
    exact ih hs (Chosen.part (p := [true]) (z := []) h (by simpa using hch) fun f'' c'' h' => ⟨_, by simpa using D.altR h'⟩)
  | starNil =>
    cases hs with
    | here h => simp at h
    | there h _ => simp at h
  | @starCons a ts ts' f f' c c' ha hb iha ihb =>
    rcases subtree_append hs with h | h
    · exact iha h (Chosen.part (p := [false]) (z := c') ha (by simpa using hch) fun f'' c'' h' => ⟨_, by simpa using D.starCons h' hb⟩)
    · exact ihb h (Chosen.part (p := false :: c) (z := []) hb (by simpa using hch) fun f'' c'' h' => ⟨_, by simpa using D.starCons ha h'⟩)

/-! ### Derivation trees -/

theorem fits_of_D {g : G} {ts : List Tok} {f : List PTree} {c : List Bool} (h : D g ts f c) : Fits g f := by
  induction h with
  | eps => exact .eps
  | tok h => exact .tok h
  | rule _ ih => exact .rule ih
  | seq _ _ iha ihb => exact .seq iha ihb
  | altL _ ih => exact .altL ih
  | altR _ ih => exact .altR ih
  | starNil => exact .starNil
  | starCons _ _ iha ihb => exact .starCons iha ihb

theorem D_of_fits {g : G} {f : List PTree} (h : Fits g f) : ∃ c, D g (PTree.leavesL f) f c := by
  induction h with
  | eps => exact ⟨_, .eps⟩
  | tok h => exact ⟨_, .tok h⟩
  | rule _ ih =>
    obtain ⟨c, h⟩ := ih
    exact ⟨c, by simpa [PTree.leavesL, PTree.leaves] using D.rule h⟩
  | seq _ _ iha ihb =>
    obtain ⟨c, h⟩ := iha
    obtain ⟨c', h'⟩ := ihb
    exact ⟨_, by rw [leavesL_append]; exact .seq h h'⟩
  | altL _ ih =>
    obtain ⟨c, h⟩ := ih
    exact ⟨_, .altL h⟩
  | altR _ ih =>
    obtain ⟨c, h⟩ := ih
    exact ⟨_, .altR h⟩
  | starNil => exact ⟨_, .starNil⟩
  | starCons _ _ iha ihb =>
    obtain ⟨c, h⟩ := iha
    obtain ⟨c', h'⟩ := ihb
    exact ⟨_, by rw [leavesL_append]; exact .starCons h h'⟩

theorem fits_alts {r : Rule} {rs : List Rule} {f : List PTree} (h : Fits (.rule r) f) (hr : r ∈ rs) :
    Fits (G.alts (rs.map G.rule)) f := by
  induction rs with
  | nil => cases hr
  | cons x xs ih =>
    cases xs with
    | nil =>
      simp only [List.mem_singleton] at hr
      subst hr
      exact h
    | cons y ys =>
      rcases List.mem_cons.1 hr with rfl | hr
      · exact .altL h
      · exact .altR (ih hr)

theorem fits_name {x : Tok} (h : isNameTok x) : Fits (body .identifier) [.leaf x] := by
  rcases h with h | h | h | h
  · exact .altL (.tok h)
  · exact .altR (.altL (.tok h))
  · exact .altR (.altR (.altL (.tok h)))
  · exact .altR (.altR (.altR (.tok h)))

theorem CRegexp.fits {r : CRegexp} (h : r.WF) : Fits (.rule .regexp) [r.toTree] := by
  rcases r with ⟨p, _ | ⟨s, g⟩⟩
  · exact .rule (.seq (f := [_]) (f' := []) (.rule (.tok h.1)) (.altR .eps))
  · obtain ⟨h1, h2⟩ := h
    obtain ⟨h2, h3⟩ := h2 s g rfl
    exact .rule (.seq (f := [_]) (f' := [_, _]) (.rule (.tok h1)) (.altL (.seq (f := [_]) (.tok h2) (.rule (.tok h3)))))

theorem CAttr.fits {a : CAttr} (h : a.WF) : Fits (.rule .attribute_) [a.toTree] := by
  rcases a with ⟨_ | ⟨s, g⟩, i⟩
  · exact .rule (.seq (f := []) (.altR .eps) (.rule (fits_name h.1)))
  · obtain ⟨h1, h2⟩ := h
    obtain ⟨h2, h3⟩ := h2 s g rfl
    exact .rule (.seq (f := [_, _]) (.altL (.seq (f := [_]) (.rule (fits_name h2)) (.tok h3))) (.rule (fits_name h1)))

theorem CQuant.fits {q : CQuant} (h : q.WF) : Fits (.rule .quantifier) [.node .quantifier q.forest] := by
  cases q with
  | sym t =>
    rcases h with h | h | h
    · exact .rule (.altL (.tok h))
    · exact .rule (.altR (.altL (.tok h)))
    · exact .rule (.altR (.altR (.altL (.tok h))))
  | exactly lb n rb =>
    obtain ⟨h1, h2, h3⟩ := h
    exact .rule (.altR (.altR (.altR (.seq (f := [_]) (.tok h1) (.seq (f := [_]) (.altL (.tok h2)) (.tok h3))))))
  | range lb n c m rb =>
    obtain ⟨h1, h2, h3, h4, h5, h6⟩ := h
    refine .rule (.altR (.altR (.altR (.seq (f := [_]) (.tok h1) ?_))))
    cases n with
    | none =>
      cases m with
      | none => simp at h6
      | some m =>
        exact .seq (f := [_, _]) (.altR (.altL (.seq (f := []) (.altR .eps) (.seq (f := [_]) (.tok h2) (.tok (h5 m rfl))))))
          (.tok h3)
    | some n =>
      cases m with
      | none =>
        exact .seq (f := [_, _]) (.altR (.altR (.seq (f := [_]) (.tok (h4 n rfl)) (.seq (f := [_]) (f' := []) (.tok h2) (.altR .eps)))))
          (.tok h3)
      | some m =>
        exact .seq (f := [_, _, _]) (.altR (.altL (.seq (f := [_]) (.altL (.tok (h4 n rfl))) (.seq (f := [_]) (.tok h2) (.tok (h5 m rfl))))))
          (.tok h3)

theorem fits_optQuant {q : Option CQuant} (h : optQuantWF q) : Fits (G.opt (.rule .quantifier)) (optQuant q) := by
  cases q with
  | none => exact .altR .eps
  | some q => exact .altL (CQuant.fits (h q rfl))

mutual
theorem CExpr.fits : ∀ e : CExpr, e.WF → Fits (.rule e.rule) [e.toTree]
  | .basic a op r, h => by
    obtain ⟨h1, h2, h3⟩ := h
    refine .rule (.seq (f := [_]) (CAttr.fits h1) (.seq (f := [_]) ?_ (CRegexp.fits h3)))
    rcases h2 with h2 | h2
    · exact .altL (.tok h2)
    · exact .altR (.tok h2)
  | .group lp e rp, h => by
    obtain ⟨h1, h2, h3⟩ := h
    refine .rule (.seq (f := [_]) (.tok h1) (.seq (f := [_]) ?_ (.tok h3)))
    exact fits_alts (rs := [.expression_basic, .expression_group, .expression_or, .expression_and, .expression_not])
      (CExpr.fits e h2) (by cases e <;> simp [CExpr.rule])
  | .or e rest, h => by
    obtain ⟨h1, h2, h3, h4⟩ := h
    have hops : ∀ e : CExpr, e.rule ≠ .expression_or → e.rule ∈ [.expression_basic, .expression_group, .expression_and, .expression_not] := by
      intro e; cases e <;> simp [CExpr.rule]
    refine .rule (.seq (f := [_]) (fits_alts (rs := [.expression_basic, .expression_group, .expression_and, .expression_not])
      (CExpr.fits e h1) (hops e h2)) ?_)
    cases rest with
    | nil => exact absurd rfl h3
    | cons o e' rest =>
      obtain ⟨g1, g2, g3, g4⟩ := h4
      exact .seq (f := [_, _]) (.seq (f := [_]) (.tok g1) (fits_alts (rs := [.expression_basic, .expression_group,
        .expression_and, .expression_not]) (CExpr.fits e' g2) (hops e' g3))) (CTail.fits rest .OR .expression_or
          [.expression_basic, .expression_group, .expression_and, .expression_not] hops g4)
  | .and e rest, h => by
    obtain ⟨h1, h2, h2', h3, h4⟩ := h
    have hops : ∀ e : CExpr, e.rule ≠ .expression_and → e.rule ∈ [.expression_basic, .expression_group, .expression_or, .expression_not] := by
      intro e; cases e <;> simp [CExpr.rule]
    refine .rule (.seq (f := [_]) (fits_alts (rs := [.expression_basic, .expression_group, .expression_not])
      (CExpr.fits e h1) ?_) ?_)
    · revert h2 h2'; cases e <;> simp [CExpr.rule]
    cases rest with
    | nil => exact absurd rfl h3
    | cons o e' rest =>
      obtain ⟨g1, g2, g3, g4⟩ := h4
      exact .seq (f := [_, _]) (.seq (f := [_]) (.tok g1) (fits_alts (rs := [.expression_basic, .expression_group,
        .expression_or, .expression_not]) (CExpr.fits e' g2) (hops e' g3))) (CTail.fits rest .AND .expression_and
          [.expression_basic, .expression_group, .expression_or, .expression_not] hops g4)
  | .not b e, h => by
    obtain ⟨h1, h2⟩ := h
    exact .rule (.seq (f := [_]) (.tok h1) (fits_alts (rs := [.expression_basic, .expression_group, .expression_not,
      .expression_or, .expression_and]) (CExpr.fits e h2) (by cases e <;> simp [CExpr.rule])))
theorem CTail.fits : ∀ (t : CTail) (op : TokType) (no : Rule) (rs : List Rule),
    (∀ e : CExpr, e.rule ≠ no → e.rule ∈ rs) → t.WF op no →
    Fits (.star (G.seqs [.tok op, G.alts (rs.map G.rule)])) t.forest
  | .nil, _, _, _, _, _ => .starNil
  | .cons o e rest, op, no, rs, hrs, h => by
    obtain ⟨g1, g2, g3, g4⟩ := h
    exact .starCons (f := [_, _]) (.seq (f := [_]) (.tok g1) (fits_alts (CExpr.fits e g2) (hrs e g3)))
      (CTail.fits rest op no rs hrs g4)
end

/-- An expression in its context. -/
theorem CExpr.fits_expression {e : CExpr} (h : e.WF) : Fits (.rule .expression) [.node .expression [e.toTree]] :=
  .rule (fits_alts (rs := [.expression_basic, .expression_group, .expression_or, .expression_and, .expression_not])
    (e.fits h) (by cases e <;> simp [CExpr.rule]))

theorem fits_optExpr {e : Option CExpr} (h : ∀ x, e = some x → x.WF) : Fits (G.opt (.rule .expression)) (optExpr e) := by
  cases e with
  | none => exact .altR .eps
  | some e => exact .altL (CExpr.fits_expression (h e rfl))

mutual
theorem CQ.fits : ∀ c : CQ, c.WF → Fits (.rule c.rule) [c.toTree]
  | .implicit r q, h => by
    exact .rule (.seq (f := [_]) (.altL (.rule (CRegexp.fits h.1))) (fits_optQuant h.2))
  | .segment lb e rb q, h => by
    obtain ⟨h1, h2, h3, h4⟩ := h
    exact .rule (.seq (f := [_]) (.altR (.rule (.seq (f := [_]) (.tok h1) (.seq (fits_optExpr h2) (.tok h3))))) (fits_optQuant h4))
  | .group lp c rp q, h => by
    obtain ⟨h1, h2, h3, h4, h5⟩ := h
    refine .rule (.seq (f := [_]) (.tok h1) (.seq (f := [_]) ?_ (.seq (f := [_]) (.tok h4) (fits_optQuant h5))))
    exact fits_alts (rs := [.query_disjunction, .query_sequence]) (CQ.fits c h2) (by simpa using h3)
  | .seq f rest, h => by
    obtain ⟨h1, h2, h3⟩ := h
    exact .rule (.seq (f := [_]) (fits_alts (rs := [.query_simple, .query_group]) (CQ.fits f h1) (by simpa using h2))
      (CQTail.fits_seq rest h3))
  | .disj f rest, h => by
    obtain ⟨h1, h2, h3, h4⟩ := h
    have hops : ∀ c : CQ, c.rule ≠ .query_disjunction → c.rule ∈ [.query_simple, .query_sequence, .query_group] := by
      intro c; cases c <;> simp [CQ.rule]
    refine .rule (.seq (f := [_]) (fits_alts (rs := [.query_simple, .query_sequence, .query_group]) (CQ.fits f h1) (hops f h2)) ?_)
    cases rest with
    | nil => exact absurd rfl h3
    | cons sep c rest =>
      obtain ⟨⟨o, rfl, ho⟩, g2, g3, g4⟩ := h4
      exact .seq (f := [_, _]) (.seq (f := [_]) (.tok ho) (fits_alts (rs := [.query_simple, .query_sequence, .query_group])
        (CQ.fits c g2) (hops c g3))) (CQTail.fits_disj rest g4)
theorem CQTail.fits_seq : ∀ t : CQTail, t.WFseq → Fits (.star (G.alts [.rule .query_simple, .rule .query_group])) t.forest
  | .nil, _ => .starNil
  | .cons sep c rest, h => by
    obtain ⟨rfl, g2, g3, g4⟩ := h
    exact .starCons (f := [_]) (fits_alts (rs := [.query_simple, .query_group]) (CQ.fits c g2) (by simpa using g3))
      (CQTail.fits_seq rest g4)
theorem CQTail.fits_disj : ∀ t : CQTail, t.WFdisj → Fits (.star (G.seqs [.tok .OR,
    G.alts [.rule .query_simple, .rule .query_sequence, .rule .query_group]])) t.forest
  | .nil, _ => .starNil
  | .cons sep c rest, h => by
    obtain ⟨⟨o, rfl, ho⟩, g2, g3, g4⟩ := h
    exact .starCons (f := [_, _]) (.seq (f := [_]) (.tok ho) (fits_alts (rs := [.query_simple, .query_sequence, .query_group])
        (CQ.fits c g2) (by revert g3; cases c <;> simp [CQ.rule]))) (CQTail.fits_disj rest g4)
end

theorem CQ.fits_main {c : CQ} (h : c.WF) : Fits (.rule .main_query) [.node .main_query [c.toTree]] :=
  .rule (fits_alts (rs := [.query_simple, .query_group, .query_sequence, .query_disjunction]) (c.fits h)
    (by cases c <;> simp [CQ.rule]))

theorem CQuery.fits {q : CQuery} (h : q.WF) : Fits (.rule .query) [q.toTree] := by
  obtain ⟨h1, h2, h3⟩ := h
  refine .rule (.seq (f := [_]) (CQ.fits_main h1) (.seq ?_ (.tok h3)))
  rcases q with ⟨m, _ | ⟨w, s⟩, e⟩
  · exact .altR .eps
  · obtain ⟨h2, h3⟩ := h2 w s rfl
    exact .altL (.seq (f := [_]) (.tok h2) (.rule (.rule (.tok h3))))

/-- Chosen trees: if every chosen tree of the tokens is `t`, then `t` is chosen. -/
theorem chosen_of_only {r : Rule} {t : PTree} (h : Fits (.rule r) [t])
    (ho : ∀ t' c', Chosen (.rule r) t.leaves [t'] c' → t' = t) : ∃ c, Chosen (.rule r) t.leaves [t] c := by
  obtain ⟨c, hd⟩ := D_of_fits h
  simp only [PTree.leavesL, List.append_nil] at hd
  obtain ⟨f', c', h'⟩ := exists_chosen hd
  obtain ⟨ks, -, rfl⟩ := D_rule.1 h'.derives
  obtain rfl := ho _ _ h'
  exact ⟨c', h'⟩

end Fcsql
