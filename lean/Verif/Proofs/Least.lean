/-
Comparing derivations decision by decision: `Least g u v K f` says that deriving the prefix `u` of `u ++ v` with trees `f`
takes the earlier alternative than every other derivation of a prefix whose rest satisfies `K`.
-/
import Verif.Proofs.Best

set_option autoImplicit false
set_option linter.unusedSimpArgs false

namespace Fcsql

def LeastC (g : G) (u v : List Tok) (K : List Tok → Prop) (f : List PTree) (c : List Bool) : Prop :=
  D g u f c ∧ ∀ u' v' f' c', u' ++ v' = u ++ v → D g u' f' c' → K v' → (u' = u ∧ f' = f ∧ c' = c) ∨ Before c c'

def Least (g : G) (u v : List Tok) (K : List Tok → Prop) (f : List PTree) : Prop := ∃ c, LeastC g u v K f c

/-- A prefix can be derived from `b`, and the rest satisfies `K`. -/
def After (b : G) (K : List Tok → Prop) (t : List Tok) : Prop := ∃ u v f c, t = u ++ v ∧ D b u f c ∧ K v

/-- No prefix can be derived with a rest satisfying `K`. -/
def Dead (a : G) (t : List Tok) (K : List Tok → Prop) : Prop := ∀ u v f c, u ++ v = t → D a u f c → ¬ K v

theorem Before.append {c c' x y : List Bool} (h : Before c c') : Before (c ++ x) (c' ++ y) := by
  obtain ⟨p, a, b, rfl, rfl⟩ := h
  exact ⟨p, a ++ x, b ++ y, by simp, by simp⟩

theorem Before.prepend {c c' x : List Bool} (h : Before c c') : Before (x ++ c) (x ++ c') := by
  obtain ⟨p, a, b, rfl, rfl⟩ := h
  exact ⟨x ++ p, a, b, by simp, by simp⟩

theorem Least.mono {g : G} {u v : List Tok} {K K' : List Tok → Prop} {f : List PTree} (h : Least g u v K f) (hk : ∀ v, K' v → K v) :
    Least g u v K' f := by
  obtain ⟨c, h1, h2⟩ := h
  exact ⟨c, h1, fun u' v' f' c' e hd hv => h2 u' v' f' c' e hd (hk _ hv)⟩

theorem least_tok {t : TokType} {x : Tok} {v : List Tok} {K : List Tok → Prop} (h : x.type = t) : Least (.tok t) [x] v K [.leaf x] := by
  refine ⟨[], .tok h, ?_⟩
  intro u' v' f' c' e hd _
  obtain ⟨y, -, rfl, rfl, rfl⟩ := D_tok.1 hd
  simp only [List.cons_append, List.nil_append, List.cons.injEq] at e
  obtain ⟨rfl, -⟩ := e
  exact .inl ⟨rfl, rfl, rfl⟩

theorem least_eps {v : List Tok} {K : List Tok → Prop} : Least .eps [] v K [] := by
  refine ⟨[], .eps, ?_⟩
  intro u' v' f' c' e hd _
  obtain ⟨rfl, rfl, rfl⟩ := D_eps.1 hd
  exact .inl ⟨rfl, rfl, rfl⟩

theorem least_rule {r : Rule} {u v : List Tok} {K : List Tok → Prop} {f : List PTree} (h : Least (body r) u v K f) :
    Least (.rule r) u v K [.node r f] := by
  obtain ⟨c, h1, h2⟩ := h
  refine ⟨c, .rule h1, ?_⟩
  intro u' v' f' c' e hd hv
  obtain ⟨f'', hd', rfl⟩ := D_rule.1 hd
  rcases h2 u' v' f'' c' e hd' hv with ⟨rfl, rfl, rfl⟩ | hb
  · exact .inl ⟨rfl, rfl, rfl⟩
  · exact .inr hb

theorem least_seq {a b : G} {u1 u2 v : List Tok} {K : List Tok → Prop} {f1 f2 : List PTree} (h1 : Least a u1 (u2 ++ v) (After b K) f1)
    (h2 : Least b u2 v K f2) : Least (.seq a b) (u1 ++ u2) v K (f1 ++ f2) := by
  obtain ⟨c1, d1, h1⟩ := h1
  obtain ⟨c2, d2, h2⟩ := h2
  refine ⟨c1 ++ c2, .seq d1 d2, ?_⟩
  intro u' v' f' c' e hd hv
  obtain ⟨ta, tb, fa, fb, ca, cb, rfl, rfl, rfl, ha, hb⟩ := D_seq.1 hd
  rcases h1 ta (tb ++ v') fa ca (by simpa using e) ha ⟨tb, v', fb, cb, rfl, hb, hv⟩ with ⟨rfl, rfl, rfl⟩ | hbf
  · have e' : tb ++ v' = u2 ++ v := by
      have : ta ++ (tb ++ v') = ta ++ (u2 ++ v) := by simpa using e
      exact List.append_cancel_left this
    rcases h2 tb v' fb cb e' hb hv with ⟨rfl, rfl, rfl⟩ | hbf
    · exact .inl ⟨rfl, rfl, rfl⟩
    · exact .inr hbf.prepend
  · exact .inr hbf.append

theorem least_altL {a b : G} {u v : List Tok} {K : List Tok → Prop} {f : List PTree} (h : Least a u v K f) : Least (.alt a b) u v K f := by
  obtain ⟨c, h1, h2⟩ := h
  refine ⟨false :: c, .altL h1, ?_⟩
  intro u' v' f' c' e hd hv
  rcases D_alt.1 hd with ⟨c'', rfl, hd2⟩ | ⟨c'', rfl, hd2⟩
  · rcases h2 u' v' f' c'' e hd2 hv with ⟨rfl, rfl, rfl⟩ | hb
    · exact .inl ⟨rfl, rfl, rfl⟩
    · exact .inr hb.cons
  · exact .inr ⟨[], c, c'', rfl, rfl⟩

theorem least_altR {a b : G} {u v : List Tok} {K : List Tok → Prop} {f : List PTree} (hn : Dead a (u ++ v) K) (h : Least b u v K f) :
    Least (.alt a b) u v K f := by
  obtain ⟨c, h1, h2⟩ := h
  refine ⟨true :: c, .altR h1, ?_⟩
  intro u' v' f' c' e hd hv
  rcases D_alt.1 hd with ⟨c'', rfl, hd2⟩ | ⟨c'', rfl, hd2⟩
  · exact absurd hv (hn u' v' f' c'' e hd2)
  · rcases h2 u' v' f' c'' e hd2 hv with ⟨rfl, rfl, rfl⟩ | hb
    · exact .inl ⟨rfl, rfl, rfl⟩
    · exact .inr hb.cons

theorem least_starNil {a : G} {v : List Tok} {K : List Tok → Prop} (hn : Dead a v (After (.star a) K)) : Least (.star a) [] v K [] := by
  refine ⟨[true], .starNil, ?_⟩
  intro u' v' f' c' e hd hv
  rcases D_star.1 hd with ⟨rfl, rfl, rfl⟩ | ⟨ta, tb, fa, fb, ca, cb, rfl, rfl, rfl, ha, hb⟩
  · exact .inl ⟨rfl, rfl, rfl⟩
  · exact absurd ⟨tb, v', fb, cb, rfl, hb, hv⟩ (hn ta (tb ++ v') fa ca (by simpa using e) ha)

theorem least_starCons {a : G} {u1 u2 v : List Tok} {K : List Tok → Prop} {f1 f2 : List PTree}
    (h1 : Least a u1 (u2 ++ v) (After (.star a) K) f1) (h2 : Least (.star a) u2 v K f2) :
    Least (.star a) (u1 ++ u2) v K (f1 ++ f2) := by
  obtain ⟨c1, d1, h1⟩ := h1
  obtain ⟨c2, d2, h2⟩ := h2
  refine ⟨false :: (c1 ++ c2), .starCons d1 d2, ?_⟩
  intro u' v' f' c' e hd hv
  rcases D_star.1 hd with ⟨rfl, rfl, rfl⟩ | ⟨ta, tb, fa, fb, ca, cb, rfl, rfl, rfl, ha, hb⟩
  · exact .inr ⟨[], c1 ++ c2, [], rfl, rfl⟩
  · rcases h1 ta (tb ++ v') fa ca (by simpa using e) ha ⟨tb, v', fb, cb, rfl, hb, hv⟩ with ⟨rfl, rfl, rfl⟩ | hbf
    · have e' : tb ++ v' = u2 ++ v := by
        have : ta ++ (tb ++ v') = ta ++ (u2 ++ v) := by simpa using e
        exact List.append_cancel_left this
      rcases h2 tb v' fb cb e' hb hv with ⟨rfl, rfl, rfl⟩ | hbf
      · exact .inl ⟨rfl, rfl, rfl⟩
      · exact .inr hbf.prepend.cons
    · exact .inr hbf.append.cons

/-- A least derivation of everything is the chosen one. -/
theorem Least.chosen {g : G} {u : List Tok} {f : List PTree} (h : Least g u [] (· = []) f) : ∃ c, Chosen g u f c := by
  obtain ⟨c, h1, h2⟩ := h
  refine ⟨c, h1, ?_⟩
  intro f' c' hd
  rcases h2 u [] f' c' rfl hd rfl with ⟨-, rfl, rfl⟩ | hb
  · exact .inl ⟨rfl, rfl⟩
  · exact .inr hb

/-! ### Dead alternatives -/

theorem dead_tok {t : TokType} {T : List Tok} {K : List Tok → Prop} (h : ∀ x, T.head? = some x → x.type ≠ t) : Dead (.tok t) T K := by
  intro u v f c e hd _
  obtain ⟨y, hy, rfl, -⟩ := D_tok.1 hd
  exact h y (by simp [← e]) hy

theorem dead_seq {a b : G} {T : List Tok} {K : List Tok → Prop} (h : Dead a T (After b K)) : Dead (.seq a b) T K := by
  intro u v f c e hd hv
  obtain ⟨ta, tb, fa, fb, ca, cb, rfl, rfl, rfl, ha, hb⟩ := D_seq.1 hd
  exact h ta (tb ++ v) fa ca (by simpa using e) ha ⟨tb, v, fb, cb, rfl, hb, hv⟩

/-- Rules of expressions. -/
def isERule (r : Rule) : Prop := r = .expression_basic ∨ r = .expression_group ∨ r = .expression_or ∨
  r = .expression_and ∨ r = .expression_not

theorem expr_of_D {r : Rule} (hr : isERule r) {u : List Tok} {f : List PTree} {c : List Bool} (h : D (.rule r) u f c) :
    ∃ e : CExpr, e.WF ∧ e.rule = r ∧ f = [e.toTree] ∧ e.lv = u := by
  obtain ⟨e, h1, h2, rfl⟩ := good_opExpr (good_of_D h) hr
  refine ⟨e, h1, h2, rfl, ?_⟩
  have := leavesL_of_D h
  simpa [PTree.leavesL] using this

theorem CExpr.lv_basic (a : CAttr) (op : Tok) (r : CRegexp) : (CExpr.basic a op r).lv = a.toTree.leaves ++ op :: r.lv := by
  simp [CExpr.lv, CExpr.toTree, PTree.leaves, PTree.leavesL]

theorem CExpr.lv_group (lp rp : Tok) (e : CExpr) : (CExpr.group lp e rp).lv = lp :: (e.lv ++ [rp]) := by
  simp [CExpr.lv, CExpr.toTree, PTree.leaves, PTree.leavesL]

theorem CExpr.lv_not (b : Tok) (e : CExpr) : (CExpr.not b e).lv = b :: e.lv := by
  simp [CExpr.lv, CExpr.toTree, PTree.leaves, PTree.leavesL]

theorem CAttr.lv_none (i : Tok) : (CAttr.mk none i).toTree.leaves = [i] := by simp [CAttr.toTree, PTree.leaves, PTree.leavesL]
theorem CAttr.lv_some (q c i : Tok) : (CAttr.mk (some (q, c)) i).toTree.leaves = [q, c, i] := by
  simp [CAttr.toTree, PTree.leaves, PTree.leavesL]

/-- First tokens of expressions that are no conjunction or disjunction. -/
theorem head_basic {e : CExpr} (h : e.WF) (hr : e.rule = .expression_basic) : ∃ t ts, e.lv = t :: ts ∧ isNameTok t := by
  cases e with
  | basic a op r =>
    obtain ⟨⟨h1, h2⟩, -⟩ := h
    rcases a with ⟨_ | ⟨q, c⟩, i⟩
    · exact ⟨i, _, by rw [CExpr.lv_basic, CAttr.lv_none]; rfl, h1⟩
    · exact ⟨q, _, by rw [CExpr.lv_basic, CAttr.lv_some]; rfl, (h2 q c rfl).1⟩
  | _ => simp [CExpr.rule] at hr

theorem head_group {e : CExpr} (h : e.WF) (hr : e.rule = .expression_group) : ∃ t ts, e.lv = t :: ts ∧ t.type = .L_PAREN := by
  cases e with
  | group lp e rp => exact ⟨lp, _, CExpr.lv_group lp rp e, h.1⟩
  | _ => simp [CExpr.rule] at hr

theorem dead_basic {T : List Tok} {K : List Tok → Prop} (h : ∀ x, T.head? = some x → ¬ isNameTok x) : Dead (.rule .expression_basic) T K := by
  intro u v f c e hd _
  obtain ⟨x, h1, h2, -, rfl⟩ := expr_of_D (.inl rfl) hd
  obtain ⟨t, ts, e1, ht⟩ := head_basic h1 h2
  exact h t (by simp [← e, e1]) ht

theorem dead_group {T : List Tok} {K : List Tok → Prop} (h : ∀ x, T.head? = some x → x.type ≠ .L_PAREN) : Dead (.rule .expression_group) T K := by
  intro u v f c e hd _
  obtain ⟨x, h1, h2, -, rfl⟩ := expr_of_D (.inr (.inl rfl)) hd
  obtain ⟨t, ts, e1, ht⟩ := head_group h1 h2
  exact h t (by simp [← e, e1]) ht

/-! ### Basic expressions -/

theorem least_name {x : Tok} (h : isNameTok x) {v : List Tok} {K : List Tok → Prop} : Least (body .identifier) [x] v K [.leaf x] := by
  have d : ∀ {t : TokType} {K : List Tok → Prop}, x.type ≠ t → Dead (.tok t) ([x] ++ v) K := by
    intro t K hn
    refine dead_tok ?_
    simp only [List.cons_append, List.head?_cons, Option.some.injEq]
    rintro y rfl
    exact hn
  rcases h with h | h | h | h
  · exact least_altL (least_tok h)
  · exact least_altR (d (by simp [h])) (least_altL (least_tok h))
  · exact least_altR (d (by simp [h])) (least_altR (d (by simp [h])) (least_altL (least_tok h)))
  · exact least_altR (d (by simp [h])) (least_altR (d (by simp [h])) (least_altR (d (by simp [h])) (least_tok h)))

theorem least_attr {a : CAttr} (h : a.WF) {v : List Tok} {K : List Tok → Prop} (hv : ∀ x, v.head? = some x → x.type ≠ .COLON) :
    Least (.rule .attribute_) a.toTree.leaves v K [a.toTree] := by
  rcases a with ⟨_ | ⟨q, c⟩, i⟩
  · rw [CAttr.lv_none]
    refine least_rule (least_seq (u1 := []) (u2 := [i]) (f1 := []) (least_altR ?_ least_eps) (least_rule (least_name h.1)))
    intro u w f c e hd _
    obtain ⟨ta, tb, fa, fb, ca, cb, rfl, rfl, rfl, ha, hb⟩ := D_seq.1 hd
    obtain ⟨y, hy, rfl, -⟩ := D_tok.1 hb
    obtain ⟨z, hz⟩ : ∃ z, ta = [z] := by
      obtain ⟨f', ha, -⟩ := D_rule.1 ha
      rcases D_alt.1 ha with ⟨_, -, ha⟩ | ⟨_, -, ha⟩
      · obtain ⟨z, -, h, -⟩ := D_tok.1 ha; exact ⟨z, h⟩
      rcases D_alt.1 ha with ⟨_, -, ha⟩ | ⟨_, -, ha⟩
      · obtain ⟨z, -, h, -⟩ := D_tok.1 ha; exact ⟨z, h⟩
      rcases D_alt.1 ha with ⟨_, -, ha⟩ | ⟨_, -, ha⟩
      · obtain ⟨z, -, h, -⟩ := D_tok.1 ha; exact ⟨z, h⟩
      · obtain ⟨z, -, h, -⟩ := D_tok.1 ha; exact ⟨z, h⟩
    subst hz
    simp only [List.cons_append, List.nil_append, List.cons.injEq] at e
    exact hv y (by simp [← e.2]) hy
  · rw [CAttr.lv_some]
    obtain ⟨h1, h2⟩ := h
    obtain ⟨h2, h3⟩ := h2 q c rfl
    exact least_rule (least_seq (u1 := [q, c]) (u2 := [i]) (f1 := [_, _]) (least_altL (least_seq (u1 := [q]) (u2 := [c]) (f1 := [_])
      (least_rule (least_name h2)) (least_tok h3))) (least_rule (least_name h1)))

theorem least_regexp {r : CRegexp} (h : r.WF) {v : List Tok} {K : List Tok → Prop} (hv : ∀ x, v.head? = some x → x.type ≠ .FWD_SLASH) :
    Least (.rule .regexp) r.lv v K [r.toTree] := by
  rcases r with ⟨p, _ | ⟨s, g⟩⟩
  · rw [CRegexp.lv_none]
    exact least_rule (least_seq (u1 := [p]) (u2 := []) (f1 := [_]) (f2 := []) (least_rule (least_tok h.1))
      (least_altR (dead_seq (dead_tok (by simpa using hv))) least_eps))
  · rw [CRegexp.lv_some]
    obtain ⟨h1, h2⟩ := h
    obtain ⟨h2, h3⟩ := h2 s g rfl
    exact least_rule (least_seq (u1 := [p]) (u2 := [s, g]) (f1 := [_]) (least_rule (least_tok h1))
      (least_altL (least_seq (u1 := [s]) (u2 := [g]) (f1 := [_]) (least_tok h2) (least_rule (least_tok h3)))))

theorem least_basic {a : CAttr} {op : Tok} {r : CRegexp} (h : (CExpr.basic a op r).WF) {v : List Tok} {K : List Tok → Prop}
    (hv : ∀ x, v.head? = some x → x.type ≠ .FWD_SLASH) :
    Least (.rule .expression_basic) (CExpr.basic a op r).lv v K [(CExpr.basic a op r).toTree] := by
  obtain ⟨h1, h2, h3⟩ := h
  rw [CExpr.lv_basic]
  refine least_rule (least_seq (f1 := [_]) (least_attr h1 ?_) (least_seq (u1 := [op]) (f1 := [_]) ?_ (least_regexp h3 hv)))
  · simp only [List.cons_append, List.head?_cons, Option.some.injEq]
    rintro x rfl
    rcases h2 with h2 | h2 <;> simp [h2]
  · rcases h2 with h2 | h2
    · exact least_altL (least_tok h2)
    · refine least_altR (dead_tok ?_) (least_tok h2)
      simp only [List.cons_append, List.head?_cons, Option.some.injEq]
      rintro x rfl
      simp [h2]

/-! ### Parenthesised expressions -/

theorem least_group {lp rp : Tok} {e : CExpr} (h : (CExpr.group lp e rp).WF) (hb : e.Best) {v : List Tok} {K : List Tok → Prop} :
    Least (.rule .expression_group) (CExpr.group lp e rp).lv v K [(CExpr.group lp e rp).toTree] := by
  obtain ⟨h1, h2, h3⟩ := h
  rw [CExpr.lv_group]
  refine least_rule (least_seq (u1 := [lp]) (u2 := e.lv ++ [rp]) (f1 := [_]) (least_tok h1)
    (least_seq (u1 := e.lv) (u2 := [rp]) (f1 := [_]) ?_ (least_tok h3)))
  obtain ⟨d, hd⟩ := hb
  obtain ⟨f', hd1, e1⟩ := D_rule.1 hd.derives
  simp only [List.cons.injEq, PTree.node.injEq, true_and, and_true] at e1
  subst e1
  refine ⟨d, hd1, ?_⟩
  intro u' v' f' c' eq hd' hv
  obtain ⟨u2, v2, f2, c2, rfl, ht, -⟩ := hv
  obtain ⟨y, hy, rfl, -⟩ := D_tok.1 ht
  obtain ⟨e', k1, rfl⟩ := good_anyExpr (good_of_D hd')
  have hlv : e'.lv = u' := by
    have := leavesL_of_D hd'
    simpa [PTree.leavesL] using this
  subst hlv
  have heq := tight_unique (t := y) (t' := rp) (r := v2) (r' := v) (e'.tight k1) (e.tight h2) (.inr (by simp [delta, hy])) (.inr (by simp [delta, h3])) (by simpa using eq)
  rw [heq] at hd'
  rcases hd.first _ _ (.rule hd') with ⟨h5, h6⟩ | hbf
  · left
    refine ⟨heq, ?_, h6⟩
    simpa using h5
  · exact .inr hbf

end Fcsql
