/-
A disjunction that is an operand of a conjunction (without parentheses) begins with a negation, in the tree that is chosen.
-/
import Verif.Proofs.Beaten

set_option autoImplicit false
set_option linter.unusedSimpArgs false

namespace Fcsql

/-! ### Tails -/

def CTail.append : CTail → CTail → CTail
  | .nil, t => t
  | .cons o e s, t => .cons o e (s.append t)

theorem CTail.append_nil : ∀ t : CTail, t.append .nil = t
  | .nil => rfl
  | .cons o e s => by rw [CTail.append, CTail.append_nil s]

theorem CTail.append_WF {op : TokType} {no : Rule} : ∀ {s t : CTail}, (s.append t).WF op no ↔ s.WF op no ∧ t.WF op no
  | .nil, t => by simp [CTail.append, CTail.WF]
  | .cons o e s, t => by simp [CTail.append, CTail.WF, CTail.append_WF (s := s), and_assoc]

theorem CTail.append_forest : ∀ s t : CTail, (s.append t).forest = s.forest ++ t.forest
  | .nil, t => rfl
  | .cons o e s, t => by simp [CTail.append, CTail.forest, CTail.append_forest s t]

abbrev CTail.lv (t : CTail) : List Tok := PTree.leavesL t.forest

theorem CTail.lv_nil : CTail.nil.lv = [] := rfl
theorem CTail.lvt_cons (o : Tok) (e : CExpr) (t : CTail) : (CTail.cons o e t).lv = o :: (e.lv ++ t.lv) := by
  simp [CTail.lv, CTail.forest, PTree.leavesL, PTree.leaves]
theorem leavesL_append' (f g : List PTree) : PTree.leavesL (f ++ g) = PTree.leavesL f ++ PTree.leavesL g := by
  induction f with
  | nil => rfl
  | cons c f ih => simp [PTree.leavesL, ih]
theorem CTail.lv_append (s t : CTail) : (s.append t).lv = s.lv ++ t.lv := by
  rw [CTail.lv, CTail.append_forest, leavesL_append']
theorem CExpr.lvt_and (f : CExpr) (t : CTail) : (CExpr.and f t).lv = f.lv ++ t.lv := by
  simp [CExpr.lv, CExpr.toTree, PTree.leaves, PTree.leavesL]
theorem CExpr.lvt_or (f : CExpr) (t : CTail) : (CExpr.or f t).lv = f.lv ++ t.lv := by
  simp [CExpr.lv, CExpr.toTree, PTree.leaves, PTree.leavesL]

theorem CTail.append_ne {s : CTail} {t : CTail} (h : s ≠ .nil) : s.append t ≠ .nil := by
  cases s with
  | nil => exact absurd rfl h
  | cons => simp [CTail.append]

theorem CTail.append_ne' {s : CTail} {t : CTail} (h : t ≠ .nil) : s.append t ≠ .nil := by
  cases s with
  | nil => exact h
  | cons => simp [CTail.append]

/-- More operands for a conjunction. -/
def CExpr.extend (e : CExpr) (t : CTail) : CExpr :=
  match t with
  | .nil => e
  | t => match e with
    | .and f s => .and f (s.append t)
    | e => .and e t

theorem CExpr.extend_spec {e : CExpr} {t : CTail} (h : e.WF) (hr : e.rule ≠ .expression_or) (ht : t.WF .AND .expression_and) :
    (e.extend t).WF ∧ (e.extend t).rule ≠ .expression_or ∧ (e.extend t).lv = e.lv ++ t.lv := by
  cases t with
  | nil => simp [CExpr.extend, h, hr, CTail.lv_nil]
  | cons o x t =>
    cases e with
    | or f s => simp [CExpr.rule] at hr
    | and f s =>
      simp only [CExpr.extend]
      obtain ⟨h1, h2, h3, h4, h5⟩ := h
      refine ⟨⟨h1, h2, h3, CTail.append_ne h4, CTail.append_WF.2 ⟨h5, ht⟩⟩, by simp [CExpr.rule], ?_⟩
      simp [CExpr.lvt_and, CTail.lv_append]
    | basic a b c => exact ⟨⟨h, by simp [CExpr.rule], by simp [CExpr.rule], by simp, ht⟩, by simp [CExpr.extend, CExpr.rule], CExpr.lvt_and _ _⟩
    | group a b c => exact ⟨⟨h, by simp [CExpr.rule], by simp [CExpr.rule], by simp, ht⟩, by simp [CExpr.extend, CExpr.rule], CExpr.lvt_and _ _⟩
    | not a b => exact ⟨⟨h, by simp [CExpr.rule], by simp [CExpr.rule], by simp, ht⟩, by simp [CExpr.extend, CExpr.rule], CExpr.lvt_and _ _⟩

/-- More operands for the conjunction at the end of a disjunction. -/
def CTail.extendLast : CTail → CTail → CTail
  | .nil, _ => .nil
  | .cons o e .nil, t => .cons o (e.extend t) .nil
  | .cons o e s, t => .cons o e (s.extendLast t)

theorem CTail.extendLast_spec : ∀ {s t : CTail}, s ≠ .nil → s.WF .OR .expression_or → t.WF .AND .expression_and →
    (s.extendLast t).WF .OR .expression_or ∧ s.extendLast t ≠ .nil ∧ (s.extendLast t).lv = s.lv ++ t.lv
  | .nil, _, h, _, _ => absurd rfl h
  | .cons o e .nil, t, _, hs, ht => by
    obtain ⟨h1, h2, h3, -⟩ := hs
    obtain ⟨e1, e2, e3⟩ := CExpr.extend_spec h2 h3 ht
    refine ⟨⟨h1, e1, e2, trivial⟩, by simp [CTail.extendLast], ?_⟩
    simp only [CTail.extendLast]
    rw [CTail.lvt_cons, CTail.lvt_cons, e3, CTail.lv_nil]; simp
  | .cons o e (.cons o' e' s), t, _, hs, ht => by
    obtain ⟨h1, h2, h3, h4⟩ := hs
    obtain ⟨e1, e2, e3⟩ := CTail.extendLast_spec (s := .cons o' e' s) (t := t) (by simp) h4 ht
    refine ⟨⟨h1, h2, h3, e1⟩, by simp [CTail.extendLast], ?_⟩
    simp only [CTail.extendLast]
    rw [CTail.lvt_cons, e3, CTail.lvt_cons o e (.cons o' e' s)]; simp

/-! ### Derivations -/

theorem D_gR_of {e : CExpr} (h : e.WF) (hr : e.rule ≠ .expression_and) : ∃ c, D gR e.lv [e.toTree] c := by
  obtain ⟨c, hd⟩ := D_expr h rfl
  cases e with
  | and => simp [CExpr.rule] at hr
  | basic => exact ⟨_, .altL hd⟩
  | group => exact ⟨_, .altR (.altL hd)⟩
  | or => exact ⟨_, .altR (.altR (.altL hd))⟩
  | not => exact ⟨_, .altR (.altR (.altR hd))⟩

abbrev gA : G := .star (.seq (.tok .AND) gR)

theorem D_ands : ∀ {t : CTail}, t.WF .AND .expression_and → ∃ c, D gA t.lv t.forest c
  | .nil, _ => ⟨_, .starNil⟩
  | .cons o e t, h => by
    obtain ⟨h1, h2, h3, h4⟩ := h
    obtain ⟨c, hc⟩ := D_gR_of h2 h3
    obtain ⟨d, hd⟩ := D_ands h4
    rw [CTail.lvt_cons]
    exact ⟨_, .starCons (ts := o :: e.lv) (f := [.leaf o, e.toTree]) (.seq (ts := [o]) (f := [.leaf o]) (.tok h1) hc) hd⟩

theorem D_ors : ∀ {t : CTail}, t.WF .OR .expression_or → ∃ c, D gO t.lv t.forest c
  | .nil, _ => ⟨_, .starNil⟩
  | .cons o e t, h => by
    obtain ⟨h1, h2, h3, h4⟩ := h
    obtain ⟨c, hc⟩ := D_gP h2 h3
    obtain ⟨d, hd⟩ := D_ors h4
    rw [CTail.lvt_cons]
    exact ⟨_, .starCons (ts := o :: e.lv) (f := [.leaf o, e.toTree]) (.seq (ts := [o]) (f := [.leaf o]) (.tok h1) hc) hd⟩

theorem D_ors_plus {t : CTail} (hn : t ≠ .nil) (h : t.WF .OR .expression_or) : ∃ c, D (.seq (.seq (.tok .OR) gP) gO) t.lv t.forest c := by
  cases t with
  | nil => exact absurd rfl hn
  | cons o e t =>
    obtain ⟨h1, h2, h3, h4⟩ := h
    obtain ⟨c, hc⟩ := D_gP h2 h3
    obtain ⟨d, hd⟩ := D_ors h4
    rw [CTail.lvt_cons]
    exact ⟨_, .seq (ts := o :: e.lv) (f := [.leaf o, e.toTree]) (.seq (ts := [o]) (f := [.leaf o]) (.tok h1) hc) hd⟩

/-! ### Conjunctions with a disjunction that does not begin with a negation -/

/-- The first token is not `!`. -/
def CExpr.plainHead (e : CExpr) : Prop := ∀ t, e.lv.head? = some t → t.type ≠ .NOT

/-- A disjunction that does not begin with `!` begins with a comparison or group, the rest of a conjunction, and the rest of a disjunction. -/
theorem or_split {g : CExpr} {s : CTail} (h : (CExpr.or g s).WF) (hp : (CExpr.or g s).plainHead) :
    ∃ (a : CExpr) (t : CTail), a.WF ∧ (a.rule = .expression_basic ∨ a.rule = .expression_group) ∧ t.WF .AND .expression_and ∧ g.lv = a.lv ++ t.lv := by
  obtain ⟨h1, h2, -, -⟩ := h
  cases g with
  | basic x y z => exact ⟨_, .nil, h1, .inl rfl, trivial, by simp [CTail.lv_nil]⟩
  | group x y z => exact ⟨_, .nil, h1, .inr rfl, trivial, by simp [CTail.lv_nil]⟩
  | or => simp [CExpr.rule] at h2
  | not b e =>
    refine absurd h1.1 (hp b ?_)
    rw [CExpr.lvt_or, CExpr.lv_not]; rfl
  | and f t =>
    obtain ⟨g1, g2, g3, g4, g5⟩ := h1
    cases f with
    | basic x y z => exact ⟨_, t, g1, .inl rfl, g5, CExpr.lvt_and _ _⟩
    | group x y z => exact ⟨_, t, g1, .inr rfl, g5, CExpr.lvt_and _ _⟩
    | or => simp [CExpr.rule] at g2
    | and => simp [CExpr.rule] at g3
    | not b e =>
      refine absurd g1.1 (hp b ?_)
      rw [CExpr.lvt_or, CExpr.lvt_and, CExpr.lv_not]; rfl

/-- There is an operand that is a disjunction not beginning with `!`. -/
def CTail.Bad : CTail → Prop
  | .nil => False
  | .cons _ e t => (e.rule = .expression_or ∧ e.plainHead) ∨ t.Bad

/-- The operands before, the disjunction, the operands after. -/
theorem CTail.Bad.split : ∀ {t : CTail}, t.Bad → ∃ (t1 : CTail) (o : Tok) (g : CExpr) (s t3 : CTail), t = t1.append (.cons o (.or g s) t3) ∧ (CExpr.or g s).plainHead
  | .nil, h => absurd h id
  | .cons o e t, h => by
    rcases h with ⟨h1, h2⟩ | h
    · cases e with
      | or g s => exact ⟨.nil, o, g, s, t, rfl, h2⟩
      | _ => simp [CExpr.rule] at h1
    · obtain ⟨t1, o', g, s, t3, rfl, h2⟩ := h.split
      exact ⟨.cons o e t1, o', g, s, t3, rfl, h2⟩

/-- The other reading: the operands up to the first part of the disjunction, and then alternatives. -/
theorem regroup {f : CExpr} {t : CTail} (h : (CExpr.and f t).WF) (hb : t.Bad) : ∃ (ands ors : CTail), ands.WF .AND .expression_and ∧ ands ≠ .nil ∧
    ors.WF .OR .expression_or ∧ ors ≠ .nil ∧ t.lv = ands.lv ++ ors.lv := by
  obtain ⟨-, -, -, -, h5⟩ := h
  obtain ⟨t1, o, g, s, t3, rfl, hp⟩ := hb.split
  obtain ⟨w1, w2, w3, w4, w5⟩ := CTail.append_WF.1 h5
  obtain ⟨a, t, a1, a2, a3, a4⟩ := or_split w3 hp
  obtain ⟨e1, e2, e3⟩ := CTail.extendLast_spec (t := t3) w3.2.2.1 w3.2.2.2 w5
  refine ⟨t1.append (.cons o a t), s.extendLast t3, CTail.append_WF.2 ⟨w1, w2, a1, ?_, a3⟩, CTail.append_ne' (by simp), e1, e2, ?_⟩
  · rcases a2 with a2 | a2 <;> simp [a2]
  · rw [CTail.lv_append, CTail.lv_append, CTail.lvt_cons, CTail.lvt_cons, CExpr.lvt_or, a4, e3]
    simp

/-- Such a conjunction can be read as a disjunction. -/
theorem bad_as_or {f : CExpr} {t : CTail} (h : (CExpr.and f t).WF) (hb : t.Bad) : ∃ fs c, D (.rule .expression_or) (CExpr.and f t).lv fs c := by
  obtain ⟨ands, ors, w1, w2, w3, w4, e⟩ := regroup h hb
  have wf : (CExpr.or (.and f ands) ors).WF := ⟨⟨h.1, h.2.1, h.2.2.1, w2, w1⟩, by simp [CExpr.rule], w4, w3⟩
  obtain ⟨c, hc⟩ := D_expr wf rfl
  have : (CExpr.and f t).lv = (CExpr.or (.and f ands) ors).lv := by
    rw [CExpr.lvt_or, CExpr.lvt_and, CExpr.lvt_and, e, List.append_assoc]
  rw [this]
  exact ⟨_, c, hc⟩

theorem CExpr.toTree_leaves (e : CExpr) : PTree.leavesL [e.toTree] = e.lv := by simp [PTree.leavesL]

theorem pair_leaves (o : Tok) (e : CExpr) : PTree.leavesL [.leaf o, e.toTree] = [o] ++ e.lv := by simp [PTree.leavesL, PTree.leaves]

/-- The operand is beaten by its first part. -/
theorem beaten_or_operand {g : CExpr} {s : CTail} (h : (CExpr.or g s).WF) (hp : (CExpr.or g s).plainHead) {v : List Tok} {K : List Tok → Prop}
    (hK : K (s.lv ++ v)) : Beaten gR (CExpr.or g s).lv v (After gA K) [(CExpr.or g s).toTree] := by
  obtain ⟨a, t, a1, a2, a3, a4⟩ := or_split h hp
  obtain ⟨c, hc⟩ := D_ands a3
  have key : ∀ {r : Rule}, a.rule = r → After (.rule r) (After gA K) ((CExpr.or g s).lv ++ v) := by
    intro r hr
    obtain ⟨d, hd⟩ := D_expr a1 hr
    refine ⟨a.lv, t.lv ++ (s.lv ++ v), _, d, ?_, hd, t.lv, s.lv ++ v, _, c, rfl, hc, hK⟩
    rw [CExpr.lvt_or, a4]; simp
  rcases a2 with a2 | a2
  · exact beaten_here (D_not_rule (by simp [CExpr.rule])) (key a2)
  · exact beaten_altR (D_not_rule (by simp [CExpr.rule])) (beaten_here (D_not_rule (by simp [CExpr.rule])) (key a2))

theorem beaten_bad_tail {v : List Tok} {K : List Tok → Prop} {o : Tok} {g : CExpr} {s t3 : CTail} (h : (CExpr.or g s).WF)
    (hp : (CExpr.or g s).plainHead) (hK : K (s.lv ++ (t3.lv ++ v))) : ∀ t1 : CTail,
    Beaten gA (t1.append (.cons o (.or g s) t3)).lv v K (t1.append (.cons o (.or g s) t3)).forest
  | .nil => by
    have e : (CTail.nil.append (.cons o (.or g s) t3)).lv = ([o] ++ (CExpr.or g s).lv) ++ t3.lv := by
      simp only [CTail.append, CTail.lvt_cons]; simp
    have ef : (CTail.nil.append (.cons o (.or g s) t3)).forest = ([.leaf o] ++ [(CExpr.or g s).toTree]) ++ t3.forest := by simp [CTail.append, CTail.forest]
    rw [e, ef]
    exact beaten_starHead width_AR rfl (by simp) (by simpa using pair_leaves o (CExpr.or g s))
      (beaten_seqR width_tok rfl (by simp [PTree.leavesL, PTree.leaves]) (beaten_or_operand h hp hK))
  | .cons o' x t1 => by
    have e : ((CTail.cons o' x t1).append (.cons o (.or g s) t3)).lv = ([o'] ++ x.lv) ++ (t1.append (.cons o (.or g s) t3)).lv := by
      simp only [CTail.append, CTail.lvt_cons]; simp
    have ef : ((CTail.cons o' x t1).append (.cons o (.or g s) t3)).forest = ([.leaf o'] ++ [x.toTree]) ++ (t1.append (.cons o (.or g s) t3)).forest := by
      simp [CTail.append, CTail.forest]
    rw [e, ef]
    exact beaten_starTail width_AR rfl (by simp) (by simpa using pair_leaves o' x) (beaten_bad_tail h hp hK t1)

/-- `a+` from `a*`, for a tail. -/
theorem plus_tail {op : TokType} {x : G} (hw : Width (.seq (.tok op) x) 2) {v : List Tok} {K : List Tok → Prop} {t : CTail} (hn : t ≠ .nil)
    (h : Beaten (.star (.seq (.tok op) x)) t.lv v K t.forest) : Beaten (.seq (.seq (.tok op) x) (.star (.seq (.tok op) x))) t.lv v K t.forest := by
  cases t with
  | nil => exact absurd rfl hn
  | cons o e t =>
    have e1 : (CTail.cons o e t).lv = ([o] ++ e.lv) ++ t.lv := by rw [CTail.lvt_cons]; simp
    have ef : (CTail.cons o e t).forest = [.leaf o, e.toTree] ++ t.forest := by simp [CTail.forest]
    rw [e1, ef] at h ⊢
    exact Beaten.plus hw rfl (pair_leaves o e) h

/-- Such a conjunction is beaten where alternatives may follow. -/
theorem beaten_bad_and {f : CExpr} {t : CTail} (h : (CExpr.and f t).WF) (hb : t.Bad) {v : List Tok} {K : List Tok → Prop}
    (hK : ∀ s : CTail, s ≠ .nil → s.WF .OR .expression_or → K (s.lv ++ v)) : Beaten (.rule .expression_and) (CExpr.and f t).lv v K [(CExpr.and f t).toTree] := by
  obtain ⟨t1, o, g, s, t3, rfl, hp⟩ := hb.split
  have h5 := h.2.2.2.2
  obtain ⟨w1, w2, w3, w4, w5⟩ := CTail.append_WF.1 h5
  obtain ⟨e1, e2, e3⟩ := CTail.extendLast_spec (t := t3) w3.2.2.1 w3.2.2.2 w5
  have hK' := hK _ e2 e1
  rw [e3, List.append_assoc] at hK'
  have := beaten_bad_tail (o := o) w3 hp hK' t1
  rw [CExpr.lvt_and]
  exact beaten_rule (beaten_seqR (f1 := [f.toTree]) width_gQ rfl (CExpr.toTree_leaves f) (plus_tail width_AR h.2.2.2.1 this))

/-- ... as operand of a disjunction. -/
theorem beaten_bad_gP {f : CExpr} {t : CTail} (h : (CExpr.and f t).WF) (hb : t.Bad) {v : List Tok} {K : List Tok → Prop}
    (hK : ∀ s : CTail, s ≠ .nil → s.WF .OR .expression_or → K (s.lv ++ v)) : Beaten gP (CExpr.and f t).lv v K [(CExpr.and f t).toTree] :=
  beaten_altR (D_not_rule (by simp [CExpr.rule])) (beaten_altR (D_not_rule (by simp [CExpr.rule]))
    (beaten_altL (D_not_rule (by simp [CExpr.rule])) (beaten_bad_and h hb hK)))

def CTail.list : CTail → List CExpr
  | .nil => []
  | .cons _ e t => e :: t.list

theorem CTail.mem_split {e : CExpr} : ∀ {t : CTail}, e ∈ t.list → ∃ (t1 : CTail) (o : Tok) (t3 : CTail), t = t1.append (.cons o e t3)
  | .nil, h => by simp [CTail.list] at h
  | .cons o x t, h => by
    simp only [CTail.list, List.mem_cons] at h
    rcases h with rfl | h
    · exact ⟨.nil, o, t, rfl⟩
    · obtain ⟨t1, o', t3, rfl⟩ := CTail.mem_split h
      exact ⟨.cons o x t1, o', t3, rfl⟩

theorem beaten_bad_ors {f : CExpr} {t : CTail} (h : (CExpr.and f t).WF) (hb : t.Bad) {o : Tok} {t3 : CTail} (h3 : t3.WF .OR .expression_or) :
    ∀ t1 : CTail, Beaten gO (CTail.append t1 (.cons o (.and f t) t3)).lv [] (· = []) (t1.append (.cons o (.and f t) t3)).forest
  | .nil => by
    have e : (CTail.nil.append (.cons o (.and f t) t3)).lv = ([o] ++ (CExpr.and f t).lv) ++ t3.lv := by
      simp only [CTail.append, CTail.lvt_cons]; simp
    have ef : (CTail.nil.append (.cons o (.and f t) t3)).forest = ([.leaf o] ++ [(CExpr.and f t).toTree]) ++ t3.forest := by simp [CTail.append, CTail.forest]
    rw [e, ef]
    refine beaten_starHead width_OP rfl (by simp) (by simpa using pair_leaves o (CExpr.and f t))
      (beaten_seqR width_tok rfl (by simp [PTree.leavesL, PTree.leaves]) (beaten_bad_gP h hb ?_))
    intro s hs hw
    obtain ⟨c, hc⟩ := D_ors (CTail.append_WF.2 ⟨hw, h3⟩)
    exact ⟨(s.append t3).lv, [], _, c, by simp [CTail.lv_append], hc, rfl⟩
  | .cons o' x t1 => by
    have e : ((CTail.cons o' x t1).append (.cons o (.and f t) t3)).lv = ([o'] ++ x.lv) ++ (t1.append (.cons o (.and f t) t3)).lv := by
      simp only [CTail.append, CTail.lvt_cons]; simp
    have ef : ((CTail.cons o' x t1).append (.cons o (.and f t) t3)).forest = ([.leaf o'] ++ [x.toTree]) ++ (t1.append (.cons o (.and f t) t3)).forest := by
      simp [CTail.append, CTail.forest]
    rw [e, ef]
    exact beaten_starTail width_OP rfl (by simp) (by simpa using pair_leaves o' x) (beaten_bad_ors h hb h3 t1)

/-- A chosen disjunction has no such operand. -/
theorem or_operands {f : CExpr} {t : CTail} (h : (CExpr.or f t).WF) {c : List Bool} (hc : Chosen (.rule .expression_or) (CExpr.or f t).lv [(CExpr.or f t).toTree] c) :
    ∀ x ∈ f :: t.list, ∀ f' t', x = .and f' t' → ¬ t'.Bad := by
  rintro x hx f' t' rfl hb
  obtain ⟨h1, h2, h3, h4⟩ := h
  rcases List.mem_cons.1 hx with rfl | hx
  · have hK : ∀ s : CTail, s ≠ .nil → s.WF .OR .expression_or → After (.seq (.seq (.tok .OR) gP) gO) (· = []) (s.lv ++ (t.lv ++ [])) := by
      intro s hs hw
      obtain ⟨c, hc⟩ := D_ors_plus (CTail.append_ne hs) (CTail.append_WF.2 ⟨hw, h4⟩)
      exact ⟨(s.append t).lv, [], _, c, by simp [CTail.lv_append], hc, rfl⟩
    have hbt := beaten_bad_gP h1 hb hK
    rw [CExpr.lvt_or] at hc
    exact Beaten.not_chosen (beaten_rule (r := .expression_or) (beaten_seqL (f1 := [(CExpr.and f' t').toTree]) (f2 := t.forest) width_gP rfl (CExpr.toTree_leaves _) hbt)) hc
  · obtain ⟨t1, o, t3, rfl⟩ := CTail.mem_split hx
    obtain ⟨-, -, w3, -, w5⟩ := CTail.append_WF.1 h4
    have hbt := beaten_bad_ors (o := o) w3 hb w5 t1
    rw [CExpr.lvt_or] at hc
    exact Beaten.not_chosen (beaten_rule (r := .expression_or) (beaten_seqR (f1 := [f.toTree]) width_gP rfl (CExpr.toTree_leaves f) (plus_tail width_OP h3 hbt))) hc

end Fcsql
