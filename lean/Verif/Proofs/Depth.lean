/-
How high the chosen parse tree is.
-/
import Verif.Proofs.NegatedOr
import Verif.Proofs.Recursion

set_option autoImplicit false
set_option linter.unusedSimpArgs false

namespace Fcsql

/-! ### No conjunction has a disjunction that does not begin with a negation as operand -/

mutual
def CExpr.Good : CExpr → Prop
  | .basic .. => True
  | .group _ e _ => e.Good
  | .or f t => f.Good ∧ t.Good
  | .and f t => f.Good ∧ t.Good ∧ ¬ t.Bad
  | .not _ e => e.Good
def CTail.Good : CTail → Prop
  | .nil => True
  | .cons _ e t => e.Good ∧ t.Good
end

/-- All contexts in these trees are chosen. -/
def AllChosen (f : List PTree) : Prop := ∀ r ks, Subtree (.node r ks) f → ∃ c, Chosen (.rule r) (PTree.leavesL ks) [.node r ks] c

theorem AllChosen.kids {f ks : List PTree} {r : Rule} (h : AllChosen f) (hm : .node r ks ∈ f) : AllChosen ks :=
  fun _ _ hs => h _ _ (.there hm hs)

theorem AllChosen.sub {f g : List PTree} (h : AllChosen f) (hs : ∀ t ∈ g, t ∈ f) : AllChosen g := by
  intro r ks hk
  cases hk with
  | here hk => exact h _ _ (.here (hs _ hk))
  | there hk hk' => exact h _ _ (.there (hs _ hk) hk')

/-- Not a conjunction with such an operand. -/
def CExpr.topGood (e : CExpr) : Prop := ∀ f t, e = .and f t → ¬ t.Bad

theorem bad_after {f : CExpr} {t : CTail} (h : (CExpr.and f t).WF) (hb : t.Bad) {v : List Tok} {K : List Tok → Prop} (hK : K v) :
    After (.rule .expression_or) K ((CExpr.and f t).lv ++ v) := by
  obtain ⟨fs, c, hd⟩ := bad_as_or h hb
  exact ⟨_, v, fs, c, rfl, hd, hK⟩

theorem topGood_expression {e : CExpr} (h : e.WF) (hb : e.Best) : e.topGood := by
  rintro f t rfl hbad
  obtain ⟨d, hd⟩ := hb
  have : Beaten (.rule .expression) (CExpr.and f t).lv [] (· = []) [.node .expression [(CExpr.and f t).toTree]] :=
    beaten_rule (beaten_altR (D_not_rule (by simp [CExpr.rule])) (beaten_altR (D_not_rule (by simp [CExpr.rule]))
      (beaten_here (D_not_rule (by simp [CExpr.rule])) (bad_after h hbad rfl))))
  exact this.not_chosen hd

theorem topGood_group {lp rp : Tok} {e : CExpr} (h : (CExpr.group lp e rp).WF) {c : List Bool}
    (hc : Chosen (.rule .expression_group) (CExpr.group lp e rp).lv [(CExpr.group lp e rp).toTree] c) : e.topGood := by
  rintro f t rfl hbad
  obtain ⟨h1, h2, h3⟩ := h
  have hK : After (.tok .R_PAREN) (· = []) ([rp] ++ []) := ⟨[rp], [], _, _, rfl, .tok h3, rfl⟩
  have hin : Beaten (body .expression) (CExpr.and f t).lv ([rp] ++ []) (After (.tok .R_PAREN) (· = [])) [(CExpr.and f t).toTree] :=
    beaten_altR (D_not_rule (by simp [CExpr.rule])) (beaten_altR (D_not_rule (by simp [CExpr.rule]))
      (beaten_here (D_not_rule (by simp [CExpr.rule])) (bad_after h2 hbad hK)))
  have hw : Width (body .expression) 1 := width_alt width_rule (width_alt width_rule (width_alt width_rule (width_alt width_rule width_rule)))
  have : Beaten (.rule .expression_group) ([lp] ++ ((CExpr.and f t).lv ++ [rp])) [] (· = []) [.node .expression_group ([.leaf lp] ++ ([(CExpr.and f t).toTree] ++ [.leaf rp]))] :=
    beaten_rule (r := .expression_group) (beaten_seqR width_tok rfl (by simp [PTree.leavesL, PTree.leaves]) (beaten_seqL hw rfl (CExpr.toTree_leaves _) hin))
  rw [CExpr.lv_group] at hc
  exact this.not_chosen hc

theorem topGood_not {b : Tok} {e : CExpr} (h : (CExpr.not b e).WF) {c : List Bool}
    (hc : Chosen (.rule .expression_not) (CExpr.not b e).lv [(CExpr.not b e).toTree] c) : e.topGood := by
  rintro f t rfl hbad
  obtain ⟨h1, h2⟩ := h
  have hin : Beaten (.alt (.rule .expression_basic) (.alt (.rule .expression_group) (.alt (.rule .expression_not) (.alt (.rule .expression_or) (.rule .expression_and)))))
      (CExpr.and f t).lv [] (· = []) [(CExpr.and f t).toTree] :=
    beaten_altR (D_not_rule (by simp [CExpr.rule])) (beaten_altR (D_not_rule (by simp [CExpr.rule])) (beaten_altR (D_not_rule (by simp [CExpr.rule]))
      (beaten_here (D_not_rule (by simp [CExpr.rule])) (bad_after h2 hbad rfl))))
  have : Beaten (.rule .expression_not) ([b] ++ (CExpr.and f t).lv) [] (· = []) [.node .expression_not ([.leaf b] ++ [(CExpr.and f t).toTree])] :=
    beaten_rule (r := .expression_not) (beaten_seqR width_tok rfl (by simp [PTree.leavesL, PTree.leaves]) hin)
  rw [CExpr.lv_not] at hc
  exact this.not_chosen hc

theorem CExpr.node_tree (e : CExpr) : ∃ ks, e.toTree = .node e.rule ks ∧ PTree.leavesL ks = e.lv := by
  cases e <;> exact ⟨_, by rw [CExpr.toTree]; rfl, by simp [CExpr.lv, CExpr.toTree, PTree.leaves]⟩

theorem AllChosen.expr {e : CExpr} {f : List PTree} (h : AllChosen f) (hm : e.toTree ∈ f) : ∃ c, Chosen (.rule e.rule) e.lv [e.toTree] c := by
  obtain ⟨ks, h1, h2⟩ := e.node_tree
  have := h e.rule ks (by rw [← h1]; exact .here hm)
  rwa [h2, ← h1] at this

theorem CExpr.topGood_of_rule {e : CExpr} (h : e.rule ≠ .expression_and) : e.topGood := by
  rintro f t rfl; simp [CExpr.rule] at h

mutual
theorem CExpr.good_of : ∀ e : CExpr, e.WF → e.topGood → AllChosen [e.toTree] → e.Good
  | .basic .., _, _, _ => trivial
  | .group lp e rp, h, _, ha => by
    obtain ⟨c, hc⟩ := ha.expr (e := .group lp e rp) (by simp)
    have hk : AllChosen [.leaf lp, e.toTree, .leaf rp] := ha.kids (r := .expression_group) (by simp [CExpr.toTree])
    exact CExpr.good_of e h.2.1 (topGood_group h hc) (hk.sub (by simp))
  | .not b e, h, _, ha => by
    obtain ⟨c, hc⟩ := ha.expr (e := .not b e) (by simp)
    have hk : AllChosen [.leaf b, e.toTree] := ha.kids (r := .expression_not) (by simp [CExpr.toTree])
    exact CExpr.good_of e h.2 (topGood_not h hc) (hk.sub (by simp))
  | .and f t, h, hb, ha => by
    have hk : AllChosen (f.toTree :: t.forest) := ha.kids (r := .expression_and) (by simp [CExpr.toTree])
    obtain ⟨h1, h2, h3, h4, h5⟩ := h
    refine ⟨CExpr.good_of f h1 (CExpr.topGood_of_rule h3) (hk.sub (by simp)), CTail.good_of t .AND .expression_and h5 ?_ (hk.sub (by simp +contextual)), hb f t rfl⟩
    exact .inl rfl
  | .or f t, h, _, ha => by
    obtain ⟨c, hc⟩ := ha.expr (e := .or f t) (by simp)
    have hk : AllChosen (f.toTree :: t.forest) := ha.kids (r := .expression_or) (by simp [CExpr.toTree])
    have hop := or_operands h hc
    obtain ⟨h1, h2, h3, h4⟩ := h
    refine ⟨CExpr.good_of f h1 (hop f (by simp)) (hk.sub (by simp)), CTail.good_of t .OR .expression_or h4 ?_ (hk.sub (by simp +contextual))⟩
    exact .inr fun x hx => hop x (by simp [hx])
theorem CTail.good_of : ∀ (t : CTail) (op : TokType) (no : Rule), t.WF op no → (no = .expression_and ∨ ∀ x ∈ t.list, x.topGood) → AllChosen t.forest → t.Good
  | .nil, _, _, _, _, _ => trivial
  | .cons o e t, op, no, h, ht, ha => by
    obtain ⟨h1, h2, h3, h4⟩ := h
    refine ⟨CExpr.good_of e h2 ?_ (ha.sub (by simp [CTail.forest])), CTail.good_of t op no h4 ?_ (ha.sub (by simp +contextual [CTail.forest]))⟩
    · rcases ht with rfl | ht
      · exact CExpr.topGood_of_rule h3
      · exact ht e (by simp [CTail.list])
    · rcases ht with rfl | ht
      · exact .inl rfl
      · exact .inr fun x hx => ht x (by simp [CTail.list, hx])
end

/-! ### Parentheses -/

/-- Appending tokens takes the greater number. -/
def Balanced (u : List Tok) : Prop := ∀ v, maxOpen (u ++ v) = max (maxOpen u) (maxOpen v)

theorem Balanced.nil : Balanced [] := by intro v; simp [maxOpen]
theorem Balanced.append {u w : List Tok} (h : Balanced u) (h' : Balanced w) : Balanced (u ++ w) := by
  intro v; rw [List.append_assoc, h, h', h w]; omega
theorem Balanced.cons {x : Tok} {u : List Tok} (hl : x.type ≠ .L_PAREN) (hr : x.type ≠ .R_PAREN) (h : Balanced u) : Balanced (x :: u) := by
  intro v; simp only [List.cons_append, maxOpen, if_neg hl, if_neg hr]; exact h v
theorem Balanced.plain {u : List Tok} (h : ∀ x ∈ u, x.type ≠ .L_PAREN ∧ x.type ≠ .R_PAREN) : Balanced u := by
  induction u with
  | nil => exact .nil
  | cons x u ih => exact .cons (h x (by simp)).1 (h x (by simp)).2 (ih fun y hy => h y (by simp [hy]))
theorem Balanced.wrap {l r : Tok} {u : List Tok} (hl : l.type = .L_PAREN) (hr : r.type = .R_PAREN) (h : Balanced u) :
    Balanced (l :: (u ++ [r])) ∧ maxOpen (l :: (u ++ [r])) = maxOpen u + 1 := by
  have e : ∀ v, maxOpen (l :: (u ++ [r]) ++ v) = max (maxOpen u + 1) (maxOpen v) := by
    intro v
    simp only [List.cons_append, List.append_assoc, List.nil_append, maxOpen, if_pos hl]
    rw [h]
    simp only [maxOpen, hr, if_pos, if_neg]
    simp only [reduceCtorEq, if_false]
    omega
  have e0 : maxOpen (l :: (u ++ [r])) = max (maxOpen u + 1) 0 := by
    have := e []
    rwa [List.append_nil] at this
  refine ⟨fun v => ?_, by rw [e0]; omega⟩
  rw [e, e0]; omega

theorem maxOpen_plain {u : List Tok} (h : ∀ x ∈ u, x.type ≠ .L_PAREN ∧ x.type ≠ .R_PAREN) : maxOpen u = 0 := by
  induction u with
  | nil => rfl
  | cons x u ih => rw [maxOpen, if_neg (h x (by simp)).1, if_neg (h x (by simp)).2]; exact ih fun y hy => h y (by simp [hy])

theorem noparen_name {x : Tok} (h : isNameTok x) : x.type ≠ .L_PAREN ∧ x.type ≠ .R_PAREN ∧ x.type ≠ .NOT := by
  rcases h with h | h | h | h <;> simp [h]

theorem basic_types {a : CAttr} {op : Tok} {r : CRegexp} (h : (CExpr.basic a op r).WF) : ∀ x ∈ (CExpr.basic a op r).lv, x.type ≠ .L_PAREN ∧ x.type ≠ .R_PAREN ∧ x.type ≠ .NOT := by
  obtain ⟨h1, h2, h3⟩ := h
  rw [CExpr.lv_basic]
  intro t ht
  simp only [List.mem_append, List.mem_cons] at ht
  rcases ht with ht | rfl | ht
  · rcases CAttr.types h1 t ht with ht | ht
    · exact noparen_name ht
    · simp [ht]
  · rcases h2 with h2 | h2 <;> simp [h2]
  · rcases CRegexp.types h3 t ht with ht | ht | ht <;> simp [ht]

mutual
theorem CExpr.balanced : ∀ e : CExpr, e.WF → Balanced e.lv
  | .basic a op r, h => .plain fun x hx => ⟨(basic_types h x hx).1, (basic_types h x hx).2.1⟩
  | .group lp e rp, h => by
    rw [CExpr.lv_group]
    exact (Balanced.wrap h.1 h.2.2 (CExpr.balanced e h.2.1)).1
  | .not b e, h => by
    rw [CExpr.lv_not]
    exact .cons (by simp [h.1]) (by simp [h.1]) (CExpr.balanced e h.2)
  | .and f t, h => by
    rw [CExpr.lvt_and]
    exact (CExpr.balanced f h.1).append (CTail.balanced t .AND _ (by simp) h.2.2.2.2)
  | .or f t, h => by
    rw [CExpr.lvt_or]
    exact (CExpr.balanced f h.1).append (CTail.balanced t .OR _ (by simp) h.2.2.2)
theorem CTail.balanced : ∀ (t : CTail) (op : TokType) (no : Rule), op ≠ .L_PAREN ∧ op ≠ .R_PAREN → t.WF op no → Balanced t.lv
  | .nil, _, _, _, _ => .nil
  | .cons o e t, op, no, hop, h => by
    obtain ⟨h1, h2, h3, h4⟩ := h
    rw [CTail.lvt_cons]
    exact .cons (by rw [h1]; exact hop.1) (by rw [h1]; exact hop.2) ((CExpr.balanced e h2).append (CTail.balanced t op no hop h4))
end

/-! ### Negations -/

abbrev nots (u : List Tok) : Nat := countTok .NOT u

theorem nots_append (u v : List Tok) : nots (u ++ v) = nots u + nots v := by simp [nots, countTok]
theorem nots_cons (x : Tok) (u : List Tok) : nots (x :: u) = (if x.type = .NOT then 1 else 0) + nots u := by
  simp only [nots, countTok, List.filter_cons]
  by_cases h : x.type = .NOT <;> simp [h]; omega
theorem nots_nil : nots [] = 0 := rfl

/-- Every negation counts twice, except the first token. -/
def potential (u : List Tok) : Nat := nots u + nots u.tail

theorem potential_le (u : List Tok) : potential u ≤ 2 * nots u := by
  cases u with
  | nil => simp [potential, nots_nil]
  | cons x u => simp only [potential, List.tail_cons, nots_cons]; omega

theorem potential_append {u : List Tok} (hu : u ≠ []) (v : List Tok) : potential (u ++ v) = potential u + 2 * nots v := by
  cases u with
  | nil => exact absurd rfl hu
  | cons x u => simp only [potential, List.cons_append, List.tail_cons, nots_append, nots_cons]; omega

theorem potential_cons (x : Tok) (u : List Tok) : potential (x :: u) = (if x.type = .NOT then 1 else 0) + 2 * nots u := by
  simp only [potential, List.tail_cons, nots_cons]; omega

/-! ### Expressions -/

def CExpr.level : CExpr → Nat
  | .basic .. => 0
  | .group .. => 0
  | .not .. => 0
  | .and .. => 1
  | .or .. => 2

theorem CExpr.level_le (e : CExpr) : e.level ≤ 2 := by cases e <;> simp [CExpr.level]

theorem CAttr.height (a : CAttr) : a.toTree.height = 2 := by
  rcases a with ⟨_ | ⟨q, c⟩, i⟩ <;> simp [CAttr.toTree, PTree.height, PTree.heightL]
theorem CRegexp.height (r : CRegexp) : r.toTree.height = 2 := by
  rcases r with ⟨p, _ | ⟨s, g⟩⟩ <;> simp [CRegexp.toTree, PTree.height, PTree.heightL]

theorem CExpr.plainHead_or_not {e : CExpr} : e.plainHead ∨ ∃ x u, e.lv = x :: u ∧ x.type = .NOT := by
  cases h : e.lv with
  | nil => exact absurd h e.lv_ne
  | cons x u =>
    by_cases hx : x.type = .NOT
    · exact .inr ⟨x, u, rfl, hx⟩
    · left; intro t ht; rw [h] at ht; simp at ht; rwa [← ht]

mutual
theorem CExpr.height_le : ∀ e : CExpr, e.WF → e.Good → e.toTree.height ≤ 3 + e.level + 3 * maxOpen e.lv + 3 * potential e.lv
  | .basic a op r, _, _ => by
    simp only [CExpr.toTree, PTree.height, PTree.heightL, CAttr.height, CRegexp.height]; omega
  | .group lp e rp, h, hg => by
    have ih := CExpr.height_le e h.2.1 hg
    have hm := (Balanced.wrap h.1 h.2.2 (e.balanced h.2.1)).2
    have hp := potential_le e.lv
    have hl := e.level_le
    rw [CExpr.lv_group, hm, potential_cons, nots_append]
    simp only [CExpr.toTree, PTree.height, PTree.heightL, CExpr.level]
    omega
  | .not b e, h, hg => by
    have ih := CExpr.height_le e h.2 hg
    have hp := potential_le e.lv
    have hl := e.level_le
    have hm : maxOpen (b :: e.lv) = maxOpen e.lv := by simp [maxOpen, h.1]
    rw [CExpr.lv_not, hm, potential_cons, if_pos h.1]
    simp only [CExpr.toTree, PTree.height, PTree.heightL, CExpr.level]
    omega
  | .and f t, h, hg => by
    obtain ⟨h1, h2, h3, h4, h5⟩ := h
    obtain ⟨g1, g2, g3⟩ := hg
    have ih := CExpr.height_le f h1 g1
    have iht := CTail.height_and t h5 g2 g3
    have hl : f.level = 0 := by cases f <;> simp [CExpr.level, CExpr.rule] at h2 h3 ⊢
    have hm := f.balanced h1 t.lv
    rw [CExpr.lvt_and, potential_append f.lv_ne, hm]
    simp only [CExpr.toTree, PTree.height, PTree.heightL, CExpr.level]
    omega
  | .or f t, h, hg => by
    obtain ⟨h1, h2, h4, h5⟩ := h
    obtain ⟨g1, g2⟩ := hg
    have ih := CExpr.height_le f h1 g1
    have iht := CTail.height_or t h5 g2
    have hl : f.level ≤ 1 := by cases f <;> simp [CExpr.level, CExpr.rule] at h2 ⊢
    have hm := f.balanced h1 t.lv
    rw [CExpr.lvt_or, potential_append f.lv_ne, hm]
    simp only [CExpr.toTree, PTree.height, PTree.heightL, CExpr.level]
    omega
theorem CTail.height_and : ∀ t : CTail, t.WF .AND .expression_and → t.Good → ¬ t.Bad → PTree.heightL t.forest ≤ 3 + 3 * maxOpen t.lv + 6 * nots t.lv
  | .nil, _, _, _ => by simp [CTail.forest, PTree.heightL]
  | .cons o e t, h, hg, hb => by
    obtain ⟨h1, h2, h3, h4⟩ := h
    have ih := CExpr.height_le e h2 hg.1
    have iht := CTail.height_and t h4 hg.2 fun hx => hb (.inr hx)
    have hm : maxOpen (o :: (e.lv ++ t.lv)) = max (maxOpen e.lv) (maxOpen t.lv) := by
      simp only [maxOpen, h1, reduceCtorEq, if_false]; exact e.balanced h2 _
    have key : e.toTree.height ≤ 3 + 3 * maxOpen e.lv + 6 * nots e.lv := by
      have hp := potential_le e.lv
      cases e with
      | and => simp [CExpr.rule] at h3
      | or g s =>
        rcases CExpr.plainHead_or_not (e := .or g s) with hx | ⟨x, u, hu, hx⟩
        · exact absurd (.inl ⟨rfl, hx⟩) hb
        · have e1 := potential_cons x u
          have e2 := nots_cons x u
          rw [if_pos hx] at e1 e2
          rw [hu] at ih ⊢
          simp only [CExpr.level] at ih
          omega
      | _ => simp only [CExpr.level] at ih; omega
    rw [CTail.lvt_cons, hm, nots_cons, nots_append]
    simp only [CTail.forest, PTree.heightL, PTree.height]
    omega
theorem CTail.height_or : ∀ t : CTail, t.WF .OR .expression_or → t.Good → PTree.heightL t.forest ≤ 4 + 3 * maxOpen t.lv + 6 * nots t.lv
  | .nil, _, _ => by simp [CTail.forest, PTree.heightL]
  | .cons o e t, h, hg => by
    obtain ⟨h1, h2, h3, h4⟩ := h
    have ih := CExpr.height_le e h2 hg.1
    have iht := CTail.height_or t h4 hg.2
    have hm : maxOpen (o :: (e.lv ++ t.lv)) = max (maxOpen e.lv) (maxOpen t.lv) := by
      simp only [maxOpen, h1, reduceCtorEq, if_false]; exact e.balanced h2 _
    have hp := potential_le e.lv
    have hl : e.level ≤ 1 := by cases e <;> simp [CExpr.level, CExpr.rule] at h3 ⊢
    rw [CTail.lvt_cons, hm, nots_cons, nots_append]
    simp only [CTail.forest, PTree.heightL, PTree.height]
    omega
end

mutual
theorem CExpr.open_le : ∀ e : CExpr, e.WF → maxOpen e.lv ≤ e.toTree.height
  | .basic a op r, h => by
    rw [maxOpen_plain fun x hx => ⟨(basic_types h x hx).1, (basic_types h x hx).2.1⟩]; omega
  | .group lp e rp, h => by
    have ih := CExpr.open_le e h.2.1
    rw [CExpr.lv_group, (Balanced.wrap h.1 h.2.2 (e.balanced h.2.1)).2]
    simp only [CExpr.toTree, PTree.height, PTree.heightL]
    omega
  | .not b e, h => by
    have ih := CExpr.open_le e h.2
    rw [CExpr.lv_not, show maxOpen (b :: e.lv) = maxOpen e.lv by simp [maxOpen, h.1]]
    simp only [CExpr.toTree, PTree.height, PTree.heightL]
    omega
  | .and f t, h => by
    have ih := CExpr.open_le f h.1
    have iht := CTail.open_le t .AND _ (by simp) h.2.2.2.2
    rw [CExpr.lvt_and, f.balanced h.1]
    simp only [CExpr.toTree, PTree.height, PTree.heightL]
    omega
  | .or f t, h => by
    have ih := CExpr.open_le f h.1
    have iht := CTail.open_le t .OR _ (by simp) h.2.2.2
    rw [CExpr.lvt_or, f.balanced h.1]
    simp only [CExpr.toTree, PTree.height, PTree.heightL]
    omega
theorem CTail.open_le : ∀ (t : CTail) (op : TokType) (no : Rule), op ≠ .L_PAREN ∧ op ≠ .R_PAREN → t.WF op no → maxOpen t.lv ≤ PTree.heightL t.forest
  | .nil, _, _, _, _ => by simp [CTail.lv_nil, maxOpen]
  | .cons o e t, op, no, hop, h => by
    obtain ⟨h1, h2, h3, h4⟩ := h
    have ih := CExpr.open_le e h2
    have iht := CTail.open_le t op no hop h4
    rw [CTail.lvt_cons, maxOpen, if_neg (by rw [h1]; exact hop.1), if_neg (by rw [h1]; exact hop.2), e.balanced h2]
    simp only [CTail.forest, PTree.heightL, PTree.height]
    omega
end

/-! ### Queries -/

theorem quant_plain {q : Option CQuant} (h : optQuantWF q) : ∀ x ∈ quantLv q, x.type ≠ .L_PAREN ∧ x.type ≠ .R_PAREN := by
  intro x hx
  have := quant_types h x hx
  rcases this with h | h | h | h | h | h | h <;> simp [h]

theorem heightL_leaves {f : List PTree} (h : ∀ t ∈ f, ∃ x, t = .leaf x) : PTree.heightL f = 0 := by
  induction f with
  | nil => rfl
  | cons c f ih =>
    obtain ⟨x, rfl⟩ := h c (by simp)
    simp [PTree.heightL, PTree.height, ih fun t ht => h t (by simp [ht])]

theorem optQuant_height (q : Option CQuant) : PTree.heightL (optQuant q) ≤ 1 := by
  rcases q with _ | (t | ⟨a, b, c⟩ | ⟨a, n, b, m, c⟩)
  · simp [optQuant, PTree.heightL]
  · simp [optQuant, PTree.heightL, PTree.height, CQuant.forest]
  · simp [optQuant, PTree.heightL, PTree.height, CQuant.forest]
  · cases n <;> cases m <;> simp [optQuant, PTree.heightL, PTree.height, CQuant.forest, optLeaf]

def CQ.level : CQ → Nat
  | .implicit .. => 0
  | .segment .. => 0
  | .group .. => 0
  | .seq .. => 1
  | .disj .. => 2

theorem CQ.level_le (c : CQ) : c.level ≤ 2 := by cases c <;> simp [CQ.level]
theorem CQ.level_item {c : CQ} (h : c.rule = .query_simple ∨ c.rule = .query_group) : c.level = 0 := by
  cases c <;> simp [CQ.level, CQ.rule] at h ⊢

theorem implicit_types {r : CRegexp} {q : Option CQuant} (h : (CQ.implicit r q).WF) : ∀ x ∈ (CQ.implicit r q).lv, x.type ≠ .L_PAREN ∧ x.type ≠ .R_PAREN := by
  rw [lv_implicit]
  intro x hx
  rcases List.mem_append.1 hx with hx | hx
  · rcases CRegexp.types h.1 x hx with hx | hx | hx <;> simp [hx]
  · exact quant_plain h.2 x hx

theorem exprLv_balanced {e : Option CExpr} (h : ∀ x, e = some x → x.WF) : Balanced (exprLv e) := by
  cases e with
  | none => rw [exprLv_none]; exact .nil
  | some x => rw [exprLv_some]; exact x.balanced (h x rfl)

theorem qt_lv_nil : PTree.leavesL CQTail.nil.forest = [] := rfl
theorem qt_lv_cons (o : Option Tok) (c : CQ) (t : CQTail) :
    PTree.leavesL (CQTail.cons o c t).forest = (match o with | some x => [x] | none => []) ++ (c.lv ++ PTree.leavesL t.forest) := by
  cases o <;> simp [CQTail.forest, optLeaf, PTree.leavesL, PTree.leaves, CQ.lv]
theorem CQ.lv_seq' (f : CQ) (t : CQTail) : (CQ.seq f t).lv = f.lv ++ PTree.leavesL t.forest := by simp [CQ.lv, CQ.toTree, PTree.leaves, PTree.leavesL]
theorem CQ.lv_disj' (f : CQ) (t : CQTail) : (CQ.disj f t).lv = f.lv ++ PTree.leavesL t.forest := by simp [CQ.lv, CQ.toTree, PTree.leaves, PTree.leavesL]

theorem seg_lv (lb rb : Tok) (e : Option CExpr) (q : Option CQuant) : (CQ.segment lb e rb q).lv = [lb] ++ (exprLv e ++ ([rb] ++ quantLv q)) := by
  rw [lv_segment]; simp
theorem grp_lv (lp rp : Tok) (c : CQ) (q : Option CQuant) : (CQ.group lp c rp q).lv = (lp :: (c.lv ++ [rp])) ++ quantLv q := by
  rw [lv_group]; simp

mutual
theorem CQ.balanced : ∀ c : CQ, c.WF → Balanced c.lv
  | .implicit r q, h => .plain (implicit_types h)
  | .segment lb e rb q, h => by
    obtain ⟨h1, h2, h3, h4⟩ := h
    rw [seg_lv]
    exact .append (.plain (by simp [h1])) (.append (exprLv_balanced h2) (.append (.plain (by simp [h3])) (.plain (quant_plain h4))))
  | .group lp c rp q, h => by
    obtain ⟨h1, h2, h3, h4, h5⟩ := h
    rw [grp_lv]
    exact .append (Balanced.wrap h1 h4 (CQ.balanced c h2)).1 (.plain (quant_plain h5))
  | .seq f t, h => by
    rw [CQ.lv_seq']
    exact .append (CQ.balanced f h.1) (CQTail.balanced_seq t h.2.2)
  | .disj f t, h => by
    rw [CQ.lv_disj']
    exact .append (CQ.balanced f h.1) (CQTail.balanced_disj t h.2.2.2)
theorem CQTail.balanced_seq : ∀ t : CQTail, t.WFseq → Balanced (PTree.leavesL t.forest)
  | .nil, _ => .nil
  | .cons o c t, h => by
    obtain ⟨rfl, h2, h3, h4⟩ := h
    rw [qt_lv_cons]
    exact (CQ.balanced c h2).append (CQTail.balanced_seq t h4)
theorem CQTail.balanced_disj : ∀ t : CQTail, t.WFdisj → Balanced (PTree.leavesL t.forest)
  | .nil, _ => .nil
  | .cons o c t, h => by
    obtain ⟨⟨x, rfl, hx⟩, h2, h3, h4⟩ := h
    rw [qt_lv_cons]
    exact .append (.plain (by simp [hx])) ((CQ.balanced c h2).append (CQTail.balanced_disj t h4))
end

theorem mem_subtree {t : PTree} {f : List PTree} (h : t ∈ f) : Subtree t f := .here h

theorem optExpr_height {e : Option CExpr} (h : ∀ x, e = some x → x.WF) (ha : AllChosen (optExpr e)) :
    PTree.heightL (optExpr e) ≤ 6 + 3 * maxOpen (exprLv e) + 6 * nots (exprLv e) := by
  cases e with
  | none => simp [optExpr, PTree.heightL]
  | some x =>
    have hx := h x rfl
    obtain ⟨c, hc⟩ := ha .expression [x.toTree] (.here (by simp [optExpr]))
    rw [CExpr.toTree_leaves] at hc
    have hk : AllChosen [x.toTree] := ha.kids (r := .expression) (by simp [optExpr])
    have hg := x.good_of hx (topGood_expression hx ⟨c, hc⟩) hk
    have := x.height_le hx hg
    have hp := potential_le x.lv
    have hl := x.level_le
    rw [exprLv_some]
    simp only [optExpr, PTree.heightL, PTree.height]
    omega

theorem nots_le_left (u v : List Tok) : nots u ≤ nots (u ++ v) := by rw [nots_append]; omega

mutual
theorem CQ.height_le : ∀ c : CQ, c.WF → AllChosen [c.toTree] → c.toTree.height ≤ 8 + c.level + 3 * maxOpen c.lv + 6 * nots c.lv
  | .implicit r q, h, _ => by
    have := optQuant_height q
    simp only [CQ.toTree, PTree.height, PTree.heightL, CRegexp.height]
    omega
  | .segment lb e rb q, h, ha => by
    obtain ⟨h1, h2, h3, h4⟩ := h
    have hq := optQuant_height q
    have hk : AllChosen (optExpr e) := by
      have h1 := ha.kids (r := .query_simple) (ks := .node .query_segment (.leaf lb :: (optExpr e ++ [.leaf rb])) :: optQuant q) (by simp [CQ.toTree])
      have h2 := h1.kids (r := .query_segment) (ks := .leaf lb :: (optExpr e ++ [.leaf rb])) (by simp)
      exact h2.sub (by simp +contextual)
    have := optExpr_height h2 hk
    have b1 : Balanced [lb] := .plain (by simp [h1])
    have hm : maxOpen (exprLv e) ≤ maxOpen (CQ.segment lb e rb q).lv := by
      rw [seg_lv, b1, exprLv_balanced h2]; omega
    have hn : nots (exprLv e) ≤ nots (CQ.segment lb e rb q).lv := by
      rw [seg_lv, nots_append, nots_append]; omega
    simp only [CQ.toTree, PTree.height, PTree.heightL, heightL_append, CQ.level]
    omega
  | .group lp c rp q, h, ha => by
    obtain ⟨h1, h2, h3, h4, h5⟩ := h
    have hk := ha.kids (r := .query_group) (ks := .leaf lp :: c.toTree :: .leaf rp :: optQuant q) (by simp [CQ.toTree])
    have ih := CQ.height_le c h2 (hk.sub (by simp))
    have hq := optQuant_height q
    have hl := c.level_le
    obtain ⟨w1, w2⟩ := Balanced.wrap h1 h4 (c.balanced h2)
    rw [grp_lv, w1, w2, nots_append, nots_cons, nots_append]
    simp only [CQ.toTree, PTree.height, PTree.heightL, CQ.level]
    omega
  | .seq f t, h, ha => by
    obtain ⟨h1, h2, h3⟩ := h
    have hk := ha.kids (r := .query_sequence) (ks := f.toTree :: t.forest) (by simp [CQ.toTree])
    have ih := CQ.height_le f h1 (hk.sub (by simp))
    have iht := CQTail.height_seq t h3 (hk.sub (by simp +contextual))
    rw [CQ.level_item h2] at ih
    rw [CQ.lv_seq', f.balanced h1, nots_append]
    simp only [CQ.toTree, PTree.height, PTree.heightL, CQ.level]
    omega
  | .disj f t, h, ha => by
    obtain ⟨h1, h2, h3, h4⟩ := h
    have hk := ha.kids (r := .query_disjunction) (ks := f.toTree :: t.forest) (by simp [CQ.toTree])
    have ih := CQ.height_le f h1 (hk.sub (by simp))
    have iht := CQTail.height_disj t h4 (hk.sub (by simp +contextual))
    have hl : f.level ≤ 1 := by cases f <;> simp [CQ.level, CQ.rule] at h2 ⊢
    rw [CQ.lv_disj', f.balanced h1, nots_append]
    simp only [CQ.toTree, PTree.height, PTree.heightL, CQ.level]
    omega
theorem CQTail.height_seq : ∀ t : CQTail, t.WFseq → AllChosen t.forest → PTree.heightL t.forest ≤ 8 + 3 * maxOpen (PTree.leavesL t.forest) + 6 * nots (PTree.leavesL t.forest)
  | .nil, _, _ => by simp [CQTail.forest, PTree.heightL]
  | .cons o c t, h, ha => by
    obtain ⟨rfl, h2, h3, h4⟩ := h
    have ih := CQ.height_le c h2 (ha.sub (by simp [CQTail.forest]))
    have iht := CQTail.height_seq t h4 (ha.sub (by simp +contextual [CQTail.forest]))
    rw [CQ.level_item h3] at ih
    rw [qt_lv_cons, List.nil_append, c.balanced h2, nots_append]
    simp only [CQTail.forest, optLeaf, List.nil_append, PTree.heightL]
    omega
theorem CQTail.height_disj : ∀ t : CQTail, t.WFdisj → AllChosen t.forest → PTree.heightL t.forest ≤ 9 + 3 * maxOpen (PTree.leavesL t.forest) + 6 * nots (PTree.leavesL t.forest)
  | .nil, _, _ => by simp [CQTail.forest, PTree.heightL]
  | .cons o c t, h, ha => by
    obtain ⟨⟨x, rfl, hx⟩, h2, h3, h4⟩ := h
    have ih := CQ.height_le c h2 (ha.sub (by simp [CQTail.forest, optLeaf]))
    have iht := CQTail.height_disj t h4 (ha.sub (by simp +contextual [CQTail.forest]))
    have hl : c.level ≤ 1 := by cases c <;> simp [CQ.level, CQ.rule] at h3 ⊢
    have b1 : Balanced [x] := .plain (by simp [hx])
    rw [qt_lv_cons, b1, c.balanced h2, nots_append, nots_append]
    simp only [CQTail.forest, optLeaf, List.cons_append, List.nil_append, PTree.heightL, PTree.height]
    omega
end

mutual
theorem CQ.open_le : ∀ c : CQ, c.WF → maxOpen c.lv ≤ c.toTree.height
  | .implicit r q, h => by rw [maxOpen_plain (implicit_types h)]; omega
  | .segment lb e rb q, h => by
    obtain ⟨h1, h2, h3, h4⟩ := h
    have b1 : Balanced [lb] := .plain (by simp [h1])
    have b2 : Balanced [rb] := .plain (by simp [h3])
    rw [seg_lv, b1, exprLv_balanced h2, b2, maxOpen_plain (quant_plain h4), maxOpen_plain (u := [lb]) (by simp [h1]), maxOpen_plain (u := [rb]) (by simp [h3])]
    cases e with
    | none => rw [exprLv_none, maxOpen]; omega
    | some x =>
      have := x.open_le (h2 x rfl)
      rw [exprLv_some]
      simp only [CQ.toTree, optExpr, PTree.height, PTree.heightL, heightL_append]
      omega
  | .group lp c rp q, h => by
    obtain ⟨h1, h2, h3, h4, h5⟩ := h
    have ih := CQ.open_le c h2
    obtain ⟨w1, w2⟩ := Balanced.wrap h1 h4 (c.balanced h2)
    rw [grp_lv, w1, w2, maxOpen_plain (quant_plain h5)]
    simp only [CQ.toTree, PTree.height, PTree.heightL]
    omega
  | .seq f t, h => by
    have ih := CQ.open_le f h.1
    have iht := CQTail.open_seq t h.2.2
    rw [CQ.lv_seq', f.balanced h.1]
    simp only [CQ.toTree, PTree.height, PTree.heightL]
    omega
  | .disj f t, h => by
    have ih := CQ.open_le f h.1
    have iht := CQTail.open_disj t h.2.2.2
    rw [CQ.lv_disj', f.balanced h.1]
    simp only [CQ.toTree, PTree.height, PTree.heightL]
    omega
theorem CQTail.open_seq : ∀ t : CQTail, t.WFseq → maxOpen (PTree.leavesL t.forest) ≤ PTree.heightL t.forest
  | .nil, _ => by simp [qt_lv_nil, maxOpen]
  | .cons o c t, h => by
    obtain ⟨rfl, h2, h3, h4⟩ := h
    have ih := CQ.open_le c h2
    have iht := CQTail.open_seq t h4
    rw [qt_lv_cons, List.nil_append, c.balanced h2]
    simp only [CQTail.forest, optLeaf, List.nil_append, PTree.heightL]
    omega
theorem CQTail.open_disj : ∀ t : CQTail, t.WFdisj → maxOpen (PTree.leavesL t.forest) ≤ PTree.heightL t.forest
  | .nil, _ => by simp [qt_lv_nil, maxOpen]
  | .cons o c t, h => by
    obtain ⟨⟨x, rfl, hx⟩, h2, h3, h4⟩ := h
    have ih := CQ.open_le c h2
    have iht := CQTail.open_disj t h4
    have b1 : Balanced [x] := .plain (by simp [hx])
    rw [qt_lv_cons, b1, maxOpen_plain (u := [x]) (by simp [hx]), c.balanced h2]
    simp only [CQTail.forest, optLeaf, List.cons_append, List.nil_append, PTree.heightL, PTree.height]
    omega
end

/-! ### Whole queries -/

theorem within_plain {q : CQuery} (h : q.WF) : ∀ x ∈ withinLv q.within ++ [q.eof], x.type ≠ .L_PAREN ∧ x.type ≠ .R_PAREN := by
  obtain ⟨h1, h2, h3⟩ := h
  rcases q with ⟨m, _ | ⟨w, s⟩, e⟩
  · simp at h3; simp [withinLv, h3]
  · obtain ⟨w1, w2⟩ := h2 w s rfl
    simp at h3
    simp [withinLv, w1, w2, h3]

theorem within_height (w : Option (Tok × Tok)) (e : Tok) : PTree.heightL (optWithin w ++ [.leaf e]) ≤ 2 := by
  rcases w with _ | ⟨w, s⟩ <;> simp [optWithin, PTree.heightL, PTree.height]

theorem query_height {q : CQuery} (h : q.WF) {c : List Bool} (hc : Chosen (.rule .query) q.toTree.leaves [q.toTree] c) :
    q.toTree.height ≤ 12 + 3 * maxOpen q.toTree.leaves + 6 * nots q.toTree.leaves ∧ maxOpen q.toTree.leaves ≤ q.toTree.height := by
  have hall : AllChosen [q.toTree] := fun r ks hs => hc.subtree hs
  have hk := hall.kids (r := .query) (ks := .node .main_query [q.main.toTree] :: (optWithin q.within ++ [.leaf q.eof])) (by simp [CQuery.toTree])
  have hk2 := hk.kids (r := .main_query) (ks := [q.main.toTree]) (by simp)
  have h1 := q.main.height_le h.1 hk2
  have h2 := q.main.open_le h.1
  have h3 := within_height q.within q.eof
  have hl := q.main.level_le
  rw [lv_query, q.main.balanced h.1, maxOpen_plain (within_plain h), nots_append]
  simp only [CQuery.toTree, PTree.height, PTree.heightL]
  omega

end Fcsql
