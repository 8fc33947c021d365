/-
Literals and comparisons; sums over nodes and tokens.
-/
import Verif.Proofs.Depth
import Verif.Proofs.NodeHeight
import Verif.Spec.Census

set_option autoImplicit false
set_option linter.unusedSimpArgs false

namespace Fcsql

/-! ### Literals in a part of the tokens -/

/-- The literals of `u`, with `b` before and `v` after it. -/
def litsIn (b : List Tok) : List Tok → List Tok → List Literal
  | [], _ => []
  | x :: u, v => (if x.type = .REGEXP then [⟨b, x, u ++ v⟩] else []) ++ litsIn (x :: b) u v

theorem literalsFrom_eq : ∀ (u b : List Tok), literalsFrom b u = litsIn b u []
  | [], _ => rfl
  | x :: u, b => by
    simp only [literalsFrom, litsIn, List.append_nil, literalsFrom_eq u]
    split <;> simp

theorem litsIn_append : ∀ (u b w v : List Tok), litsIn b (u ++ w) v = litsIn b u (w ++ v) ++ litsIn (u.reverse ++ b) w v
  | [], _, _, _ => by simp [litsIn]
  | x :: u, b, w, v => by simp [litsIn, litsIn_append u, List.append_assoc]

theorem litsIn_none {u : List Tok} (h : ∀ x ∈ u, x.type ≠ .REGEXP) : ∀ b v, litsIn b u v = [] := by
  induction u with
  | nil => intro b v; rfl
  | cons x u ih =>
    intro b v
    rw [litsIn, if_neg (h x (by simp)), ih (fun y hy => h y (by simp [hy]))]
    rfl

def isOpTok (x : Tok) : Prop := x.type = .OPERATOR_EQ ∨ x.type = .OPERATOR_NE ∨ x.type = .COLON
def NoOp (b : List Tok) : Prop := ∀ x, b.head? = some x → ¬ isOpTok x
def NoSlash (v : List Tok) : Prop := ∀ x, v.head? = some x → x.type ≠ .FWD_SLASH
def Soft (u : List Tok) : Prop := NoSlash u ∧ NoOp u.reverse

theorem Soft.nil : Soft [] := ⟨by simp [NoSlash], by simp [NoOp]⟩

theorem NoSlash.append {u v : List Tok} (h : NoSlash u) (h' : NoSlash v) : NoSlash (u ++ v) := by
  cases u with
  | nil => simpa using h'
  | cons x u => exact fun y hy => h y (by simpa using hy)

theorem NoOp.append {u v : List Tok} (h : NoOp u) (h' : NoOp v) : NoOp (u ++ v) := by
  cases u with
  | nil => simpa using h'
  | cons x u => exact fun y hy => h y (by simpa using hy)

theorem Soft.append {u v : List Tok} (h : Soft u) (h' : Soft v) : Soft (u ++ v) :=
  ⟨h.1.append h'.1, by rw [List.reverse_append]; exact h'.2.append h.2⟩

theorem Soft.one {x : Tok} (h1 : x.type ≠ .FWD_SLASH) (h2 : ¬ isOpTok x) : Soft [x] :=
  ⟨by intro y hy; simp at hy; subst hy; exact h1, by intro y hy; simp at hy; subst hy; exact h2⟩

theorem Soft.of_all {u : List Tok} (h : ∀ x ∈ u, x.type ≠ .FWD_SLASH ∧ ¬ isOpTok x) : Soft u := by
  induction u with
  | nil => exact .nil
  | cons x u ih => exact (Soft.one (h x (by simp)).1 (h x (by simp)).2).append (ih fun y hy => h y (by simp [hy]))

/-- The first and the last token decide. -/
theorem Soft.ends {x y : Tok} {u : List Tok} (h1 : x.type ≠ .FWD_SLASH) (h2 : ¬ isOpTok y) : Soft (x :: (u ++ [y])) :=
  ⟨by intro z hz; simp at hz; subst hz; exact h1, by intro z hz; simp at hz; subst hz; exact h2⟩

theorem not_op {x : Tok} {t : TokType} (h : x.type = t) (ht : t ≠ .OPERATOR_EQ ∧ t ≠ .OPERATOR_NE ∧ t ≠ .COLON) : ¬ isOpTok x := by
  rintro (h' | h' | h') <;> rw [h] at h' <;> simp [h'] at ht

theorem CRegexp.soft {r : CRegexp} (h : r.WF) : Soft r.lv := by
  obtain ⟨p, _ | ⟨s, f⟩⟩ := r
  · rw [CRegexp.lv_none]
    exact .one (by have := h.1; simp at this; simp [this]) (not_op h.1 (by simp))
  · rw [CRegexp.lv_some]
    exact Soft.ends (u := [s]) (by have := h.1; simp at this; simp [this]) (not_op (h.2 s f rfl).2 (by simp))

theorem name_soft {x : Tok} (h : isNameTok x) : x.type ≠ .FWD_SLASH := by
  rcases h with h | h | h | h <;> simp [h]

theorem name_not_op {x : Tok} (h : isNameTok x) : ¬ isOpTok x := by
  rcases h with h | h | h | h <;> exact not_op h (by simp)

theorem CAttr.starts {a : CAttr} (h : a.WF) : ∃ x u, a.toTree.leaves = x :: u ∧ x.type ≠ .FWD_SLASH := by
  obtain ⟨_ | ⟨q, c⟩, i⟩ := a
  · exact ⟨i, [], CAttr.lv_none i, name_soft h.1⟩
  · exact ⟨q, [c, i], CAttr.lv_some q c i, name_soft (h.2 q c rfl).1⟩

theorem CRegexp.lv_ne (r : CRegexp) : r.lv ≠ [] := by
  obtain ⟨p, _ | ⟨s, f⟩⟩ := r
  · rw [CRegexp.lv_none]; simp
  · rw [CRegexp.lv_some]; simp

theorem basic_soft {a : CAttr} {op : Tok} {r : CRegexp} (h : (CExpr.basic a op r).WF) : Soft (CExpr.basic a op r).lv := by
  rw [CExpr.lv_basic]
  obtain ⟨x, u, e, hx⟩ := CAttr.starts h.1
  refine ⟨by rw [e]; intro y hy; simp at hy; subst hy; exact hx, ?_⟩
  intro y hy
  refine (CRegexp.soft h.2.2).2 y ?_
  simp only [List.reverse_append, List.reverse_cons, List.append_assoc] at hy
  cases hr : r.lv.reverse with
  | nil => simp at hr; exact absurd hr r.lv_ne
  | cons z l => rw [hr] at hy; simpa using hy

mutual
theorem CExpr.soft : ∀ e : CExpr, e.WF → Soft e.lv
  | .basic a op r, h => basic_soft h
  | .group lp e rp, h => by
    rw [CExpr.lv_group]
    exact .ends (by simp [h.1]) (not_op h.2.2 (by simp))
  | .not b e, h => by
    rw [CExpr.lv_not, show b :: e.lv = [b] ++ e.lv from rfl]
    exact (Soft.one (by simp [h.1]) (not_op h.1 (by simp))).append (CExpr.soft e h.2)
  | .or f t, h => by
    rw [show (CExpr.or f t).lv = f.lv ++ t.lv by simp [CExpr.lv, CExpr.toTree, PTree.leaves, PTree.leavesL, CTail.lv]]
    exact (CExpr.soft f h.1).append (CTail.soft t .OR _ (by simp) h.2.2.2)
  | .and f t, h => by
    rw [show (CExpr.and f t).lv = f.lv ++ t.lv by simp [CExpr.lv, CExpr.toTree, PTree.leaves, PTree.leavesL, CTail.lv]]
    exact (CExpr.soft f h.1).append (CTail.soft t .AND _ (by simp) h.2.2.2.2)
theorem CTail.soft : ∀ (t : CTail) (op : TokType) (no : Rule), op = .OR ∨ op = .AND → t.WF op no → Soft t.lv
  | .nil, _, _, _, _ => by rw [show CTail.nil.lv = [] from rfl]; exact .nil
  | .cons o e t, op, no, ho, h => by
    rw [show (CTail.cons o e t).lv = [o] ++ (e.lv ++ t.lv) by simp [CExpr.lv, CTail.lv, CTail.forest, PTree.leaves, PTree.leavesL]]
    refine (Soft.one ?_ ?_).append ((CExpr.soft e h.2.1).append (CTail.soft t op no ho h.2.2.2))
    · rw [h.1]; rcases ho with rfl | rfl <;> simp
    · exact not_op h.1 (by rcases ho with rfl | rfl <;> simp)
end

theorem quant_soft {q : Option CQuant} (h : optQuantWF q) : Soft (quantLv q) := by
  refine .of_all fun x hx => ?_
  rcases quant_types h x hx with h | h | h | h | h | h | h <;> exact ⟨by simp [h], not_op h (by simp)⟩

theorem quant_no_lit {q : Option CQuant} (h : optQuantWF q) : ∀ x ∈ quantLv q, x.type ≠ .REGEXP := by
  intro x hx
  rcases quant_types h x hx with h | h | h | h | h | h | h <;> simp [h]

mutual
theorem CQ.soft : ∀ c : CQ, c.WF → Soft c.lv
  | .implicit r q, h => by
    rw [lv_implicit]
    exact (CRegexp.soft h.1).append (quant_soft h.2)
  | .segment lb e rb q, h => by
    obtain ⟨h1, h2, h3, h4⟩ := h
    rw [show (CQ.segment lb e rb q).lv = (lb :: (exprLv e ++ [rb])) ++ quantLv q by rw [seg_lv]; simp]
    exact (Soft.ends (by simp [h1]) (not_op h3 (by simp))).append (quant_soft h4)
  | .group lp c rp q, h => by
    obtain ⟨h1, h2, h3, h4, h5⟩ := h
    rw [grp_lv]
    exact (Soft.ends (by simp [h1]) (not_op h4 (by simp))).append (quant_soft h5)
  | .seq f t, h => by
    rw [CQ.lv_seq']
    exact (CQ.soft f h.1).append (CQTail.soft_seq t h.2.2)
  | .disj f t, h => by
    rw [CQ.lv_disj']
    exact (CQ.soft f h.1).append (CQTail.soft_disj t h.2.2.2)
theorem CQTail.soft_seq : ∀ t : CQTail, t.WFseq → Soft (PTree.leavesL t.forest)
  | .nil, _ => .nil
  | .cons o c t, h => by
    obtain ⟨rfl, h2, h3, h4⟩ := h
    rw [qt_lv_cons]
    exact (CQ.soft c h2).append (CQTail.soft_seq t h4)
theorem CQTail.soft_disj : ∀ t : CQTail, t.WFdisj → Soft (PTree.leavesL t.forest)
  | .nil, _ => .nil
  | .cons o c t, h => by
    obtain ⟨⟨x, rfl, hx⟩, h2, h3, h4⟩ := h
    rw [qt_lv_cons]
    exact (Soft.one (by simp [hx]) (not_op hx (by simp))).append ((CQ.soft c h2).append (CQTail.soft_disj t h4))
end

/-! ### The comparisons -/

section
variable (rt : PyRuntime) (cfg : Config)

/-- The comparisons of some trees. -/
def allL (ns : List Node) (c : Clazz) : List Node := (Node.subnodesL ns).filter fun m => m.kind.clazz = c

theorem all_mk (k : Kind) (cs : List Node) (l : Option Loc) (c : Clazz) (h : k.clazz ≠ c) : (Node.mk k cs l).all c = allL cs c := by
  simp [Node.all, allL, Node.subnodes, Node.kind, h]

theorem all_one (k : Kind) (l : Option Loc) (c : Clazz) (h : k.clazz = c) : (Node.mk k [] l).all c = [.mk k [] l] := by
  simp [Node.all, Node.subnodes, Node.subnodesL, Node.kind, h]

theorem allL_nil (c : Clazz) : allL [] c = [] := rfl
theorem allL_cons (n : Node) (ns : List Node) (c : Clazz) : allL (n :: ns) c = n.all c ++ allL ns c := by
  simp [allL, Node.all, Node.subnodesL]

theorem litsIn_regexp {r : CRegexp} (h : r.WF) (b v : List Tok) : litsIn b r.lv v = [⟨b, r.pat, r.lv.tail ++ v⟩] := by
  obtain ⟨p, _ | ⟨s, f⟩⟩ := r
  · have := h.1
    simp only at this
    rw [CRegexp.lv_none]; simp [litsIn, this]
  · have h1 := h.1
    have h2 := h.2 s f rfl
    simp only at h1
    rw [CRegexp.lv_some]; simp [litsIn, h1, h2.1, h2.2]

/-- Value and flags of a literal. -/
theorem regexp_means {r : CRegexp} (h : r.WF) {b v : List Tok} (hv : NoSlash v) {x : PyStr} {fl : Option FlagSet}
    (hd : r.Denotes rt cfg x fl) {l : Option Loc} {q : Option PyStr} {i : PyStr} {o : Operator} (hb : comparedWith cfg b = (q, i, o)) :
    Literal.Means rt cfg ⟨b, r.pat, r.lv.tail ++ v⟩ (.mk (.expression q i o x fl) [] l) := by
  obtain ⟨⟨raw, h1, rfl⟩, h2⟩ := hd
  refine ⟨raw, fl, h1, ?_, by simp [Node.kind, hb]⟩
  obtain ⟨p, _ | ⟨s, f⟩⟩ := r
  · have : flagsAfter ((CRegexp.mk p none).lv.tail ++ v) = none := by
      rw [CRegexp.lv_none]
      rcases v with _ | ⟨y, _ | ⟨z, v⟩⟩
      · rfl
      · rfl
      · simp [flagsAfter, hv y rfl]
    simp only [this]
    exact h2
  · have : flagsAfter ((CRegexp.mk p (some (s, f))).lv.tail ++ v) = some f.text := by
      rw [CRegexp.lv_some]
      simp [flagsAfter, (h.2 s f rfl).1]
    simp only [this]
    exact h2

theorem basic_compared {a : CAttr} (ha : a.WF) {op : Tok} {o : Operator} (ho : opSpec op o) {b : List Tok} (hb : NoOp b) :
    comparedWith cfg (op :: (a.toTree.leaves.reverse ++ b)) = (a.qual.map fun p => p.1.text, a.ident.text, o) := by
  have key : ∀ l : List Tok, comparedWith cfg (op :: a.ident :: l) = (qualifierBefore l, a.ident.text, o) := by
    intro l
    rcases ho with ⟨h, rfl⟩ | ⟨h, rfl⟩ <;> simp [comparedWith, h]
  obtain ⟨_ | ⟨q, c⟩, i⟩ := a
  · rw [CAttr.lv_none]
    have : qualifierBefore b = none := by
      rcases b with _ | ⟨y, _ | ⟨z, b⟩⟩
      · rfl
      · rfl
      · have := hb y rfl
        simp [qualifierBefore, show y.type ≠ .COLON from fun h => this (.inr (.inr h))]
    simpa [this] using key b
  · rw [CAttr.lv_some]
    have := key (c :: q :: b)
    simpa [qualifierBefore, (ha.2 q c rfl).2] using this

theorem implicit_compared {b : List Tok} (hb : NoOp b) : comparedWith cfg b = (none, cfg.defaultIdentifier, cfg.defaultOperator) := by
  rcases b with _ | ⟨y, _ | ⟨z, b⟩⟩
  · rfl
  · rfl
  · have := hb y rfl
    simp [comparedWith, show y.type ≠ .OPERATOR_EQ from fun h => this (.inl h), show y.type ≠ .OPERATOR_NE from fun h => this (.inr (.inl h))]

abbrev Reads (b u v : List Tok) (ns : List Node) : Prop := List.Forall₂ (Literal.Means rt cfg) (litsIn b u v) ns

variable {rt cfg}

theorem Reads.append {b u w v : List Tok} {ns ms : List Node} (h : Reads rt cfg b u (w ++ v) ns) (h' : Reads rt cfg (u.reverse ++ b) w v ms) :
    Reads rt cfg b (u ++ w) v (ns ++ ms) := by
  unfold Reads
  rw [litsIn_append]
  exact List.rel_append h h'

theorem Reads.silent {b u v : List Tok} (h : ∀ x ∈ u, x.type ≠ .REGEXP) : Reads rt cfg b u v [] := by
  unfold Reads
  rw [litsIn_none h]
  exact .nil

/-- Softness and reading together. -/
def SoftReads (rt : PyRuntime) (cfg : Config) (u : List Tok) (ns : List Node) : Prop :=
  Soft u ∧ ∀ b v, NoOp b → NoSlash v → Reads rt cfg b u v ns

theorem SoftReads.append {u w : List Tok} {ns ms : List Node} (h : SoftReads rt cfg u ns) (h' : SoftReads rt cfg w ms) :
    SoftReads rt cfg (u ++ w) (ns ++ ms) :=
  ⟨h.1.append h'.1, fun b v hb hv => (h.2 b (w ++ v) hb (h'.1.1.append hv)).append (h'.2 _ v (h.1.2.append hb) hv)⟩

theorem SoftReads.silent {u : List Tok} (h : Soft u) (h' : ∀ x ∈ u, x.type ≠ .REGEXP) : SoftReads rt cfg u [] :=
  ⟨h, fun _ _ _ _ => .silent h'⟩

theorem SoftReads.tok {x : Tok} {t : TokType} (h : x.type = t) (ht : t ≠ .OPERATOR_EQ ∧ t ≠ .OPERATOR_NE ∧ t ≠ .COLON ∧ t ≠ .FWD_SLASH ∧ t ≠ .REGEXP) :
    SoftReads rt cfg [x] [] := by
  obtain ⟨h1, h2, h3, h4, h5⟩ := ht
  exact .silent (.one (by rw [h]; exact h4) (not_op h ⟨h1, h2, h3⟩)) (by simp [h, h5])

theorem SoftReads.wrap {x y : Tok} {u : List Tok} {ns : List Node} (hx : SoftReads rt cfg [x] []) (h : SoftReads rt cfg u ns) (hy : SoftReads rt cfg [y] []) :
    SoftReads rt cfg (x :: (u ++ [y])) ns := by
  have := hx.append (h.append hy)
  simpa using this

mutual
theorem CExpr.reads : ∀ (e : CExpr) (n : Node), e.WF → e.Denotes rt cfg n → SoftReads rt cfg e.lv (n.all .Expression)
  | .basic a op r, n, h, hd => by
    obtain ⟨o, x, fl, h1, h2, rfl⟩ := hd
    refine ⟨basic_soft h, fun b v hb hv => ?_⟩
    rw [all_one _ _ .Expression rfl, CExpr.lv_basic, show a.toTree.leaves ++ op :: r.lv = (a.toTree.leaves ++ [op]) ++ r.lv by simp]
    have hsil : ∀ x ∈ a.toTree.leaves ++ [op], x.type ≠ .REGEXP := by
      intro x hx
      rcases List.mem_append.1 hx with hx | hx
      · rcases CAttr.types h.1 x hx with hx | hx
        · rcases hx with hx | hx | hx | hx <;> simp [hx]
        · simp [hx]
      · simp only [List.mem_singleton] at hx
        subst hx
        rcases h.2.1 with h | h <;> simp [h]
    refine Reads.append (ns := []) (.silent hsil) ?_
    unfold Reads
    rw [litsIn_regexp h.2.2]
    refine .cons (regexp_means rt cfg h.2.2 hv h2 ?_) .nil
    have := basic_compared cfg h.1 h1 hb
    simpa using this
  | .group lp e rp, n, h, hd => by
    obtain ⟨m, h1, rfl⟩ := hd
    rw [CExpr.lv_group, all_mk _ _ _ _ (by simp [Kind.clazz]), allL_cons, allL_nil, List.append_nil]
    exact .wrap (.tok h.1 (by simp)) (CExpr.reads e m h.2.1 h1) (.tok h.2.2 (by simp))
  | .not b e, n, h, hd => by
    obtain ⟨m, h1, rfl⟩ := hd
    rw [CExpr.lv_not, all_mk _ _ _ _ (by simp [Kind.clazz]), allL_cons, allL_nil, List.append_nil, show b :: e.lv = [b] ++ e.lv from rfl]
    exact (SoftReads.tok h.1 (by simp)).append (CExpr.reads e m h.2 h1)
  | .or f t, n, h, hd => by
    obtain ⟨m, ms, h1, h2, rfl⟩ := hd
    rw [show (CExpr.or f t).lv = f.lv ++ t.lv by simp [CExpr.lv, CExpr.toTree, PTree.leaves, PTree.leavesL, CTail.lv],
      all_mk _ _ _ _ (by simp [Kind.clazz]), allL_cons]
    exact (CExpr.reads f m h.1 h1).append (CTail.reads t ms .OR _ (by simp) h.2.2.2 h2)
  | .and f t, n, h, hd => by
    obtain ⟨m, ms, h1, h2, rfl⟩ := hd
    rw [show (CExpr.and f t).lv = f.lv ++ t.lv by simp [CExpr.lv, CExpr.toTree, PTree.leaves, PTree.leavesL, CTail.lv],
      all_mk _ _ _ _ (by simp [Kind.clazz]), allL_cons]
    exact (CExpr.reads f m h.1 h1).append (CTail.reads t ms .AND _ (by simp) h.2.2.2.2 h2)
theorem CTail.reads : ∀ (t : CTail) (ns : List Node) (op : TokType) (no : Rule), op = .OR ∨ op = .AND → t.WF op no → t.Denotes rt cfg ns →
    SoftReads rt cfg t.lv (allL ns .Expression)
  | .nil, ns, _, _, _, _, hd => by
    cases hd
    exact .silent .nil (by simp [CTail.lv, CTail.forest, PTree.leavesL])
  | .cons o e t, ns, op, no, ho, h, hd => by
    obtain ⟨m, ms, h1, h2, rfl⟩ := hd
    rw [show (CTail.cons o e t).lv = [o] ++ (e.lv ++ t.lv) by simp [CExpr.lv, CTail.lv, CTail.forest, PTree.leaves, PTree.leavesL], allL_cons]
    refine SoftReads.append (ns := []) (.tok h.1 (by rcases ho with rfl | rfl <;> simp)) ?_
    exact (CExpr.reads e m h.2.1 h1).append (CTail.reads t ms op no ho h.2.2.2 h2)
end

theorem quant_reads {q : Option CQuant} (h : optQuantWF q) : SoftReads rt cfg (quantLv q) [] := .silent (quant_soft h) (quant_no_lit h)

mutual
theorem CQ.reads : ∀ (c : CQ) (n : Node), c.WF → c.Denotes rt cfg n → SoftReads rt cfg c.lv (n.all .Expression)
  | .implicit r q, n, h, hd => by
    obtain ⟨x, fl, mn, mx, h1, -, rfl⟩ := hd
    rw [lv_implicit, all_mk _ _ _ _ (by simp [Kind.clazz]), allL_cons, allL_nil, all_one _ _ .Expression rfl, List.append_nil]
    rw [← List.append_nil [Node.mk _ _ _]]
    refine SoftReads.append (u := r.lv) ⟨CRegexp.soft h.1, fun b v hb hv => ?_⟩ (quant_reads h.2)
    unfold Reads
    rw [litsIn_regexp h.1]
    exact .cons (regexp_means rt cfg h.1 hv h1 (implicit_compared cfg hb)) .nil
  | .segment lb e rb q, n, h, hd => by
    obtain ⟨h1, h2, h3, h4⟩ := h
    obtain ⟨m, mn, mx, g1, -, rfl⟩ := hd
    rw [show (CQ.segment lb e rb q).lv = (lb :: (exprLv e ++ [rb])) ++ quantLv q by rw [seg_lv]; simp,
      all_mk _ _ _ _ (by simp [Kind.clazz]), allL_cons, allL_nil]
    refine SoftReads.append (.wrap (.tok h1 (by simp)) ?_ (.tok h3 (by simp))) (quant_reads h4)
    cases e with
    | none =>
      obtain rfl : m = _ := g1
      rw [exprLv_none, all_mk _ _ _ _ (by simp [Kind.clazz]), allL_nil]
      exact .silent .nil (by simp)
    | some e =>
      rw [exprLv_some]
      exact CExpr.reads e m (h2 e rfl) g1
  | .group lp c rp q, n, h, hd => by
    obtain ⟨h1, h2, h3, h4, h5⟩ := h
    obtain ⟨m, mn, mx, g1, -, rfl⟩ := hd
    rw [grp_lv, all_mk _ _ _ _ (by simp [Kind.clazz]), allL_cons, allL_nil]
    exact SoftReads.append (.wrap (.tok h1 (by simp)) (CQ.reads c m h2 g1) (.tok h4 (by simp))) (quant_reads h5)
  | .seq f t, n, h, hd => by
    obtain ⟨m, ms, h1, h2, rfl⟩ := hd
    rw [CQ.lv_seq', all_mk _ _ _ _ (by simp [Kind.clazz]), allL_cons]
    exact (CQ.reads f m h.1 h1).append (CQTail.reads t ms (.inl h.2.2) h2)
  | .disj f t, n, h, hd => by
    obtain ⟨m, ms, h1, h2, rfl⟩ := hd
    rw [CQ.lv_disj', all_mk _ _ _ _ (by simp [Kind.clazz]), allL_cons]
    exact (CQ.reads f m h.1 h1).append (CQTail.reads t ms (.inr h.2.2.2) h2)
theorem CQTail.reads : ∀ (t : CQTail) (ns : List Node), t.WFseq ∨ t.WFdisj → t.Denotes rt cfg ns →
    SoftReads rt cfg (PTree.leavesL t.forest) (allL ns .Expression)
  | .nil, ns, _, hd => by
    cases hd
    exact .silent .nil (by simp [CQTail.forest, PTree.leavesL])
  | .cons o c t, ns, h, hd => by
    obtain ⟨m, ms, h1, h2, rfl⟩ := hd
    rw [qt_lv_cons, allL_cons]
    rcases h with ⟨rfl, g2, g3, g4⟩ | ⟨⟨x, rfl, hx⟩, g2, g3, g4⟩
    · exact (CQ.reads c m g2 h1).append (CQTail.reads t ms (.inl g4) h2)
    · exact SoftReads.append (ns := []) (.tok hx (by simp)) ((CQ.reads c m g2 h1).append (CQTail.reads t ms (.inr g4) h2))
end

theorem within_reads {q : CQuery} (h : q.WF) : SoftReads rt cfg (withinLv q.within ++ [q.eof]) [] := by
  obtain ⟨m, w, e⟩ := q
  obtain ⟨-, h2, h3⟩ := h
  rcases w with _ | ⟨w, s⟩
  · exact .tok h3 (by simp)
  · have := h2 w s rfl
    exact SoftReads.append (u := [w]) (ns := []) (.tok this.1 (by simp)) (SoftReads.append (u := [s]) (w := [e]) (ns := []) (.tok this.2 (by simp)) (.tok h3 (by simp)))

theorem CQuery.reads {q : CQuery} {n : Node} (h : q.WF) (hd : q.Denotes rt cfg n) :
    List.Forall₂ (Literal.Means rt cfg) (literals q.toTree.leaves) (n.all .Expression) := by
  have key : ∀ m, q.main.Denotes rt cfg m → List.Forall₂ (Literal.Means rt cfg) (literals q.toTree.leaves) (m.all .Expression) := by
    intro m hm
    rw [literals, literalsFrom_eq, lv_query]
    have := ((CQ.reads q.main m h.1 hm).append (within_reads h)).2 [] [] (by simp [NoOp]) (by simp [NoSlash])
    simpa [Reads] using this
  obtain ⟨c, w, e⟩ := q
  rcases w with _ | ⟨w, s⟩
  · exact key n hd
  · obtain ⟨m, sc, h1, -, rfl⟩ := hd
    have := key m h1
    rw [all_mk _ _ _ _ (by simp [Kind.clazz]), allL_cons, allL_cons, allL_nil]
    rw [all_mk (.within sc) _ _ _ (by simp [Kind.clazz]), allL_nil]
    simpa using this
end

/-! ### Sums over nodes and over tokens -/

/-- The sum of a weight, given by the kind and the number of children, over the nodes of a tree. -/
def total (w : Kind → Nat → Int) (ns : List Node) : Int := (ns.map fun m => w m.kind m.children.length).sum

/-- The sum of a weight, given by the type, over tokens. -/
def weigh (g : TokType → Int) (ts : List Tok) : Int := (ts.map fun x => g x.type).sum

theorem total_append (w : Kind → Nat → Int) (a b : List Node) : total w (a ++ b) = total w a + total w b := by simp [total]
theorem weigh_append (g : TokType → Int) (a b : List Tok) : weigh g (a ++ b) = weigh g a + weigh g b := by simp [weigh]
theorem weigh_cons (g : TokType → Int) (x : Tok) (b : List Tok) : weigh g (x :: b) = g x.type + weigh g b := by simp [weigh]
theorem weigh_nil (g : TokType → Int) : weigh g [] = 0 := rfl

theorem total_mk (w : Kind → Nat → Int) (k : Kind) (cs : List Node) (l : Option Loc) :
    total w (Node.mk k cs l).subnodes = w k cs.length + total w (Node.subnodesL cs) := by
  simp [total, Node.subnodes, Node.kind, Node.children]
theorem total_nil (w : Kind → Nat → Int) : total w (Node.subnodesL []) = 0 := rfl
theorem total_cons (w : Kind → Nat → Int) (n : Node) (ns : List Node) :
    total w (Node.subnodesL (n :: ns)) = total w n.subnodes + total w (Node.subnodesL ns) := by
  simp [total, Node.subnodesL]

/-- Weights that agree, construct by construct. -/
structure Weights (w : Kind → Nat → Int) (g : TokType → Int) : Prop where
  zero : ∀ t, t ∈ [.IDENTIFIER, .WITHIN, .SIMPLE_WITHIN_SCOPE, .REGEXP_FLAGS, .COLON, .FWD_SLASH, .Q_ONE_OR_MORE, .Q_ZERO_OR_MORE,
    .Q_ZERO_OR_ONE, .L_CURLY_BRACKET, .R_CURLY_BRACKET, .INTEGER, .Q_COMMA, .EOF] → g t = 0
  basic : ∀ q i o v f t, t = .OPERATOR_EQ ∨ t = .OPERATOR_NE → w (.expression q i o v f) 0 = g t + g .REGEXP
  implicit : ∀ q i o v f a b, w (.segment a b) 1 + w (.expression q i o v f) 0 = g .REGEXP
  segment : ∀ a b, w (.segment a b) 1 = g .L_SQUARE_BRACKET + g .R_SQUARE_BRACKET
  wildcard : w .wildcard 0 = 0
  group : w .group 1 = g .L_PAREN + g .R_PAREN
  qgroup : ∀ a b, w (.qgroup a b) 1 = g .L_PAREN + g .R_PAREN
  not : w .not 1 = g .NOT
  and : ∀ k, w .and (k + 1) = k * g .AND
  or : ∀ k, w .or (k + 1) = k * g .OR
  disjunction : ∀ k, w .disjunction (k + 1) = k * g .OR
  sequence : ∀ k, w .sequence k = 0
  within : ∀ s, w (.within s) 0 = 0
  withWithin : w .withWithin 2 = 0

section
variable {rt : PyRuntime} {cfg : Config} {w : Kind → Nat → Int} {g : TokType → Int}

theorem weigh_zero (_ : Weights w g) {u : List Tok} (hu : ∀ x ∈ u, g x.type = 0) : weigh g u = 0 := by
  induction u with
  | nil => rfl
  | cons x u ih => rw [weigh_cons, hu x (by simp), ih fun y hy => hu y (by simp [hy])]; rfl

theorem weigh_regexp (h : Weights w g) {r : CRegexp} (hr : r.WF) : weigh g r.lv = g .REGEXP := by
  obtain ⟨p, _ | ⟨s, f⟩⟩ := r
  · have := hr.1
    simp only at this
    rw [CRegexp.lv_none, weigh_cons, this, weigh_nil]; omega
  · have h1 := hr.1
    have h2 := hr.2 s f rfl
    simp only at h1
    rw [CRegexp.lv_some, weigh_cons, weigh_cons, weigh_cons, h1, h2.1, h2.2, weigh_nil, h.zero .FWD_SLASH (by simp), h.zero .REGEXP_FLAGS (by simp)]; omega

theorem weigh_attr (h : Weights w g) {a : CAttr} (ha : a.WF) : weigh g a.toTree.leaves = 0 := by
  refine weigh_zero h fun x hx => ?_
  rcases CAttr.types ha x hx with hx | hx
  · rcases hx with hx | hx | hx | hx <;> rw [hx] <;> exact h.zero _ (by simp)
  · rw [hx]; exact h.zero _ (by simp)

theorem weigh_quant (h : Weights w g) {q : Option CQuant} (hq : optQuantWF q) : weigh g (quantLv q) = 0 := by
  refine weigh_zero h fun x hx => ?_
  rcases quant_types hq x hx with hx | hx | hx | hx | hx | hx | hx <;> rw [hx] <;> exact h.zero _ (by simp)

mutual
theorem CExpr.weighed (ag : Weights w g) : ∀ (e : CExpr) (n : Node), e.WF → e.Denotes rt cfg n → total w n.subnodes = weigh g e.lv
  | .basic a op r, n, h, hd => by
    obtain ⟨o, x, fl, h1, h2, rfl⟩ := hd
    rw [total_mk, CExpr.lv_basic, weigh_append, weigh_cons, weigh_attr ag h.1, weigh_regexp ag h.2.2, total_nil,
      show ([] : List Node).length = 0 from rfl, ag.basic _ _ _ _ _ op.type h.2.1]
    omega
  | .group lp e rp, n, h, hd => by
    obtain ⟨m, h1, rfl⟩ := hd
    have := CExpr.weighed ag e m h.2.1 h1
    rw [total_mk, CExpr.lv_group, weigh_cons, weigh_append, weigh_cons, weigh_nil, total_cons, total_nil, this, h.1, h.2.2,
      show [m].length = 1 from rfl, ag.group]
    omega
  | .not b e, n, h, hd => by
    obtain ⟨m, h1, rfl⟩ := hd
    have := CExpr.weighed ag e m h.2 h1
    rw [total_mk, CExpr.lv_not, weigh_cons, total_cons, total_nil, this, h.1, show [m].length = 1 from rfl, ag.not]
    omega
  | .or f t, n, h, hd => by
    obtain ⟨m, ms, h1, h2, rfl⟩ := hd
    have e1 := CExpr.weighed ag f m h.1 h1
    have e2 := CTail.weighed ag t ms .OR _ h.2.2.2 h2
    rw [show (CExpr.or f t).lv = f.lv ++ t.lv by simp [CExpr.lv, CExpr.toTree, PTree.leaves, PTree.leavesL, CTail.lv],
      total_mk, total_cons, weigh_append, e1, e2, List.length_cons, ag.or]
    omega
  | .and f t, n, h, hd => by
    obtain ⟨m, ms, h1, h2, rfl⟩ := hd
    have e1 := CExpr.weighed ag f m h.1 h1
    have e2 := CTail.weighed ag t ms .AND _ h.2.2.2.2 h2
    rw [show (CExpr.and f t).lv = f.lv ++ t.lv by simp [CExpr.lv, CExpr.toTree, PTree.leaves, PTree.leavesL, CTail.lv],
      total_mk, total_cons, weigh_append, e1, e2, List.length_cons, ag.and]
    omega
theorem CTail.weighed (ag : Weights w g) : ∀ (t : CTail) (ns : List Node) (op : TokType) (no : Rule), t.WF op no → t.Denotes rt cfg ns →
    weigh g t.lv = ns.length * g op + total w (Node.subnodesL ns)
  | .nil, ns, _, _, _, hd => by
    cases hd
    simp [CTail.lv, CTail.forest, PTree.leavesL, weigh, total_nil]
  | .cons o e t, ns, op, no, h, hd => by
    obtain ⟨m, ms, h1, h2, rfl⟩ := hd
    have e1 := CExpr.weighed ag e m h.2.1 h1
    have e2 := CTail.weighed ag t ms op no h.2.2.2 h2
    rw [show (CTail.cons o e t).lv = o :: (e.lv ++ t.lv) by simp [CExpr.lv, CTail.lv, CTail.forest, PTree.leaves, PTree.leavesL],
      weigh_cons, weigh_append, total_cons, e1, e2, h.1, List.length_cons]
    push_cast
    rw [Int.add_mul]
    omega
end

mutual
theorem CQ.weighed (ag : Weights w g) : ∀ (c : CQ) (n : Node), c.WF → c.Denotes rt cfg n → total w n.subnodes = weigh g c.lv
  | .implicit r q, n, h, hd => by
    obtain ⟨x, fl, mn, mx, h1, -, rfl⟩ := hd
    rw [lv_implicit, weigh_append, weigh_regexp ag h.1, weigh_quant ag h.2, total_mk, total_cons, total_nil, total_mk, total_nil]
    have := ag.implicit none cfg.defaultIdentifier cfg.defaultOperator x fl mn mx
    simp only [List.length_cons, List.length_nil, Nat.zero_add]
    omega
  | .segment lb e rb q, n, h, hd => by
    obtain ⟨h1, h2, h3, h4⟩ := h
    obtain ⟨m, mn, mx, g1, -, rfl⟩ := hd
    have he : total w m.subnodes = weigh g (exprLv e) := by
      cases e with
      | none =>
        obtain rfl : m = _ := g1
        rw [exprLv_none, total_mk, total_nil, weigh_nil, List.length_nil, ag.wildcard]; rfl
      | some e => rw [exprLv_some]; exact CExpr.weighed ag e m (h2 e rfl) g1
    rw [seg_lv, weigh_append, weigh_append, weigh_append, weigh_quant ag h4, total_mk, total_cons, total_nil, he, weigh_cons, weigh_cons, weigh_nil, h1, h3]
    have := ag.segment mn mx
    simp only [List.length_cons, List.length_nil, Nat.zero_add]
    omega
  | .group lp c rp q, n, h, hd => by
    obtain ⟨h1, h2, h3, h4, h5⟩ := h
    obtain ⟨m, mn, mx, g1, -, rfl⟩ := hd
    have := CQ.weighed ag c m h2 g1
    rw [grp_lv, weigh_append, weigh_cons, weigh_append, weigh_quant ag h5, total_mk, total_cons, total_nil, this, weigh_cons, weigh_nil, h1, h4]
    have := ag.qgroup mn mx
    simp only [List.length_cons, List.length_nil, Nat.zero_add]
    omega
  | .seq f t, n, h, hd => by
    obtain ⟨m, ms, h1, h2, rfl⟩ := hd
    have e1 := CQ.weighed ag f m h.1 h1
    have e2 := CQTail.weighed_seq ag t ms h.2.2 h2
    rw [CQ.lv_seq', weigh_append, total_mk, total_cons, e1, e2, ag.sequence]
    omega
  | .disj f t, n, h, hd => by
    obtain ⟨m, ms, h1, h2, rfl⟩ := hd
    have e1 := CQ.weighed ag f m h.1 h1
    have e2 := CQTail.weighed_disj ag t ms h.2.2.2 h2
    rw [CQ.lv_disj', weigh_append, total_mk, total_cons, e1, e2, List.length_cons, ag.disjunction]
    omega
theorem CQTail.weighed_seq (ag : Weights w g) : ∀ (t : CQTail) (ns : List Node), t.WFseq → t.Denotes rt cfg ns →
    weigh g (PTree.leavesL t.forest) = total w (Node.subnodesL ns)
  | .nil, ns, _, hd => by cases hd; rfl
  | .cons o c t, ns, h, hd => by
    obtain ⟨m, ms, h1, h2, rfl⟩ := hd
    obtain ⟨rfl, g2, g3, g4⟩ := h
    rw [qt_lv_cons, total_cons, CQ.weighed ag c m g2 h1, ← CQTail.weighed_seq ag t ms g4 h2, ← weigh_append]
    rfl
theorem CQTail.weighed_disj (ag : Weights w g) : ∀ (t : CQTail) (ns : List Node), t.WFdisj → t.Denotes rt cfg ns →
    weigh g (PTree.leavesL t.forest) = ns.length * g .OR + total w (Node.subnodesL ns)
  | .nil, ns, _, hd => by cases hd; simp [weigh, total_nil, CQTail.forest, PTree.leavesL]
  | .cons o c t, ns, h, hd => by
    obtain ⟨m, ms, h1, h2, rfl⟩ := hd
    obtain ⟨⟨x, rfl, hx⟩, g2, g3, g4⟩ := h
    rw [qt_lv_cons, total_cons, weigh_append, weigh_append, CQ.weighed ag c m g2 h1, CQTail.weighed_disj ag t ms g4 h2, weigh_cons, weigh_nil, hx,
      List.length_cons]
    push_cast
    rw [Int.add_mul]
    omega
end

theorem CQuery.weighed (ag : Weights w g) {q : CQuery} {n : Node} (h : q.WF) (hd : q.Denotes rt cfg n) :
    total w n.subnodes = weigh g q.toTree.leaves := by
  have hz : weigh g (withinLv q.within ++ [q.eof]) = 0 := by
    obtain ⟨m, w', e⟩ := q
    obtain ⟨-, h2, h3⟩ := h
    simp only at h3
    rcases w' with _ | ⟨w', s⟩
    · simp [withinLv, weigh, h3, ag.zero .EOF (by simp)]
    · have := h2 w' s rfl
      simp [withinLv, weigh, h3, this.1, this.2, ag.zero .EOF (by simp), ag.zero .WITHIN (by simp), ag.zero .SIMPLE_WITHIN_SCOPE (by simp)]
  rw [lv_query, weigh_append, hz]
  obtain ⟨c, w', e⟩ := q
  rcases w' with _ | ⟨w', s⟩
  · rw [CQ.weighed ag c n h.1 hd]; exact (Int.add_zero _).symm
  · obtain ⟨m, sc, h1, -, rfl⟩ := hd
    rw [total_mk, total_cons, total_cons, total_nil, total_mk, total_nil, CQ.weighed ag c m h.1 h1,
      show [m, Node.mk (.within sc) [] (cfg.span [s])].length = 2 from rfl, ag.withWithin, List.length_nil, ag.within]
    show _ = weigh g c.lv + 0
    omega
end

/-! ### Sizes -/

section
variable {rt : PyRuntime} {cfg : Config}

theorem subnodes_length (k : Kind) (cs : List Node) (l : Option Loc) : (Node.mk k cs l).subnodes.length = 1 + (Node.subnodesL cs).length := by
  simp [Node.subnodes]; omega
theorem subnodesL_cons_length (n : Node) (ns : List Node) : (Node.subnodesL (n :: ns)).length = n.subnodes.length + (Node.subnodesL ns).length := by
  simp [Node.subnodesL]

theorem CTail.ne_nil_cons {t : CTail} (h : t ≠ .nil) : ∃ o e t', t = .cons o e t' := by
  cases t with
  | nil => exact absurd rfl h
  | cons o e t' => exact ⟨o, e, t', rfl⟩

theorem CRegexp.lv_pos (r : CRegexp) : 1 ≤ r.lv.length := by
  obtain ⟨p, _ | ⟨s, f⟩⟩ := r
  · rw [CRegexp.lv_none]; simp
  · rw [CRegexp.lv_some]; simp

mutual
theorem CExpr.small : ∀ (e : CExpr) (n : Node), e.WF → e.Denotes rt cfg n → n.subnodes.length + 1 ≤ e.lv.length
  | .basic a op r, n, h, hd => by
    obtain ⟨o, x, fl, h1, h2, rfl⟩ := hd
    have := r.lv_pos
    rw [subnodes_length, CExpr.lv_basic]
    simp only [Node.subnodesL, List.length_nil, List.length_append, List.length_cons]
    omega
  | .group lp e rp, n, h, hd => by
    obtain ⟨m, h1, rfl⟩ := hd
    have := CExpr.small e m h.2.1 h1
    rw [subnodes_length, subnodesL_cons_length, CExpr.lv_group]
    simp only [Node.subnodesL, List.length_nil, List.length_append, List.length_cons]
    omega
  | .not b e, n, h, hd => by
    obtain ⟨m, h1, rfl⟩ := hd
    have := CExpr.small e m h.2 h1
    rw [subnodes_length, subnodesL_cons_length, CExpr.lv_not]
    simp only [Node.subnodesL, List.length_nil, List.length_append, List.length_cons]
    omega
  | .or f t, n, h, hd => by
    obtain ⟨m, ms, h1, h2, rfl⟩ := hd
    have e1 := CExpr.small f m h.1 h1
    have e2 := CTail.small t ms _ _ h.2.2.2 h2
    obtain ⟨o, e, t', rfl⟩ := CTail.ne_nil_cons h.2.2.1
    obtain ⟨m', ms', -, -, rfl⟩ := h2
    rw [show (CExpr.or f (.cons o e t')).lv = f.lv ++ (CTail.cons o e t').lv by simp [CExpr.lv, CExpr.toTree, PTree.leaves, PTree.leavesL, CTail.lv],
      subnodes_length, subnodesL_cons_length, List.length_append]
    simp only [List.length_cons] at e2
    omega
  | .and f t, n, h, hd => by
    obtain ⟨m, ms, h1, h2, rfl⟩ := hd
    have e1 := CExpr.small f m h.1 h1
    have e2 := CTail.small t ms _ _ h.2.2.2.2 h2
    obtain ⟨o, e, t', rfl⟩ := CTail.ne_nil_cons h.2.2.2.1
    obtain ⟨m', ms', -, -, rfl⟩ := h2
    rw [show (CExpr.and f (.cons o e t')).lv = f.lv ++ (CTail.cons o e t').lv by simp [CExpr.lv, CExpr.toTree, PTree.leaves, PTree.leavesL, CTail.lv],
      subnodes_length, subnodesL_cons_length, List.length_append]
    simp only [List.length_cons] at e2
    omega
theorem CTail.small : ∀ (t : CTail) (ns : List Node) (op : TokType) (no : Rule), t.WF op no → t.Denotes rt cfg ns →
    (Node.subnodesL ns).length + ns.length ≤ t.lv.length
  | .nil, ns, _, _, _, hd => by cases hd; simp [Node.subnodesL]
  | .cons o e t, ns, op, no, h, hd => by
    obtain ⟨m, ms, h1, h2, rfl⟩ := hd
    have e1 := CExpr.small e m h.2.1 h1
    have e2 := CTail.small t ms op no h.2.2.2 h2
    rw [show (CTail.cons o e t).lv = o :: (e.lv ++ t.lv) by simp [CExpr.lv, CTail.lv, CTail.forest, PTree.leaves, PTree.leavesL],
      subnodesL_cons_length, List.length_cons, List.length_cons, List.length_append]
    omega
end

/-- One more for sequences and disjunctions. -/
def CQ.extra : CQ → Nat
  | .seq .. => 1
  | .disj .. => 1
  | _ => 0

theorem CQ.extra_le (c : CQ) : c.extra ≤ 1 := by cases c <;> simp [CQ.extra]
theorem CQ.extra_item {c : CQ} (h : c.rule = .query_simple ∨ c.rule = .query_group) : c.extra = 0 := by
  cases c <;> simp [CQ.extra, CQ.rule] at h ⊢

mutual
theorem CQ.small : ∀ (c : CQ) (n : Node), c.WF → c.Denotes rt cfg n → n.subnodes.length ≤ 2 * c.lv.length + c.extra
  | .implicit r q, n, h, hd => by
    obtain ⟨x, fl, mn, mx, h1, -, rfl⟩ := hd
    have := r.lv_pos
    rw [lv_implicit, subnodes_length, subnodesL_cons_length, subnodes_length, List.length_append]
    simp only [Node.subnodesL, List.length_nil]
    omega
  | .segment lb e rb q, n, h, hd => by
    obtain ⟨h1, h2, h3, h4⟩ := h
    obtain ⟨m, mn, mx, g1, -, rfl⟩ := hd
    have he : m.subnodes.length ≤ (exprLv e).length + 1 := by
      cases e with
      | none =>
        obtain rfl : m = _ := g1
        simp [Node.subnodes, Node.subnodesL]
      | some e =>
        have := CExpr.small e m (h2 e rfl) g1
        rw [exprLv_some]; omega
    rw [seg_lv, subnodes_length, subnodesL_cons_length]
    simp only [Node.subnodesL, List.length_nil, List.length_append, List.length_cons]
    omega
  | .group lp c rp q, n, h, hd => by
    obtain ⟨h1, h2, h3, h4, h5⟩ := h
    obtain ⟨m, mn, mx, g1, -, rfl⟩ := hd
    have := CQ.small c m h2 g1
    have := c.extra_le
    rw [grp_lv, subnodes_length, subnodesL_cons_length]
    simp only [Node.subnodesL, List.length_nil, List.length_append, List.length_cons]
    omega
  | .seq f t, n, h, hd => by
    obtain ⟨m, ms, h1, h2, rfl⟩ := hd
    have e1 := CQ.small f m h.1 h1
    rw [CQ.extra_item h.2.1] at e1
    have e2 := CQTail.small_seq t ms h.2.2 h2
    rw [CQ.lv_seq', List.length_append, subnodes_length, subnodesL_cons_length]
    simp only [CQ.extra]
    omega
  | .disj f t, n, h, hd => by
    obtain ⟨m, ms, h1, h2, rfl⟩ := hd
    have e1 := CQ.small f m h.1 h1
    have e2 := CQTail.small_disj t ms h.2.2.2 h2
    have := f.extra_le
    cases t with
    | nil => exact absurd rfl h.2.2.1
    | cons o c t =>
      obtain ⟨m', ms', -, -, rfl⟩ := h2
      rw [CQ.lv_disj', List.length_append, subnodes_length, subnodesL_cons_length]
      simp only [CQ.extra, List.length_cons] at e2 ⊢
      omega
theorem CQTail.small_seq : ∀ (t : CQTail) (ns : List Node), t.WFseq → t.Denotes rt cfg ns →
    (Node.subnodesL ns).length ≤ 2 * (PTree.leavesL t.forest).length
  | .nil, ns, _, hd => by cases hd; simp [Node.subnodesL]
  | .cons o c t, ns, h, hd => by
    obtain ⟨m, ms, h1, h2, rfl⟩ := hd
    obtain ⟨rfl, g2, g3, g4⟩ := h
    have e1 := CQ.small c m g2 h1
    rw [CQ.extra_item g3] at e1
    have e2 := CQTail.small_seq t ms g4 h2
    rw [qt_lv_cons, subnodesL_cons_length]
    simp only [List.length_append, List.length_nil]
    omega
theorem CQTail.small_disj : ∀ (t : CQTail) (ns : List Node), t.WFdisj → t.Denotes rt cfg ns →
    (Node.subnodesL ns).length + ns.length ≤ 2 * (PTree.leavesL t.forest).length
  | .nil, ns, _, hd => by cases hd; simp [Node.subnodesL]
  | .cons o c t, ns, h, hd => by
    obtain ⟨m, ms, h1, h2, rfl⟩ := hd
    obtain ⟨⟨x, rfl, hx⟩, g2, g3, g4⟩ := h
    have e1 := CQ.small c m g2 h1
    have := c.extra_le
    have e2 := CQTail.small_disj t ms g4 h2
    rw [qt_lv_cons, subnodesL_cons_length]
    simp only [List.length_append, List.length_nil, List.length_cons]
    omega
end

theorem CQuery.small {q : CQuery} {n : Node} (h : q.WF) (hd : q.Denotes rt cfg n) : n.subnodes.length + 1 ≤ 2 * q.toTree.leaves.length := by
  rw [lv_query]
  obtain ⟨c, w', e⟩ := q
  have := c.extra_le
  rcases w' with _ | ⟨w', s⟩
  · have := CQ.small c n h.1 hd
    simp only [withinLv, List.length_append, List.length_nil, List.length_cons]
    omega
  · obtain ⟨m, sc, h1, -, rfl⟩ := hd
    have := CQ.small c m h.1 h1
    rw [subnodes_length, subnodesL_cons_length, subnodesL_cons_length, subnodes_length]
    simp only [withinLv, Node.subnodesL, List.length_append, List.length_nil, List.length_cons]
    omega
end

/-! ### Contexts -/

theorem execCalls_ok {P : Predictor} {prog : Rule → List Stmt} : ∀ (n : Nat) (ctx : List Nat) (ss : List Stmt) (ts : List Tok) (f : List PTree) (vs : List Tok),
    exec P prog n ctx ss ts = .ok f vs → execCalls P prog n ctx ss ts = PTree.contextsL f
  | 0, ctx, ss, ts, f, vs, h => by simp [exec] at h
  | n + 1, ctx, [], ts, f, vs, h => by
    simp only [exec, Res.ok.injEq] at h
    obtain ⟨rfl, rfl⟩ := h
    simp [execCalls, PTree.contextsL]
  | n + 1, ctx, s :: ss, ts, f, vs, h => by
    cases s with
    | sync st =>
      simp only [exec] at h
      simp only [execCalls]
      split at h
      · next hs => rw [if_pos hs]; exact execCalls_ok n ctx ss ts f vs h
      · simp at h
    | matchTok st k =>
      cases ts with
      | nil => simp [exec] at h
      | cons x xs =>
        simp only [exec] at h
        simp only [execCalls]
        split at h
        · next hs =>
          obtain ⟨g, h1, rfl⟩ := Res.prepend_ok_inv h
          rw [if_pos hs, execCalls_ok n ctx ss xs g vs h1]
          simp [PTree.contextsL, PTree.contexts]
        · simp at h
    | matchSet st k =>
      cases ts with
      | nil => simp [exec] at h
      | cons x xs =>
        simp only [exec] at h
        simp only [execCalls]
        split at h
        · next hs =>
          obtain ⟨g, h1, rfl⟩ := Res.prepend_ok_inv h
          rw [if_pos hs, execCalls_ok n ctx ss xs g vs h1]
          simp [PTree.contextsL, PTree.contexts]
        · simp at h
    | call st r =>
      simp only [exec] at h
      simp only [execCalls]
      cases hc : exec P prog n (st :: ctx) (prog r) ts with
      | ok f1 ts' =>
        rw [hc] at h
        obtain ⟨g, h1, rfl⟩ := Res.prepend_ok_inv h
        simp only
        rw [execCalls_ok n _ _ _ f1 ts' hc, execCalls_ok n _ _ _ g vs h1]
        simp only [List.length_cons, List.cons_append, List.nil_append, PTree.contextsL, PTree.contexts]
      | error => rw [hc] at h; simp at h
      | timeout => rw [hc] at h; simp at h
    | predict d bs =>
      simp only [exec] at h
      simp only [execCalls]
      split at h
      · simp at h
      · next hp => rw [hp]; exact execCalls_ok n ctx _ ts f vs h
    | switchLA cs =>
      simp only [exec] at h
      simp only [execCalls]
      split at h
      · simp at h
      · next hp => rw [hp]; exact execCalls_ok n ctx _ ts f vs h
    | ifLA t b => simp only [exec] at h; simp only [execCalls]; exact execCalls_ok n ctx _ ts f vs h
    | whileLA b st t => simp only [exec] at h; simp only [execCalls]; exact execCalls_ok n ctx _ ts f vs h
    | whilePredict b st d => simp only [exec] at h; simp only [execCalls]; exact execCalls_ok n ctx _ ts f vs h
    | loopPredict b st d =>
      simp only [exec] at h
      simp only [execCalls]
      split at h
      · simp at h
      · next hp =>
        rw [hp]
        simp only
        split at h
        · next hs => rw [if_pos hs]; exact execCalls_ok n ctx _ ts f vs h
        · next hs =>
          rw [if_neg hs]
          split at h
          · next hs2 => rw [if_pos hs2]; exact execCalls_ok n ctx _ ts f vs h
          · simp at h


theorem contextsL_append (a b : List PTree) : PTree.contextsL (a ++ b) = PTree.contextsL a + PTree.contextsL b := by
  induction a with
  | nil => simp [PTree.contextsL]
  | cons x a ih => simp only [List.cons_append, PTree.contextsL, ih]; omega

theorem contextsL_leaves {f : List PTree} (h : ∀ t ∈ f, ∃ x, t = .leaf x) : PTree.contextsL f = 0 := by
  induction f with
  | nil => rfl
  | cons c f ih =>
    obtain ⟨x, rfl⟩ := h c (by simp)
    simp [PTree.contextsL, PTree.contexts, ih fun t ht => h t (by simp [ht])]

theorem quant_forest_leaves (q : CQuant) : ∀ t ∈ q.forest, ∃ x, t = .leaf x := by
  rcases q with t | ⟨a, b, c⟩ | ⟨a, n, b, m, c⟩
  · simp [CQuant.forest]
  · simp [CQuant.forest]
  · cases n <;> cases m <;> simp [CQuant.forest, optLeaf]

theorem optQuant_contexts (q : Option CQuant) : PTree.contextsL (optQuant q) ≤ (quantLv q).length := by
  cases q with
  | none => simp [optQuant, PTree.contextsL]
  | some q =>
    have h1 : PTree.contextsL (optQuant (some q)) = 1 := by
      simp [optQuant, PTree.contextsL, PTree.contexts, contextsL_leaves (quant_forest_leaves q)]
    have h2 : 1 ≤ (quantLv (some q)).length := by
      rcases q with t | ⟨a, b, c⟩ | ⟨a, n, b, m, c⟩
      · simp [quantLv, optQuant, PTree.leavesL, PTree.leaves, CQuant.forest]
      · simp [quantLv, optQuant, PTree.leavesL, PTree.leaves, CQuant.forest]
      · simp [quantLv, optQuant, PTree.leavesL, PTree.leaves, CQuant.forest]
    omega

theorem CRegexp.contexts (r : CRegexp) : r.toTree.contexts ≤ r.lv.length + 1 := by
  obtain ⟨p, _ | ⟨s, f⟩⟩ := r
  · rw [CRegexp.lv_none]; simp [CRegexp.toTree, PTree.contexts, PTree.contextsL]
  · rw [CRegexp.lv_some]; simp [CRegexp.toTree, PTree.contexts, PTree.contextsL]

theorem CAttr.contexts (a : CAttr) : a.toTree.contexts ≤ a.toTree.leaves.length + 1 := by
  obtain ⟨_ | ⟨q, c⟩, i⟩ := a
  · rw [CAttr.lv_none]; simp [CAttr.toTree, PTree.contexts, PTree.contextsL]
  · rw [CAttr.lv_some]; simp [CAttr.toTree, PTree.contexts, PTree.contextsL]

theorem CAttr.lv_pos (a : CAttr) : 1 ≤ a.toTree.leaves.length := by
  obtain ⟨_ | ⟨q, c⟩, i⟩ := a
  · rw [CAttr.lv_none]; simp
  · rw [CAttr.lv_some]; simp

mutual
theorem CExpr.few : ∀ e : CExpr, e.WF → e.toTree.contexts ≤ 2 * e.lv.length
  | .basic a op r, _ => by
    have := r.lv_pos
    have := a.lv_pos
    have := r.contexts
    have := a.contexts
    rw [CExpr.lv_basic]
    simp only [CExpr.toTree, PTree.contexts, PTree.contextsL, List.length_append, List.length_cons]
    omega
  | .group lp e rp, h => by
    have := CExpr.few e h.2.1
    rw [CExpr.lv_group]
    simp only [CExpr.toTree, PTree.contexts, PTree.contextsL, List.length_append, List.length_cons]
    omega
  | .not b e, h => by
    have := CExpr.few e h.2
    rw [CExpr.lv_not]
    simp only [CExpr.toTree, PTree.contexts, PTree.contextsL, List.length_append, List.length_cons]
    omega
  | .or f t, h => by
    have e1 := CExpr.few f h.1
    have e2 := CTail.few t _ _ h.2.2.2 h.2.2.1
    rw [show (CExpr.or f t).lv = f.lv ++ t.lv by simp [CExpr.lv, CExpr.toTree, PTree.leaves, PTree.leavesL, CTail.lv]]
    simp only [CExpr.toTree, PTree.contexts, PTree.contextsL, List.length_append]
    omega
  | .and f t, h => by
    have e1 := CExpr.few f h.1
    have e2 := CTail.few t _ _ h.2.2.2.2 h.2.2.2.1
    rw [show (CExpr.and f t).lv = f.lv ++ t.lv by simp [CExpr.lv, CExpr.toTree, PTree.leaves, PTree.leavesL, CTail.lv]]
    simp only [CExpr.toTree, PTree.contexts, PTree.contextsL, List.length_append]
    omega
theorem CTail.few : ∀ (t : CTail) (op : TokType) (no : Rule), t.WF op no → t ≠ .nil → PTree.contextsL t.forest + 1 ≤ 2 * t.lv.length
  | .nil, _, _, _, hn => absurd rfl hn
  | .cons o e t, op, no, h, _ => by
    have e1 := CExpr.few e h.2.1
    rw [show (CTail.cons o e t).lv = o :: (e.lv ++ t.lv) by simp [CExpr.lv, CTail.lv, CTail.forest, PTree.leaves, PTree.leavesL]]
    simp only [CTail.forest, PTree.contextsL, PTree.contexts, List.length_cons, List.length_append]
    cases t with
    | nil => simp only [CTail.forest, PTree.contextsL]; omega
    | cons o' e' t' =>
      have e2 := CTail.few (.cons o' e' t') op no h.2.2.2 (by simp)
      omega
end

mutual
theorem CQ.few : ∀ c : CQ, c.WF → c.toTree.contexts ≤ 4 * c.lv.length + c.extra
  | .implicit r q, _ => by
    have := r.lv_pos
    have := r.contexts
    have := optQuant_contexts q
    rw [lv_implicit]
    simp only [CQ.toTree, PTree.contexts, PTree.contextsL, List.length_append]
    omega
  | .segment lb e rb q, h => by
    obtain ⟨h1, h2, h3, h4⟩ := h
    have := optQuant_contexts q
    have he : PTree.contextsL (optExpr e) ≤ 2 * (exprLv e).length + 1 := by
      cases e with
      | none => simp [optExpr, PTree.contextsL]
      | some e =>
        have := CExpr.few e (h2 e rfl)
        rw [exprLv_some]
        simp only [optExpr, PTree.contextsL, PTree.contexts]
        omega
    rw [seg_lv]
    simp only [CQ.toTree, PTree.contexts, PTree.contextsL, contextsL_append, List.length_append, List.length_cons, List.length_nil]
    omega
  | .group lp c rp q, h => by
    obtain ⟨h1, h2, h3, h4, h5⟩ := h
    have := CQ.few c h2
    have := c.extra_le
    have := optQuant_contexts q
    rw [grp_lv]
    simp only [CQ.toTree, PTree.contexts, PTree.contextsL, List.length_append, List.length_cons, List.length_nil]
    omega
  | .seq f t, h => by
    have e1 := CQ.few f h.1
    rw [CQ.extra_item h.2.1] at e1
    have e2 := CQTail.few_seq t h.2.2
    rw [CQ.lv_seq', List.length_append]
    simp only [CQ.toTree, PTree.contexts, PTree.contextsL, CQ.extra]
    omega
  | .disj f t, h => by
    have e1 := CQ.few f h.1
    have e2 := CQTail.few_disj t h.2.2.2 h.2.2.1
    have := f.extra_le
    rw [CQ.lv_disj', List.length_append]
    simp only [CQ.toTree, PTree.contexts, PTree.contextsL, CQ.extra]
    omega
theorem CQTail.few_seq : ∀ t : CQTail, t.WFseq → PTree.contextsL t.forest ≤ 4 * (PTree.leavesL t.forest).length
  | .nil, _ => by simp [CQTail.forest, PTree.contextsL]
  | .cons o c t, h => by
    obtain ⟨rfl, g2, g3, g4⟩ := h
    have e1 := CQ.few c g2
    rw [CQ.extra_item g3] at e1
    have e2 := CQTail.few_seq t g4
    rw [qt_lv_cons]
    simp only [CQTail.forest, optLeaf, List.nil_append, PTree.contextsL, List.length_append, List.length_nil]
    omega
theorem CQTail.few_disj : ∀ t : CQTail, t.WFdisj → t ≠ .nil → PTree.contextsL t.forest + 1 ≤ 4 * (PTree.leavesL t.forest).length
  | .nil, _, hn => absurd rfl hn
  | .cons o c t, h, _ => by
    obtain ⟨⟨x, rfl, hx⟩, g2, g3, g4⟩ := h
    have e1 := CQ.few c g2
    have := c.extra_le
    rw [qt_lv_cons]
    simp only [CQTail.forest, optLeaf, List.cons_append, List.nil_append, PTree.contextsL, PTree.contexts, List.length_append, List.length_cons, List.length_nil]
    cases t with
    | nil => simp only [CQTail.forest, PTree.contextsL]; omega
    | cons o' e' t' =>
      have e2 := CQTail.few_disj (.cons o' e' t') g4 (by simp)
      omega
end

theorem CQuery.few {q : CQuery} (h : q.WF) : q.toTree.contexts + 1 ≤ 4 * q.toTree.leaves.length := by
  rw [lv_query]
  obtain ⟨c, w', e⟩ := q
  have h1 := c.extra_le
  have h2 := CQ.few c h.1
  rcases w' with _ | ⟨w', s⟩
  · simp only [CQuery.toTree, optWithin, PTree.contexts, PTree.contextsL, withinLv, List.nil_append, List.length_append, List.length_nil, List.length_cons]
    omega
  · simp only [CQuery.toTree, optWithin, PTree.contexts, PTree.contextsL, withinLv, List.cons_append, List.nil_append, List.length_append, List.length_nil, List.length_cons]
    omega

end Fcsql
