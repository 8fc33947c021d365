/-
Which derivation of `|`-separated chunks of `&`-separated, possibly negated atoms is the chosen one.
-/
import Verif.Proofs.Least
import Verif.Proofs.Join
import Verif.Spec.Precedence

set_option autoImplicit false
set_option linter.unusedSimpArgs false

namespace Fcsql

/-! ### Tokens outside brackets -/

/-- A token of the type outside brackets. -/
def Top (t : TokType) (u : List Tok) : Prop := ∃ p x s, u = p ++ x :: s ∧ depth p = 0 ∧ x.type = t

theorem Tight.not_top {stop : TokType → Prop} {u : List Tok} {t : TokType} (h : Tight stop u) (ht : stop t) : ¬ Top t u := by
  rintro ⟨p, x, s, e, hp, rfl⟩
  exact h.free p x s e hp ht

theorem Top.appendL {t : TokType} {u v : List Tok} (h : Top t u) : Top t (u ++ v) := by
  obtain ⟨p, x, s, rfl, hp, hx⟩ := h
  exact ⟨p, x, s ++ v, by simp, hp, hx⟩

theorem Top.appendR {t : TokType} {u v : List Tok} (hu : depth u = 0) (h : Top t v) : Top t (u ++ v) := by
  obtain ⟨p, x, s, rfl, hp, hx⟩ := h
  exact ⟨u ++ p, x, s, by simp, by rw [depth_append, hu, hp]; rfl, hx⟩

theorem top_append {t : TokType} {u v : List Tok} (hu : depth u = 0) (h : Top t (u ++ v)) : Top t u ∨ Top t v := by
  obtain ⟨p, x, s, e, hp, hx⟩ := h
  rcases List.append_eq_append_iff.1 e with ⟨z, rfl, h2⟩ | ⟨z, h1, h2⟩
  · rw [depth_append, hu, Int.zero_add] at hp
    exact .inr ⟨z, x, s, h2, hp, hx⟩
  · cases z with
    | nil => exact .inr ⟨[], x, s, by simpa using h2.symm, rfl, hx⟩
    | cons y z =>
      simp only [List.cons_append, List.cons.injEq] at h2
      obtain ⟨rfl, rfl⟩ := h2
      exact .inl ⟨p, x, z, h1, hp, hx⟩

theorem Top.here {t : TokType} {x : Tok} {v : List Tok} (h : x.type = t) : Top t (x :: v) := ⟨[], x, v, rfl, rfl, h⟩

/-- The first token of the type, and what comes after. -/
theorem top_split {t : TokType} {p s A B : List Tok} {o q : Tok} (e : p ++ o :: s = A ++ q :: B) (hp : depth p = 0)
    (ho : o.type = t) (hn : ¬ Top t A) : (p = A ∧ o = q ∧ s = B) ∨ ∃ z, p = A ++ q :: z ∧ B = z ++ o :: s := by
  rcases List.append_eq_append_iff.1 e with ⟨z, h1, h2⟩ | ⟨z, h1, h2⟩
  · cases z with
    | nil =>
      simp only [List.nil_append, List.cons.injEq] at h2
      exact .inl ⟨by simpa using h1.symm, h2.1, h2.2⟩
    | cons y z =>
      simp only [List.cons_append, List.cons.injEq] at h2
      obtain ⟨rfl, rfl⟩ := h2
      exact absurd ⟨p, o, z, h1, hp, ho⟩ hn
  · cases z with
    | nil =>
      simp only [List.nil_append, List.cons.injEq] at h2
      exact .inl ⟨by simpa using h1, h2.1.symm, h2.2.symm⟩
    | cons y z =>
      simp only [List.cons_append, List.cons.injEq] at h2
      obtain ⟨rfl, rfl⟩ := h2
      exact .inr ⟨z, h1, rfl⟩

def stopAO (t : TokType) : Prop := t = .AND ∨ t = .OR

theorem CAttr.types {a : CAttr} (h : a.WF) : ∀ t ∈ a.toTree.leaves, isNameTok t ∨ t.type = .COLON := by
  rcases a with ⟨_ | ⟨q, c⟩, i⟩
  · rw [CAttr.lv_none]
    simp only [List.mem_singleton]
    rintro t rfl
    exact .inl h.1
  · obtain ⟨h1, h2⟩ := h
    obtain ⟨h2, h3⟩ := h2 q c rfl
    rw [CAttr.lv_some]
    simp only [List.mem_cons, List.not_mem_nil, or_false]
    rintro t (rfl | rfl | rfl)
    · exact .inl h2
    · exact .inr h3
    · exact .inl h1

/-- Comparisons and parenthesised expressions have no operator outside parentheses. -/
theorem tight_small {e : CExpr} (h : e.WF) (hr : e.rule = .expression_basic ∨ e.rule = .expression_group) : Tight stopAO e.lv := by
  cases e with
  | basic a op r =>
    obtain ⟨h1, h2, h3⟩ := h
    rw [CExpr.lv_basic]
    refine .plain fun t ht => ?_
    simp only [List.mem_append, List.mem_cons] at ht
    rcases ht with ht | rfl | ht
    · rcases CAttr.types h1 t ht with ht | ht
      · refine ⟨isNameTok.isPlain ht, ?_⟩
        rcases ht with ht | ht | ht | ht <;> simp [ht, stopAO]
      · simp [ht, plainTy, stopAO]
    · rcases h2 with h2 | h2 <;> simp [h2, plainTy, stopAO]
    · rcases CRegexp.types h3 t ht with ht | ht | ht <;> simp [ht, plainTy, stopAO]
  | group lp e rp =>
    obtain ⟨h1, h2, h3⟩ := h
    rw [CExpr.lv_group]
    exact .wrap (by simp [delta, h1]) (by simp [delta, h3]) (by simp [stopAO, h1]) (e.tight h2)
  | _ => simp [CExpr.rule] at hr

theorem CTail.top {t : CTail} {op : TokType} {no : Rule} (h : t.WF op no) (hn : t ≠ .nil) : Top op (PTree.leavesL t.forest) := by
  cases t with
  | nil => exact absurd rfl hn
  | cons o e rest =>
    simp only [CTail.forest, PTree.leavesL, PTree.leaves, List.cons_append, List.nil_append]
    exact .here h.1

theorem top_or {e : CExpr} (h : e.WF) (hr : e.rule = .expression_or) : Top .OR e.lv := by
  cases e with
  | or f rest =>
    obtain ⟨h1, -, h3, h4⟩ := h
    have : (CExpr.or f rest).lv = f.lv ++ PTree.leavesL rest.forest := by simp [CExpr.lv, CExpr.toTree, PTree.leaves, PTree.leavesL]
    rw [this]
    exact .appendR (f.tight h1).total (CTail.top h4 h3)
  | _ => simp [CExpr.rule] at hr

theorem top_and {e : CExpr} (h : e.WF) (hr : e.rule = .expression_and) : Top .AND e.lv := by
  cases e with
  | and f rest =>
    obtain ⟨h1, -, -, h3, h4⟩ := h
    have : (CExpr.and f rest).lv = f.lv ++ PTree.leavesL rest.forest := by simp [CExpr.lv, CExpr.toTree, PTree.leaves, PTree.leavesL]
    rw [this]
    exact .appendR (f.tight h1).total (CTail.top h4 h3)
  | _ => simp [CExpr.rule] at hr

/-! ### Atoms -/

structure Atom (e : CExpr) : Prop where
  wf : e.WF
  best : e.Best
  small : e.rule = .expression_basic ∨ e.rule = .expression_group

theorem D_rule_tree {r r' : Rule} {u : List Tok} {ks : List PTree} {c : List Bool} (h : D (.rule r) u [.node r' ks] c) : r' = r := by
  obtain ⟨f, -, e⟩ := D_rule.1 h
  simp only [List.cons.injEq, PTree.node.injEq, and_true] at e
  exact e.1

theorem best_inner {lp rp : Tok} {e : CExpr} (h : (CExpr.group lp e rp).Best) : e.Best := by
  obtain ⟨d, hd⟩ := h
  obtain ⟨ks, e1, hd⟩ := hd.rule_inv
  simp only [List.cons.injEq, PTree.node.injEq, true_and, and_true] at e1
  subst e1
  rcases Chosen.alt_inv hd with ⟨d, rfl, hd2⟩ | ⟨d, rfl, hd2, -⟩
  · have := D_rule_tree (r' := .expression_group) hd2.derives; simp at this
  rcases Chosen.alt_inv hd2 with ⟨d, rfl, hd3⟩ | ⟨d, rfl, hd3, -⟩
  · obtain ⟨ks, e1, hd4⟩ := hd3.rule_inv
    simp only [List.cons.injEq, CExpr.toTree, PTree.node.injEq, true_and, and_true] at e1
    subst e1
    obtain ⟨ta, tb, fa, fb, ca, cb, ets, efs, -, ha, hb⟩ := hd4.seq_inv
    obtain ⟨x, hx, rfl, rfl⟩ := ha.tok_inv
    obtain ⟨tc, td, fc, fd, cc, cd, rfl, rfl, -, hc, hd5⟩ := Chosen.seq_inv hb
    obtain ⟨y, hy, rfl, rfl⟩ := Chosen.tok_inv (t := .R_PAREN) hd5
    simp only [List.cons_append, List.nil_append, List.cons.injEq] at efs
    obtain ⟨-, efs⟩ := efs
    obtain ⟨efs, -⟩ := List.append_inj' (s₁ := [e.toTree]) (t₁ := [.leaf rp]) efs rfl
    subst efs
    have hl : tc = e.lv := by
      have := leavesL_of_D hc.derives
      simpa [PTree.leavesL] using this.symm
    subst hl
    refine ⟨cc, .rule hc.derives, ?_⟩
    intro f' c' h'
    obtain ⟨g, hg, rfl⟩ := D_rule.1 h'
    rcases hc.first _ _ hg with ⟨rfl, rfl⟩ | hb
    · exact .inl ⟨rfl, rfl⟩
    · exact .inr hb
  · rcases D_alt.1 hd3.derives with ⟨c, -, hd4⟩ | ⟨c, -, hd4⟩
    · have := D_rule_tree (r' := .expression_group) hd4; simp at this
    rcases D_alt.1 hd4 with ⟨c, -, hd5⟩ | ⟨c, -, hd5⟩
    · have := D_rule_tree (r' := .expression_group) hd5; simp at this
    · have := D_rule_tree (r' := .expression_group) hd5; simp at this

theorem not_name_of {x : Tok} {t : TokType} (h : x.type = t) (ht : t = .L_PAREN ∨ t = .NOT) : ¬ isNameTok x := by
  rintro (h' | h' | h' | h') <;> rw [h] at h' <;> subst h' <;> simp at ht

theorem head_append {t : Tok} {ts u v : List Tok} (h : u = t :: ts) {P : Tok → Prop} (hp : P t) :
    ∀ x, (u ++ v).head? = some x → P x := by
  subst h
  simp only [List.cons_append, List.head?_cons, Option.some.injEq]
  rintro x rfl
  exact hp

theorem least_atom {e : CExpr} (h : Atom e) {X : G} {v : List Tok} {K : List Tok → Prop}
    (hv : ∀ x, v.head? = some x → x.type ≠ .FWD_SLASH) :
    Least (.alt (.rule .expression_basic) (.alt (.rule .expression_group) X)) e.lv v K [e.toTree] := by
  obtain ⟨h1, h2, h3⟩ := h
  cases e with
  | basic a op r => exact least_altL (least_basic h1 hv)
  | group lp e rp =>
    refine least_altR (dead_basic ?_) (least_altL (least_group h1 (best_inner h2)))
    rw [CExpr.lv_group]
    exact head_append rfl (P := fun x => ¬ isNameTok x) (not_name_of h1.1 (.inl rfl))
  | _ => simp [CExpr.rule] at h3

/-! ### Units: negated atoms -/

def notTok : Tok := Tok.ofWhat (.NOT, py!"!")
def andTok : Tok := Tok.ofWhat (.AND, py!"&")
def orTok : Tok := Tok.ofWhat (.OR, py!"|")

/-- Number of `!`, atom. -/
abbrev CUnit := Nat × CExpr

def notsE : Nat → CExpr → CExpr
  | 0, e => e
  | k + 1, e => .not notTok (notsE k e)

def unitE (u : CUnit) : CExpr := notsE u.1 u.2

def unitLv (u : CUnit) : List Tok := List.replicate u.1 notTok ++ u.2.lv

theorem notsE_lv (k : Nat) (e : CExpr) : (notsE k e).lv = List.replicate k notTok ++ e.lv := by
  induction k with
  | zero => simp [notsE]
  | succ k ih => rw [notsE, CExpr.lv_not, ih]; simp [List.replicate_succ]

theorem unitE_lv (u : CUnit) : (unitE u).lv = unitLv u := notsE_lv _ _

theorem notsE_WF {k : Nat} {e : CExpr} (h : e.WF) : (notsE k e).WF := by
  induction k with
  | zero => exact h
  | succ k ih => exact ⟨rfl, ih⟩

theorem notsE_rule {k : Nat} {e : CExpr} (h : e.rule = .expression_basic ∨ e.rule = .expression_group) :
    (notsE k e).rule ≠ .expression_or ∧ (notsE k e).rule ≠ .expression_and := by
  cases k with
  | zero => rcases h with h | h <;> simp [notsE, h]
  | succ k => simp [notsE, CExpr.rule]

theorem unit_tight {u : CUnit} (h : Atom u.2) : Tight stopAO (unitLv u) := by
  refine Tight.append (.plain ?_) (tight_small h.wf h.small)
  intro t ht
  rw [List.eq_of_mem_replicate ht]
  simp [notTok, Tok.ofWhat, plainTy, stopAO]

/-- What may follow a unit. -/
def Sep (v : List Tok) : Prop := ∀ x, v.head? = some x → stopAO x.type

theorem Sep.slash {v : List Tok} (h : Sep v) : ∀ x, v.head? = some x → x.type ≠ .FWD_SLASH := by
  intro x hx e
  rcases h x hx with h | h <;> rw [e] at h <;> simp at h

theorem least_not {e : CExpr} (h : Atom e) {v : List Tok} (hv : Sep v) : ∀ {k : Nat} {K : List Tok → Prop},
    Least (.rule .expression_not) (List.replicate (k + 1) notTok ++ e.lv) v K [(notsE (k + 1) e).toTree]
  | 0, K => by
    refine least_rule (least_seq (u1 := [notTok]) (u2 := e.lv) (f1 := [_]) (f2 := [e.toTree]) (least_tok rfl) (least_atom h hv.slash))
  | k + 1, K => by
    have e0 : List.replicate (k + 1 + 1) notTok ++ e.lv = [notTok] ++ (List.replicate (k + 1) notTok ++ e.lv) := by
      simp [List.replicate_succ]
    rw [e0]
    refine least_rule (least_seq (u1 := [notTok]) (f1 := [_]) (f2 := [(notsE (k + 1) e).toTree]) (least_tok rfl)
      (least_altR (dead_basic ?_) (least_altR (dead_group ?_) (least_altL (least_not h hv)))))
    · refine head_append (t := notTok) (ts := List.replicate k notTok ++ e.lv) (by simp [List.replicate_succ]) ?_
      exact not_name_of (t := .NOT) rfl (.inr rfl)
    · refine head_append (t := notTok) (ts := List.replicate k notTok ++ e.lv) (by simp [List.replicate_succ]) ?_
      simp [notTok, Tok.ofWhat]

theorem unit_head_not {k : Nat} {e : CExpr} {v : List Tok} {P : Tok → Prop} (hp : P notTok) :
    ∀ x, (unitLv (k + 1, e) ++ v).head? = some x → P x :=
  head_append (t := notTok) (ts := List.replicate k notTok ++ e.lv) (by simp [unitLv, List.replicate_succ]) hp

/-- A unit where a comparison, a parenthesised expression, `X` or a negation may stand. -/
theorem least_unit {u : CUnit} (h : Atom u.2) {X : G} {v : List Tok} {K : List Tok → Prop} (hv : Sep v)
    (hX : 0 < u.1 → Dead X (unitLv u ++ v) K) :
    Least (.alt (.rule .expression_basic) (.alt (.rule .expression_group) (.alt X (.rule .expression_not)))) (unitLv u) v K [(unitE u).toTree] := by
  rcases u with ⟨_ | k, e⟩
  · exact least_atom h hv.slash
  · refine least_altR (dead_basic ?_) (least_altR (dead_group ?_) (least_altR (hX (by simp)) (least_not h hv)))
    · exact unit_head_not (not_name_of (t := .NOT) rfl (.inr rfl))
    · exact unit_head_not (by simp [notTok, Tok.ofWhat])

theorem least_unit' {u : CUnit} (h : Atom u.2) {v : List Tok} {K : List Tok → Prop} (hv : Sep v) :
    Least (.alt (.rule .expression_basic) (.alt (.rule .expression_group) (.rule .expression_not))) (unitLv u) v K [(unitE u).toTree] := by
  rcases u with ⟨_ | k, e⟩
  · exact least_atom h hv.slash
  · refine least_altR (dead_basic ?_) (least_altR (dead_group ?_) (least_not h hv))
    · exact unit_head_not (not_name_of (t := .NOT) rfl (.inr rfl))
    · exact unit_head_not (by simp [notTok, Tok.ofWhat])

/-! ### Chunks: conjunctions of units -/

def tailOf (o : Tok) : List CExpr → CTail
  | [] => .nil
  | e :: l => .cons o e (tailOf o l)

def andE (f : CExpr) : List CExpr → CExpr
  | [] => f
  | l => .and f (tailOf andTok l)

def orE (f : CExpr) : List CExpr → CExpr
  | [] => f
  | l => .or f (tailOf orTok l)

/-- First unit, other units. -/
abbrev CChunk := CUnit × List CUnit

def chunkE (c : CChunk) : CExpr := andE (unitE c.1) (c.2.map unitE)
def restLv (l : List CUnit) : List Tok := l.flatMap fun u => andTok :: unitLv u
def chunkLv (c : CChunk) : List Tok := unitLv c.1 ++ restLv c.2
def ChunkOk (c : CChunk) : Prop := ∀ u ∈ c.1 :: c.2, Atom u.2

def opForest (o : Tok) (l : List CExpr) : List PTree := l.flatMap fun e => [.leaf o, e.toTree]

theorem tailOf_forest (o : Tok) (l : List CExpr) : (tailOf o l).forest = opForest o l := by
  induction l with
  | nil => rfl
  | cons e l ih => simp [tailOf, CTail.forest, ih, opForest]

theorem opForest_leaves (o : Tok) (l : List CExpr) : PTree.leavesL (opForest o l) = l.flatMap fun e => o :: e.lv := by
  induction l with
  | nil => rfl
  | cons e l ih =>
    have : opForest o (e :: l) = .leaf o :: e.toTree :: opForest o l := rfl
    rw [this]
    simp only [PTree.leavesL, PTree.leaves, ih]
    simp [CExpr.lv]

theorem chunkE_lv (c : CChunk) : (chunkE c).lv = chunkLv c := by
  rcases c with ⟨u, _ | ⟨w, l⟩⟩
  · simp [chunkE, andE, chunkLv, restLv, unitE_lv]
  · have : (chunkE (u, w :: l)).lv = (unitE u).lv ++ PTree.leavesL (opForest andTok ((w :: l).map unitE)) := by
      rw [← tailOf_forest]
      simp [chunkE, andE, CExpr.lv, CExpr.toTree, PTree.leaves, PTree.leavesL]
    rw [this, opForest_leaves, unitE_lv]
    simp [chunkLv, restLv, List.flatMap_map, unitE_lv]

theorem restLv_tight {l : List CUnit} (h : ∀ u ∈ l, Atom u.2) : Tight (· = .OR) (restLv l) := by
  induction l with
  | nil => exact .nil
  | cons u l ih =>
    have e : restLv (u :: l) = andTok :: (unitLv u ++ restLv l) := by simp [restLv]
    rw [e]
    exact .cons rfl (by simp [andTok, Tok.ofWhat]) (((unit_tight (h u (by simp))).mono fun _ h => .inr h).append
      (ih fun w hw => h w (by simp [hw])))

theorem chunk_tight {c : CChunk} (h : ChunkOk c) : Tight (· = .OR) (chunkLv c) :=
  ((unit_tight (h c.1 (by simp))).mono fun _ h => .inr h).append (restLv_tight fun u hu => h u (by simp [hu]))

theorem chunk_single {c : CChunk} (h : ChunkOk c) (h1 : c.2 = []) : Tight stopAO (chunkLv c) := by
  have : chunkLv c = unitLv c.1 := by simp [chunkLv, h1, restLv]
  rw [this]
  exact unit_tight (h c.1 (by simp))

/-- What may follow a chunk. -/
def SepO (v : List Tok) : Prop := ∀ x, v.head? = some x → x.type = .OR

theorem SepO.sep {v : List Tok} (h : SepO v) : Sep v := fun x hx => .inr (h x hx)

theorem sep_rest {l : List CUnit} {v : List Tok} (h : Sep v) : Sep (restLv l ++ v) := by
  cases l with
  | nil => simpa [restLv] using h
  | cons u l =>
    intro x hx
    simp [restLv] at hx
    subst hx
    exact .inl rfl

abbrev gP : G := .alt (.rule .expression_basic) (.alt (.rule .expression_group) (.alt (.rule .expression_and) (.rule .expression_not)))
abbrev gQ : G := .alt (.rule .expression_basic) (.alt (.rule .expression_group) (.rule .expression_not))
abbrev gR : G := .alt (.rule .expression_basic) (.alt (.rule .expression_group) (.alt (.rule .expression_or) (.rule .expression_not)))

theorem body_or : body .expression_or = .seq gP (.seq (.seq (.tok .OR) gP) (.star (.seq (.tok .OR) gP))) := rfl
theorem body_and : body .expression_and = .seq gQ (.seq (.seq (.tok .AND) gR) (.star (.seq (.tok .AND) gR))) := rfl
theorem body_expr : body .expression = .alt (.rule .expression_basic) (.alt (.rule .expression_group) (.alt (.rule .expression_or)
  (.alt (.rule .expression_and) (.rule .expression_not)))) := rfl

/-- The operands after the first one of a conjunction. -/
theorem least_ands {l : List CUnit} (hl : ∀ u ∈ l, Atom u.2) {v : List Tok} {K : List Tok → Prop} (hv : SepO v)
    (hd : ∀ l1 u l2, l = l1 ++ u :: l2 → 0 < u.1 →
      Dead (.rule .expression_or) (unitLv u ++ (restLv l2 ++ v)) (After (.star (.seq (.tok .AND) gR)) K)) :
    Least (.star (.seq (.tok .AND) gR)) (restLv l) v K (opForest andTok (l.map unitE)) := by
  induction l with
  | nil =>
    refine least_starNil (dead_seq (dead_tok ?_))
    intro x hx e
    rw [hv x hx] at e; simp at e
  | cons u l ih =>
    have e : restLv (u :: l) = (andTok :: unitLv u) ++ restLv l := by simp [restLv]
    have ef : opForest andTok ((u :: l).map unitE) = [.leaf andTok, (unitE u).toTree] ++ opForest andTok (l.map unitE) := by simp [opForest]
    rw [e, ef]
    refine least_starCons (least_seq (u1 := [andTok]) (f1 := [_]) (f2 := [_]) (least_tok rfl)
      (least_unit (hl u (by simp)) (sep_rest hv.sep) ?_)) (ih (fun w hw => hl w (by simp [hw])) ?_)
    · intro hk; exact hd [] u l rfl hk
    · intro l1 w l2 e hk
      exact hd (u :: l1) w l2 (by rw [e]; rfl) hk

/-- A conjunction. -/
theorem least_and {u w : CUnit} {l : List CUnit} (hl : ∀ x ∈ u :: w :: l, Atom x.2) {v : List Tok} {K : List Tok → Prop} (hv : SepO v)
    (hd : ∀ l1 x l2, w :: l = l1 ++ x :: l2 → 0 < x.1 →
      Dead (.rule .expression_or) (unitLv x ++ (restLv l2 ++ v)) (After (.star (.seq (.tok .AND) gR)) K)) :
    Least (.rule .expression_and) (chunkLv (u, w :: l)) v K [(chunkE (u, w :: l)).toTree] := by
  have e : chunkLv (u, w :: l) = unitLv u ++ ((andTok :: unitLv w) ++ restLv l) := by simp [chunkLv, restLv]
  have ef : (chunkE (u, w :: l)).toTree = .node .expression_and ([(unitE u).toTree] ++
      ([.leaf andTok, (unitE w).toTree] ++ opForest andTok (l.map unitE))) := by
    simp [chunkE, andE, CExpr.toTree, tailOf, CTail.forest, tailOf_forest]
  rw [e, ef]
  refine least_rule (least_seq (least_unit' (hl u (by simp)) ?_) (least_seq (least_seq (u1 := [andTok]) (f1 := [_]) (f2 := [_])
    (least_tok rfl) (least_unit (hl w (by simp)) (sep_rest hv.sep) ?_)) (least_ands (fun x hx => hl x (by simp [hx])) hv ?_)))
  · intro x hx
    simp at hx
    subst hx
    exact .inl rfl
  · intro hk; exact hd [] w l rfl hk
  · intro l1 x l2 e hk
    exact hd (w :: l1) x l2 (by rw [e]; rfl) hk

/-- A small expression followed by `|` or nothing is not a proper part of a conjunction. -/
theorem dead_small {r : Rule} (hr : r = .expression_basic ∨ r = .expression_group) {u w : CUnit} {l : List CUnit} (hu : Atom u.2)
    {v : List Tok} {K : List Tok → Prop} (hK : ∀ v, K v → SepO v) : Dead (.rule r) (chunkLv (u, w :: l) ++ v) K := by
  intro u' v' f c e hd hv
  obtain ⟨x, h1, h2, -, rfl⟩ := expr_of_D (by rcases hr with rfl | rfl <;> simp [isERule]) hd
  have ht := tight_small h1 (by rw [h2]; exact hr)
  have e1 : chunkLv (u, w :: l) ++ v = unitLv u ++ andTok :: (unitLv w ++ (restLv l ++ v)) := by simp [chunkLv, restLv]
  rw [e1] at e
  cases v' with
  | nil =>
    refine ht.not_top (t := .AND) (.inl rfl) ⟨unitLv u, andTok, _, by simpa using e, (unit_tight hu).total, rfl⟩
  | cons o v' =>
    have ho : o.type = .OR := hK _ hv o rfl
    have := tight_unique (t := o) (t' := andTok) ht (unit_tight hu) (.inl (.inr ho)) (.inl (.inl rfl)) e
    rw [this] at e
    have e := List.append_cancel_left e
    simp only [List.cons.injEq] at e
    rw [e.1] at ho
    simp [andTok, Tok.ofWhat] at ho

/-- A chunk as operand of a disjunction. -/
theorem least_chunk {c : CChunk} (hc : ChunkOk c) {v : List Tok} {K : List Tok → Prop} (hv : SepO v) (hK : ∀ v, K v → SepO v)
    (h1 : c.2 = [] → 0 < c.1.1 → Dead (.rule .expression_and) (chunkLv c ++ v) K)
    (hd : ∀ l1 x l2, c.2 = l1 ++ x :: l2 → 0 < x.1 →
      Dead (.rule .expression_or) (unitLv x ++ (restLv l2 ++ v)) (After (.star (.seq (.tok .AND) gR)) K)) :
    Least gP (chunkLv c) v K [(chunkE c).toTree] := by
  rcases c with ⟨u, _ | ⟨w, l⟩⟩
  · have e : chunkLv (u, []) = unitLv u := by simp [chunkLv, restLv]
    rw [e] at h1 ⊢
    exact least_unit (hc u (by simp)) hv.sep fun hk => h1 rfl hk
  · exact least_altR (dead_small (.inl rfl) (hc u (by simp)) hK) (least_altR (dead_small (.inr rfl) (hc u (by simp)) hK)
      (least_altL (least_and hc hv hd)))


/-! ### Disjunctions of chunks -/

def chunksLv (Cs : List CChunk) : List Tok := Cs.flatMap fun c => orTok :: chunkLv c
def wholeLv (c : CChunk) (Cs : List CChunk) : List Tok := chunkLv c ++ chunksLv Cs
def wholeE (c : CChunk) (Cs : List CChunk) : CExpr := orE (chunkE c) (Cs.map chunkE)

/-- A chunk as a list. -/
def CChunk.list (c : CChunk) : List CUnit := c.1 :: c.2

theorem wholeE_lv (c : CChunk) (Cs : List CChunk) : (wholeE c Cs).lv = wholeLv c Cs := by
  cases Cs with
  | nil => simp [wholeE, orE, wholeLv, chunksLv, chunkE_lv]
  | cons d Cs =>
    have : (wholeE c (d :: Cs)).lv = (chunkE c).lv ++ PTree.leavesL (opForest orTok ((d :: Cs).map chunkE)) := by
      rw [← tailOf_forest]
      simp [wholeE, orE, CExpr.lv, CExpr.toTree, PTree.leaves, PTree.leavesL]
    rw [this, opForest_leaves, chunkE_lv]
    simp [wholeLv, chunksLv, List.flatMap_map, chunkE_lv]

theorem chunksLv_depth {Cs : List CChunk} (h : ∀ c ∈ Cs, ChunkOk c) : depth (chunksLv Cs) = 0 := by
  induction Cs with
  | nil => rfl
  | cons c Cs ih =>
    have e : chunksLv (c :: Cs) = orTok :: (chunkLv c ++ chunksLv Cs) := by simp [chunksLv]
    rw [e]
    simp only [depth, depth_append, (chunk_tight (h c (by simp))).total, ih fun d hd => h d (by simp [hd])]
    rfl

theorem sepO_chunks (Cs : List CChunk) : SepO (chunksLv Cs) := by
  cases Cs with
  | nil => simp [SepO, chunksLv]
  | cons c Cs =>
    intro x hx
    simp [chunksLv] at hx
    subst hx; rfl

abbrev gO : G := .star (.seq (.tok .OR) gP)

theorem after_or {K : List Tok → Prop} {v : List Tok} (h : After (.seq (.seq (.tok .OR) gP) gO) K v) : ∃ o w, v = o :: w ∧ o.type = .OR := by
  obtain ⟨u, w, f, c, rfl, hd, -⟩ := h
  obtain ⟨ta, tb, fa, fb, ca, cb, rfl, rfl, rfl, ha, hb⟩ := D_seq.1 hd
  obtain ⟨tc, td, fc, fd, cc, cd, rfl, rfl, rfl, hc, hd⟩ := D_seq.1 ha
  obtain ⟨y, hy, rfl, -⟩ := D_tok.1 hc
  exact ⟨y, _, rfl, hy⟩

theorem after_ors {v : List Tok} (h : After gO (· = []) v) : SepO v := by
  obtain ⟨u, w, f, c, rfl, hd, rfl⟩ := h
  rcases D_star.1 hd with ⟨rfl, -, -⟩ | ⟨ta, tb, fa, fb, ca, cb, rfl, rfl, rfl, ha, hb⟩
  · simp [SepO]
  · obtain ⟨tc, td, fc, fd, cc, cd, rfl, rfl, rfl, hc, hd⟩ := D_seq.1 ha
    obtain ⟨y, hy, rfl, -⟩ := D_tok.1 hc
    intro x hx
    simp at hx
    subst hx; exact hy

/-- An operand. -/
theorem D_gR {u : List Tok} {f : List PTree} {c : List Bool} (h : D gR u f c) : ∃ e : CExpr, e.WF ∧ e.lv = u := by
  have aux : ∀ r, isERule r → ∀ c, D (.rule r) u f c → ∃ e : CExpr, e.WF ∧ e.lv = u := by
    intro r hr c h
    obtain ⟨e, h1, -, -, h2⟩ := expr_of_D hr h
    exact ⟨e, h1, h2⟩
  rcases D_alt.1 h with ⟨c, -, h⟩ | ⟨c, -, h⟩
  · exact aux _ (by simp [isERule]) _ h
  rcases D_alt.1 h with ⟨c, -, h⟩ | ⟨c, -, h⟩
  · exact aux _ (by simp [isERule]) _ h
  rcases D_alt.1 h with ⟨c, -, h⟩ | ⟨c, -, h⟩
  · exact aux _ (by simp [isERule]) _ h
  · exact aux _ (by simp [isERule]) _ h

theorem star_depth {u : List Tok} {f : List PTree} {c : List Bool} (h : D (.star (.seq (.tok .AND) gR)) u f c) : depth u = 0 := by
  generalize hg : G.star (.seq (.tok .AND) gR) = g at h
  induction h with
  | starNil => rfl
  | starCons ha hb iha ihb =>
    cases hg
    obtain ⟨tc, td, fc, fd, cc, cd, rfl, rfl, rfl, hc, hd⟩ := D_seq.1 ha
    obtain ⟨y, hy, rfl, -⟩ := D_tok.1 hc
    obtain ⟨e, he, rfl⟩ := D_gR hd
    rw [depth_append, ihb rfl]
    simp [depth, (e.tight he).total, delta, hy]
  | eps => cases hg
  | tok _ => cases hg
  | rule _ => cases hg
  | seq _ _ => cases hg
  | altL _ => cases hg
  | altR _ => cases hg

theorem dead_or {T : List Tok} {K : List Tok → Prop} (h : ¬ Top .OR T) : Dead (.rule .expression_or) T K := by
  intro u v f c e hd _
  obtain ⟨x, h1, h2, -, rfl⟩ := expr_of_D (by simp [isERule]) hd
  exact h (e ▸ (top_or h1 h2).appendL)

theorem dead_and {T : List Tok} {K : List Tok → Prop} (h : ¬ Top .AND T) : Dead (.rule .expression_and) T K := by
  intro u v f c e hd _
  obtain ⟨x, h1, h2, -, rfl⟩ := expr_of_D (by simp [isERule]) hd
  exact h (e ▸ (top_and h1 h2).appendL)

theorem unit_rest_tight {u : CUnit} {l : List CUnit} (h : ∀ w ∈ u :: l, Atom w.2) : Tight (· = .OR) (unitLv u ++ restLv l) :=
  chunk_tight (c := (u, l)) h

theorem chunks_no_and {Cs : List CChunk} (h : ∀ c ∈ Cs, ChunkOk c ∧ c.2 = []) : ¬ Top .AND (chunksLv Cs) := by
  induction Cs with
  | nil => rintro ⟨p, x, s, e, -⟩; simp [chunksLv] at e
  | cons c Cs ih =>
    have e : chunksLv (c :: Cs) = [orTok] ++ (chunkLv c ++ chunksLv Cs) := by simp [chunksLv]
    rw [e]
    intro ht
    obtain ⟨h1, h2⟩ := h c (by simp)
    rcases top_append rfl ht with ⟨p, x, s, e, hp, hx⟩ | ht
    · cases p with
      | nil =>
        simp only [List.nil_append, List.cons.injEq] at e
        rw [← e.1] at hx
        simp [orTok, Tok.ofWhat] at hx
      | cons y p => simp at e
    rcases top_append (chunk_tight h1).total ht with ht | ht
    · exact (chunk_single h1 h2).not_top (.inl rfl) ht
    · exact ih (fun d hd => h d (by simp [hd])) ht

/-- Chunks after the first one. -/
theorem least_chunks {Cs : List CChunk} (h : ∀ c ∈ Cs, ChunkOk c) (hc : CalmRest (Cs.map CChunk.list)) :
    Least gO (chunksLv Cs) [] (· = []) (opForest orTok (Cs.map chunkE)) := by
  induction Cs with
  | nil => exact least_starNil (dead_seq (dead_tok (by simp)))
  | cons c Cs ih =>
    have e : chunksLv (c :: Cs) = (orTok :: chunkLv c) ++ chunksLv Cs := by simp [chunksLv]
    have ef : opForest orTok ((c :: Cs).map chunkE) = [.leaf orTok, (chunkE c).toTree] ++ opForest orTok (Cs.map chunkE) := by simp [opForest]
    rw [e, ef]
    obtain ⟨h1, h2, h3⟩ := hc
    refine least_starCons (least_seq (u1 := [orTok]) (f1 := [_]) (f2 := [_]) (least_tok rfl)
      (least_chunk (h c (by simp)) (by simpa using sepO_chunks Cs) (fun v hv => after_ors hv) ?_ ?_))
      (ih (fun d hd => h d (by simp [hd])) h3)
    · intro hs hk
      have hl : LoneNegation c.list := by
        rcases c with ⟨⟨_ | k, a⟩, l⟩
        · simp at hk
        · simp only at hs; subst hs; exact ⟨k, a, rfl⟩
      have hall : ∀ d ∈ Cs, ChunkOk d ∧ d.2 = [] := by
        intro d hd
        refine ⟨h d (by simp [hd]), ?_⟩
        have := h1 hl d.list (by simp only [List.mem_map]; exact ⟨d, hd, rfl⟩)
        rcases d with ⟨x, _ | ⟨y, l⟩⟩
        · rfl
        · simp [CChunk.list] at this
      refine dead_and fun ht => ?_
      rcases top_append (chunk_tight (h c (by simp))).total ht with ht | ht
      · exact (chunk_single (h c (by simp)) hs).not_top (.inl rfl) ht
      · exact chunks_no_and hall (by simpa using ht)
    · intro l1 x l2 ex hk
      have hl : LaterNegation c.list := by
        rcases x with ⟨_ | k, a⟩
        · simp at hk
        · exact ⟨k, a, by simp [CChunk.list, ex]⟩
      have hnil : Cs = [] := by simpa using h2 hl
      subst hnil
      refine dead_or ?_
      have : unitLv x ++ (restLv l2 ++ (chunksLv [] ++ [])) = unitLv x ++ restLv l2 := by simp [chunksLv]
      rw [this]
      refine (unit_rest_tight (l := l2) ?_).not_top rfl
      intro w hw
      refine h c (by simp) w ?_
      rw [ex]; simp at hw ⊢; rcases hw with rfl | hw <;> simp [*]

theorem wholeLv_snoc (c d : CChunk) (Cs : List CChunk) : wholeLv c (Cs ++ [d]) = wholeLv c Cs ++ orTok :: chunkLv d := by
  simp [wholeLv, chunksLv]

/-- Several chunks. -/
theorem least_disjunction {c d : CChunk} {Cs : List CChunk} (h : ∀ x ∈ c :: d :: Cs, ChunkOk x)
    (hc : Calm ((c :: d :: Cs).map CChunk.list)) :
    Least (.rule .expression_or) (wholeLv c (d :: Cs)) [] (· = []) [(wholeE c (d :: Cs)).toTree] := by
  obtain ⟨h1, h2, h3⟩ := hc
  have hcr : CalmRest (Cs.map CChunk.list) := h3.2.2
  have e : wholeLv c (d :: Cs) = chunkLv c ++ ((orTok :: chunkLv d) ++ chunksLv Cs) := by simp [wholeLv, chunksLv]
  have ef : (wholeE c (d :: Cs)).toTree = .node .expression_or ([(chunkE c).toTree] ++
      ([.leaf orTok, (chunkE d).toTree] ++ opForest orTok (Cs.map chunkE))) := by
    simp [wholeE, orE, CExpr.toTree, tailOf, CTail.forest, tailOf_forest]
  have hlast : ∃ L z, d :: Cs = L ++ [z] := ⟨(d :: Cs).dropLast, (d :: Cs).getLast (by simp), (List.dropLast_concat_getLast (by simp)).symm⟩
  have hrest := least_chunks (Cs := d :: Cs) (fun x hx => h x (List.mem_cons_of_mem _ hx)) h3
  rw [ef]
  have e' : wholeLv c (d :: Cs) = chunkLv c ++ chunksLv (d :: Cs) := rfl
  rw [e']
  refine least_rule (least_seq ?_ ?_)
  · refine least_chunk (h c (by simp)) (by simpa using sepO_chunks (d :: Cs)) (fun v hv => ?_) ?_ ?_
    · obtain ⟨o, w, rfl, ho⟩ := after_or hv
      intro x hx; simp at hx; subst hx; exact ho
    · intro hs hk
      have hl : LoneNegation c.list := by
        rcases c with ⟨⟨_ | k, a⟩, l⟩
        · simp at hk
        · simp only at hs; subst hs; exact ⟨k, a, rfl⟩
      obtain ⟨L, z, eL⟩ := hlast
      have hall : ∀ x ∈ L, ChunkOk x ∧ x.2 = [] := by
        intro x hx
        refine ⟨h x (by rw [eL]; simp [hx]), ?_⟩
        have := h1 hl x.list (by
          rw [show List.map CChunk.list (d :: Cs) = L.map CChunk.list ++ [z.list] by rw [eL]; simp, List.dropLast_concat]
          exact List.mem_map.2 ⟨x, hx, rfl⟩)
        rcases x with ⟨x, _ | ⟨y, l⟩⟩
        · rfl
        · simp [CChunk.list] at this
      have hno : ¬ Top .AND (wholeLv c L) := by
        intro ht
        rcases top_append (chunk_tight (h c (by simp))).total ht with ht | ht
        · exact (chunk_single (h c (by simp)) hs).not_top (.inl rfl) ht
        · exact chunks_no_and hall ht
      have hdep : depth (wholeLv c L) = 0 := by
        rw [wholeLv, depth_append, (chunk_tight (h c (by simp))).total, chunksLv_depth fun x hx => (hall x hx).1]; rfl
      have hz : ¬ Top .OR (chunkLv z) := (chunk_tight (h z (by rw [eL]; simp))).not_top rfl
      intro u v f c' eu hd hv
      obtain ⟨x, g1, g2, -, rfl⟩ := expr_of_D (by simp [isERule]) hd
      obtain ⟨o, w, rfl, ho⟩ := after_or hv
      have eu : x.lv ++ o :: w = wholeLv c L ++ orTok :: chunkLv z := by
        rw [eu, List.append_nil, eL]; exact wholeLv_snoc c z L
      have ht := top_and g1 g2
      rcases List.append_eq_append_iff.1 eu with ⟨y, k1, k2⟩ | ⟨y, k1, k2⟩
      · exact hno (k1 ▸ ht.appendL)
      · cases y with
        | nil => rw [List.append_nil] at k1; exact hno (k1 ▸ ht)
        | cons t y =>
          simp only [List.cons_append, List.cons.injEq] at k2
          obtain ⟨rfl, k2⟩ := k2
          refine hz ⟨y, o, w, k2, ?_, ho⟩
          have := congrArg depth k1
          rw [(x.tight g1).total, depth_append, hdep] at this
          simp [depth, orTok, Tok.ofWhat, delta] at this
          omega
    · intro l1 x l2 ex hk
      have hl : LaterNegation c.list := by
        rcases x with ⟨_ | k, a⟩
        · simp at hk
        · exact ⟨k, a, by simp [CChunk.list, ex]⟩
      have hnil : Cs = [] := by
        have := h2 hl
        cases Cs with
        | nil => rfl
        | cons y Cs => simp at this
      subst hnil
      have hA : Tight (· = .OR) (unitLv x ++ restLv l2) := by
        refine unit_rest_tight fun w hw => h c (by simp) w ?_
        rw [ex]; simp at hw ⊢; rcases hw with rfl | hw <;> simp [*]
      have hB := chunk_tight (h d (by simp))
      intro u v f c' eu hd hv
      obtain ⟨y, g1, g2, -, rfl⟩ := expr_of_D (by simp [isERule]) hd
      obtain ⟨u1, v1, f1, c1, rfl, hs, hv⟩ := hv
      obtain ⟨o, w, rfl, ho⟩ := after_or hv
      obtain ⟨p, o', s, ey, hp, ho'⟩ := top_or g1 g2
      have e3 : p ++ o' :: (s ++ (u1 ++ o :: w)) = (unitLv x ++ restLv l2) ++ orTok :: chunkLv d := by
        have : chunksLv [d] = orTok :: chunkLv d := by simp [chunksLv]
        rw [this, ey] at eu
        simpa using eu
      have hy := (y.tight g1).total
      rw [ey, depth_append, hp] at hy
      simp only [depth, delta, ho'] at hy
      rcases top_split e3 hp ho' (hA.not_top rfl) with ⟨-, -, k⟩ | ⟨z, hpz, k⟩
      · refine hB.not_top rfl ⟨s ++ u1, o, w, by rw [← k]; simp, ?_, ho⟩
        rw [depth_append, star_depth hs]
        omega
      · refine hB.not_top rfl ⟨z, o', _, k, ?_, ho'⟩
        have hq := congrArg depth hpz
        rw [hp, depth_append, hA.total] at hq
        simp [depth, orTok, Tok.ofWhat, delta] at hq
        omega
  · obtain ⟨cc, hd, hleast⟩ := hrest
    rcases D_star.1 hd with ⟨ha, -, -⟩ | ⟨ta, tb, fa, fb, ca, cb, e1, e2, e3, ha, hb⟩
    · simp [chunksLv] at ha
    · refine ⟨ca ++ cb, ?_, ?_⟩
      · have := D.seq ha hb
        rw [← e1, ← e2] at this
        have ef' : opForest orTok ((d :: Cs).map chunkE) = [.leaf orTok, (chunkE d).toTree] ++ opForest orTok (Cs.map chunkE) := by simp [opForest]
        rw [ef'] at this
        exact this
      · intro u' v' f' c' eq hd' hv
        obtain ⟨ta', tb', fa', fb', ca', cb', rfl, rfl, rfl, ha', hb'⟩ := D_seq.1 hd'
        rcases hleast (ta' ++ tb') v' (fa' ++ fb') _ eq (.starCons ha' hb') hv with ⟨k1, k2, k3⟩ | hbf
        · rw [e3] at k3
          simp only [List.cons.injEq, true_and] at k3
          exact .inl ⟨k1, by rw [k2]; simp [opForest], k3⟩
        · right
          rw [e3] at hbf
          obtain ⟨p, a, b, k1, k2⟩ := hbf
          cases p with
          | nil => simp at k2
          | cons x p =>
            simp only [List.cons_append, List.cons.injEq] at k1 k2
            exact ⟨p, a, b, k1.2, k2.2⟩

/-- **The chosen tree**: by precedence, if the chunks are calm. -/
theorem best_whole {c : CChunk} {Cs : List CChunk} (h : ∀ x ∈ c :: Cs, ChunkOk x) (hc : Calm ((c :: Cs).map CChunk.list)) :
    (wholeE c Cs).Best := by
  suffices hs : Least (body .expression) (wholeLv c Cs) [] (· = []) [(wholeE c Cs).toTree] by
    have := (least_rule hs).chosen
    rwa [← wholeE_lv] at this
  have hdead : ∀ {r : Rule} {u : CUnit} {l : List CUnit} {o : Tok} {T : List Tok}, r = .expression_basic ∨ r = .expression_group →
      Top .AND T ∨ Top .OR T → Dead (.rule r) (T ++ []) (· = []) := by
    intro r u l o T hr ht u' v' f' c' e hd hv
    subst hv
    obtain ⟨x, h1, h2, -, rfl⟩ := expr_of_D (by rcases hr with rfl | rfl <;> simp [isERule]) hd
    have hti := tight_small h1 (by rw [h2]; exact hr)
    simp only [List.append_nil] at e
    rw [← e] at ht
    rcases ht with ht | ht
    · exact hti.not_top (.inl rfl) ht
    · exact hti.not_top (.inr rfl) ht
  cases Cs with
  | cons d Cs =>
    have ht : Top .OR (wholeLv c (d :: Cs)) := .appendR (chunk_tight (h c (by simp))).total (by simp only [chunksLv, List.flatMap_cons, List.cons_append]; exact .here rfl)
    exact least_altR (hdead (u := c.1) (l := []) (o := orTok) (.inl rfl) (.inr ht)) (least_altR (hdead (u := c.1) (l := []) (o := orTok) (.inr rfl) (.inr ht))
      (least_altL (least_disjunction h hc)))
  | nil =>
    have e : wholeLv c [] = chunkLv c := by simp [wholeLv, chunksLv]
    have ee : wholeE c [] = chunkE c := rfl
    rw [e, ee]
    have hno : ¬ Top .OR (chunkLv c) := (chunk_tight (h c (by simp))).not_top rfl
    rcases c with ⟨u, _ | ⟨w, l⟩⟩
    · have e : chunkLv (u, []) = unitLv u := by simp [chunkLv, restLv]
      have ee : chunkE (u, []) = unitE u := rfl
      rw [e, ee]
      rw [e] at hno
      have hu : Atom u.2 := h (u, []) (by simp) u (by simp)
      rcases u with ⟨_ | k, a⟩
      · have := least_atom hu (X := .alt (.rule .expression_or) (.alt (.rule .expression_and) (.rule .expression_not))) (v := []) (K := (· = [])) (by simp)
        have e1 : unitLv (0, a) = a.lv := by simp [unitLv]
        rw [e1]
        exact this
      · refine least_altR (dead_basic ?_) (least_altR (dead_group ?_) (least_altR (dead_or (by simpa using hno)) (least_altR (dead_and ?_)
          (least_not hu (by simp [Sep])))))
        · exact unit_head_not (not_name_of (t := .NOT) rfl (.inr rfl))
        · exact unit_head_not (by simp [notTok, Tok.ofWhat])
        · simpa using (unit_tight (u := (k + 1, a)) hu).not_top (.inl rfl)
    · have hok : ChunkOk (u, w :: l) := h _ (by simp)
      have ht : Top .AND (chunkLv (u, w :: l)) := .appendR (unit_tight (hok u (by simp))).total (by simp only [restLv, List.flatMap_cons, List.cons_append]; exact .here rfl)
      refine least_altR (hdead (u := u) (l := []) (o := orTok) (.inl rfl) (.inl ht)) (least_altR (hdead (u := u) (l := []) (o := orTok) (.inr rfl) (.inl ht))
        (least_altR (dead_or (by simpa using hno)) (least_altL (least_and hok (by simp [SepO]) ?_))))
      intro l1 x l2 ex _
      refine dead_or ?_
      rw [List.append_nil]
      refine (unit_rest_tight (l := l2) fun y hy => hok y ?_).not_top rfl
      rw [ex]; simp at hy ⊢; rcases hy with rfl | hy <;> simp [*]

end Fcsql
