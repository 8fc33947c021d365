/-
How the tokens of a query determine its sequence and disjunction structure.
-/
import Verif.Proofs.Subtree

set_option autoImplicit false
set_option linter.unusedSimpArgs false

namespace Fcsql

/-! ### Bracket depth -/

/-- Effect of a token on the bracket depth. -/
def delta (t : Tok) : Int :=
  match t.type with
  | .L_PAREN => 1
  | .L_SQUARE_BRACKET => 1
  | .R_PAREN => -1
  | .R_SQUARE_BRACKET => -1
  | _ => 0

def depth : List Tok → Int
  | [] => 0
  | t :: ts => delta t + depth ts

theorem depth_append (u v : List Tok) : depth (u ++ v) = depth u + depth v := by
  induction u with
  | nil => simp [depth]
  | cons t u ih => simp only [List.cons_append, depth, ih]; omega

/-- Balanced, and outside brackets no token of a type in `stop`. -/
structure Tight (stop : TokType → Prop) (w : List Tok) : Prop where
  total : depth w = 0
  nonneg : ∀ u v, w = u ++ v → 0 ≤ depth u
  free : ∀ u t v, w = u ++ t :: v → depth u = 0 → ¬ stop t.type

theorem Tight.nil {stop : TokType → Prop} : Tight stop [] := by
  refine ⟨rfl, ?_, ?_⟩
  · intro u v h
    have : u = [] := by simp at h; exact h.1
    simp [this, depth]
  · intro u t v h; simp at h

theorem Tight.mono {stop stop' : TokType → Prop} {w : List Tok} (h : Tight stop w) (hs : ∀ t, stop' t → stop t) : Tight stop' w :=
  ⟨h.total, h.nonneg, fun u t v e hd hst => h.free u t v e hd (hs _ hst)⟩

theorem Tight.append {stop : TokType → Prop} {w w' : List Tok} (h : Tight stop w) (h' : Tight stop w') : Tight stop (w ++ w') := by
  refine ⟨by rw [depth_append, h.total, h'.total]; rfl, ?_, ?_⟩
  · intro u v e
    rcases List.append_eq_append_iff.1 e with ⟨x, rfl, rfl⟩ | ⟨x, rfl, rfl⟩
    · rw [depth_append, h.total]
      have := h'.nonneg x v rfl
      omega
    · exact h.nonneg u x rfl
  · intro u t v e hd
    rcases List.append_eq_append_iff.1 e with ⟨x, rfl, h2⟩ | ⟨x, h1, h2⟩
    · rw [depth_append, h.total, Int.zero_add] at hd
      exact h'.free x t v h2 hd
    · cases x with
      | nil =>
        simp only [List.append_nil] at h1
        subst h1
        exact h'.free [] t v (by simpa using h2.symm) rfl
      | cons y x =>
        simp only [List.cons_append, List.cons.injEq] at h2
        obtain ⟨rfl, rfl⟩ := h2
        exact h.free u t x h1 hd

theorem Tight.tok {stop : TokType → Prop} {t : Tok} (hd : delta t = 0) (hs : ¬ stop t.type) : Tight stop [t] := by
  refine ⟨by simp [depth, hd], ?_, ?_⟩
  · intro u v e
    cases u with
    | nil => simp [depth]
    | cons x u =>
      simp only [List.cons_append, List.cons.injEq] at e
      obtain ⟨rfl, e⟩ := e
      have : u = [] := by simp at e; exact e.1
      simp [this, depth, hd]
  · intro u x v e _
    cases u with
    | nil =>
      simp only [List.nil_append, List.cons.injEq] at e
      rw [← e.1]; exact hs
    | cons y u => simp at e

theorem Tight.cons {stop : TokType → Prop} {t : Tok} {w : List Tok} (hd : delta t = 0) (hs : ¬ stop t.type) (h : Tight stop w) :
    Tight stop (t :: w) := Tight.append (Tight.tok hd hs) h

theorem Tight.wrap {stop stop' : TokType → Prop} {lp rp : Tok} {w : List Tok} (hl : delta lp = 1) (hr : delta rp = -1)
    (hs : ¬ stop lp.type) (h : Tight stop' w) : Tight stop (lp :: (w ++ [rp])) := by
  refine ⟨by simp only [depth, depth_append, hl, h.total, hr]; rfl, ?_, ?_⟩
  · intro u v e
    cases u with
    | nil => simp [depth]
    | cons x u =>
      simp only [List.cons_append, List.cons.injEq] at e
      obtain ⟨rfl, e⟩ := e
      simp only [depth, hl]
      rcases List.append_eq_append_iff.1 e with ⟨y, rfl, h2⟩ | ⟨y, rfl, -⟩
      · rw [depth_append, h.total]
        cases y with
        | nil => simp [depth]
        | cons z y =>
          simp only [List.cons_append, List.cons.injEq] at h2
          obtain ⟨rfl, h2⟩ := h2
          have : y = [] := by simp at h2; exact h2.1
          simp [this, depth, hr]
      · have := h.nonneg u y rfl
        omega
  · intro u t v e hd
    cases u with
    | nil =>
      simp only [List.nil_append, List.cons.injEq] at e
      rw [← e.1]; exact hs
    | cons x u =>
      exfalso
      simp only [List.cons_append, List.cons.injEq] at e
      obtain ⟨rfl, e⟩ := e
      simp only [depth, hl] at hd
      rcases List.append_eq_append_iff.1 e with ⟨y, rfl, h2⟩ | ⟨y, rfl, -⟩
      · rw [depth_append, h.total] at hd
        cases y with
        | nil => simp [depth] at hd
        | cons z y =>
          simp only [List.cons_append, List.cons.injEq] at h2
          have := congrArg List.length h2.2
          simp at this
      · have := h.nonneg u y rfl
        omega

/-- A balanced prefix up to a stop token (or closing bracket) is determined. -/
theorem tight_unique {stop : TokType → Prop} {w w' r r' : List Tok} {t t' : Tok} (h : Tight stop w) (h' : Tight stop w')
    (ht : stop t.type ∨ delta t = -1) (ht' : stop t'.type ∨ delta t' = -1) (e : w ++ t :: r = w' ++ t' :: r') : w = w' := by
  have key : ∀ {w w' : List Tok} {t : Tok} {x r r' : List Tok}, Tight stop w → Tight stop w' → (stop t.type ∨ delta t = -1) →
      w' = w ++ t :: x → False := by
    intro w w' t x r r' h h' ht e
    rcases ht with ht | ht
    · exact h'.free w t x e h.total ht
    · have := h'.nonneg (w ++ [t]) x (by simp [e])
      rw [depth_append, h.total] at this
      simp [depth, ht] at this
  rcases List.append_eq_append_iff.1 e with ⟨x, h1, h2⟩ | ⟨x, h1, h2⟩
  · cases x with
    | nil => simpa using h1.symm
    | cons y x =>
      simp only [List.cons_append, List.cons.injEq] at h2
      obtain ⟨rfl, -⟩ := h2
      exact (key (r := r) (r' := r') h h' ht h1).elim
  · cases x with
    | nil => simpa using h1
    | cons y x =>
      simp only [List.cons_append, List.cons.injEq] at h2
      obtain ⟨rfl, -⟩ := h2
      exact (key (r := r) (r' := r') h' h ht' h1).elim

/-- ... and cannot be a proper beginning of a complete one. -/
theorem tight_stop {stop : TokType → Prop} {w w' r : List Tok} {t : Tok} (h : Tight stop w) (h' : Tight stop w')
    (ht : stop t.type ∨ delta t = -1) (e : w' = w ++ t :: r) : False := by
  rcases ht with ht | ht
  · exact h'.free w t r e h.total ht
  · have := h'.nonneg (w ++ [t]) r (by simp [e])
    rw [depth_append, h.total] at this
    simp [depth, ht] at this

/-! ### Tokens of the constructs -/

abbrev CRegexp.lv (r : CRegexp) : List Tok := r.toTree.leaves
abbrev CExpr.lv (e : CExpr) : List Tok := e.toTree.leaves
abbrev CQ.lv (c : CQ) : List Tok := c.toTree.leaves

/-- Tokens of an optional quantifier. -/
def quantLv (q : Option CQuant) : List Tok := PTree.leavesL (optQuant q)

/-- Tokens of an optional expression. -/
def exprLv (e : Option CExpr) : List Tok := PTree.leavesL (optExpr e)

theorem CRegexp.lv_none (p : Tok) : (CRegexp.mk p none).lv = [p] := by simp [CRegexp.lv, CRegexp.toTree, PTree.leaves, PTree.leavesL]
theorem CRegexp.lv_some (p s g : Tok) : (CRegexp.mk p (some (s, g))).lv = [p, s, g] := by
  simp [CRegexp.lv, CRegexp.toTree, PTree.leaves, PTree.leavesL]

theorem lv_implicit (r : CRegexp) (q : Option CQuant) : (CQ.implicit r q).lv = r.lv ++ quantLv q := by
  simp [CQ.lv, CQ.toTree, PTree.leaves, PTree.leavesL, quantLv]

theorem lv_segment (lb rb : Tok) (e : Option CExpr) (q : Option CQuant) :
    (CQ.segment lb e rb q).lv = lb :: (exprLv e ++ rb :: quantLv q) := by
  simp [CQ.lv, CQ.toTree, PTree.leaves, PTree.leavesL, quantLv, exprLv, leavesL_append]

theorem lv_group (lp rp : Tok) (c : CQ) (q : Option CQuant) :
    (CQ.group lp c rp q).lv = lp :: (c.lv ++ rp :: quantLv q) := by
  simp [CQ.lv, CQ.toTree, PTree.leaves, PTree.leavesL, quantLv]

/-- Only tokens that cannot end a query part. -/
def plainTy : TokType → Prop
  | .L_PAREN | .R_PAREN | .L_SQUARE_BRACKET | .R_SQUARE_BRACKET => False
  | _ => True

theorem delta_plain {t : Tok} (h : plainTy t.type) : delta t = 0 := by
  unfold delta
  cases ht : t.type <;> simp [ht, plainTy] at h ⊢

def stopDisj (t : TokType) : Prop := t = .WITHIN ∨ t = .EOF
def stopSeq (t : TokType) : Prop := t = .OR ∨ t = .WITHIN ∨ t = .EOF
def noStop (_ : TokType) : Prop := False

theorem Tight.plain {stop : TokType → Prop} {w : List Tok} (h : ∀ t ∈ w, plainTy t.type ∧ ¬ stop t.type) : Tight stop w := by
  induction w with
  | nil => exact .nil
  | cons t w ih => exact .cons (delta_plain (h t (by simp)).1) (h t (by simp)).2 (ih fun x hx => h x (by simp [hx]))

theorem quant_types {q : Option CQuant} (h : optQuantWF q) : ∀ t ∈ quantLv q, t.type = .Q_ONE_OR_MORE ∨
    t.type = .Q_ZERO_OR_MORE ∨ t.type = .Q_ZERO_OR_ONE ∨ t.type = .L_CURLY_BRACKET ∨ t.type = .R_CURLY_BRACKET ∨
    t.type = .INTEGER ∨ t.type = .Q_COMMA := by
  cases q with
  | none => simp [quantLv, optQuant, PTree.leavesL]
  | some q =>
    have h := h q rfl
    cases q with
    | sym t =>
      have : t.type = .Q_ONE_OR_MORE ∨ t.type = .Q_ZERO_OR_MORE ∨ t.type = .Q_ZERO_OR_ONE := h
      simp [quantLv, optQuant, PTree.leavesL, PTree.leaves, CQuant.forest]
      rcases this with h | h | h <;> simp [h]
    | exactly lb n rb =>
      obtain ⟨h1, h2, h3⟩ := h
      simp [quantLv, optQuant, PTree.leavesL, PTree.leaves, CQuant.forest, h1, h2, h3]
    | range lb n c m rb =>
      obtain ⟨h1, h2, h3, h4, h5, h6⟩ := h
      cases n <;> cases m <;>
        simp_all [quantLv, optQuant, PTree.leavesL, PTree.leaves, CQuant.forest, optLeaf]

theorem quant_tight {stop : TokType → Prop} (hstop : ∀ t, stop t → stopSeq t) {q : Option CQuant} (h : optQuantWF q) :
    Tight stop (quantLv q) := by
  refine .plain fun t ht => ?_
  have hty := quant_types h t ht
  refine ⟨?_, fun hs => ?_⟩
  · rcases hty with h | h | h | h | h | h | h <;> simp [h, plainTy]
  · have := hstop _ hs
    rcases hty with h | h | h | h | h | h | h <;> simp [h, stopSeq] at this

theorem CRegexp.types {r : CRegexp} (h : r.WF) : ∀ t ∈ r.lv, t.type = .REGEXP ∨ t.type = .FWD_SLASH ∨ t.type = .REGEXP_FLAGS := by
  rcases r with ⟨p, _ | ⟨s, g⟩⟩
  · have h1 : p.type = .REGEXP := h.1
    rw [CRegexp.lv_none]; simp [h1]
  · obtain ⟨h1, h2⟩ := h
    obtain ⟨h2, h3⟩ := h2 s g rfl
    have h1 : p.type = _ := h1
    rw [CRegexp.lv_some]; simp [h1, h2, h3]

theorem CRegexp.tight {stop : TokType → Prop} (hstop : ∀ t, stop t → stopSeq t) {r : CRegexp} (h : r.WF) : Tight stop r.lv := by
  refine .plain fun t ht => ?_
  have hty := CRegexp.types h t ht
  refine ⟨?_, fun hs => ?_⟩
  · rcases hty with h | h | h <;> simp [h, plainTy]
  · have := hstop _ hs
    rcases hty with h | h | h <;> simp [h, stopSeq] at this

theorem isNameTok.isPlain {t : Tok} (h : isNameTok t) : plainTy t.type := by
  rcases h with h | h | h | h <;> simp [h, plainTy]

theorem CAttr.tight {a : CAttr} (h : a.WF) : Tight noStop a.toTree.leaves := by
  refine .plain fun t ht => ⟨?_, id⟩
  rcases a with ⟨_ | ⟨s, g⟩, i⟩
  · simp [CAttr.toTree, PTree.leaves, PTree.leavesL] at ht
    subst ht
    exact isNameTok.isPlain h.1
  · obtain ⟨h1, h2⟩ := h
    obtain ⟨h2, h3⟩ := h2 s g rfl
    simp [CAttr.toTree, PTree.leaves, PTree.leavesL] at ht
    rcases ht with rfl | rfl | rfl
    · exact isNameTok.isPlain h2
    · simp [h3, plainTy]
    · exact isNameTok.isPlain h1

mutual
theorem CExpr.tight : ∀ e : CExpr, e.WF → Tight noStop e.lv
  | .basic a op r, h => by
    obtain ⟨h1, h2, h3⟩ := h
    have : (CExpr.basic a op r).lv = a.toTree.leaves ++ op :: r.lv := by
      simp [CExpr.lv, CExpr.toTree, PTree.leaves, PTree.leavesL]
    rw [this]
    refine (CAttr.tight h1).append (.cons (delta_plain ?_) id (CRegexp.tight (fun _ h => h.elim) h3))
    rcases h2 with h2 | h2 <;> simp [h2, plainTy]
  | .group lp e rp, h => by
    obtain ⟨h1, h2, h3⟩ := h
    have : (CExpr.group lp e rp).lv = lp :: (e.lv ++ [rp]) := by
      simp [CExpr.lv, CExpr.toTree, PTree.leaves, PTree.leavesL]
    rw [this]
    exact Tight.wrap (by simp [delta, h1]) (by simp [delta, h3]) id (CExpr.tight e h2)
  | .or e rest, h => by
    obtain ⟨h1, -, -, h4⟩ := h
    have : (CExpr.or e rest).lv = e.lv ++ PTree.leavesL rest.forest := by
      simp [CExpr.lv, CExpr.toTree, PTree.leaves, PTree.leavesL]
    rw [this]
    exact (CExpr.tight e h1).append (CTail.tight rest .OR _ trivial h4)
  | .and e rest, h => by
    obtain ⟨h1, -, -, -, h4⟩ := h
    have : (CExpr.and e rest).lv = e.lv ++ PTree.leavesL rest.forest := by
      simp [CExpr.lv, CExpr.toTree, PTree.leaves, PTree.leavesL]
    rw [this]
    exact (CExpr.tight e h1).append (CTail.tight rest .AND _ trivial h4)
  | .not b e, h => by
    obtain ⟨h1, h2⟩ := h
    have : (CExpr.not b e).lv = b :: e.lv := by
      simp [CExpr.lv, CExpr.toTree, PTree.leaves, PTree.leavesL]
    rw [this]
    exact .cons (by simp [delta, h1]) id (CExpr.tight e h2)
theorem CTail.tight : ∀ (t : CTail) (op : TokType) (no : Rule), plainTy op → t.WF op no → Tight noStop (PTree.leavesL t.forest)
  | .nil, _, _, _, _ => by simp only [CTail.forest, PTree.leavesL]; exact .nil
  | .cons o e rest, op, no, hop, h => by
    obtain ⟨g1, g2, -, g4⟩ := h
    have : PTree.leavesL (CTail.cons o e rest).forest = o :: (e.lv ++ PTree.leavesL rest.forest) := by
      simp [CExpr.lv, CTail.forest, PTree.leaves, PTree.leavesL]
    rw [this]
    exact .cons (delta_plain (by rw [g1]; exact hop)) id ((CExpr.tight e g2).append (CTail.tight rest op no hop g4))
end

theorem exprLv_tight {e : Option CExpr} (h : ∀ x, e = some x → x.WF) : Tight noStop (exprLv e) := by
  cases e with
  | none => simp only [exprLv, optExpr, PTree.leavesL]; exact .nil
  | some e =>
    have : exprLv (some e) = e.lv := by simp [exprLv, optExpr, PTree.leavesL, PTree.leaves]
    rw [this]; exact e.tight (h e rfl)

mutual
theorem CQ.tight : ∀ c : CQ, c.WF → Tight stopDisj c.lv ∧ (c.rule ≠ .query_disjunction → Tight stopSeq c.lv)
  | .implicit r q, h => by
    have : Tight stopSeq (CQ.implicit r q).lv := by
      rw [lv_implicit]
      exact (CRegexp.tight (fun _ h => h) h.1).append (quant_tight (fun _ h => h) h.2)
    exact ⟨this.mono fun _ h => .inr h, fun _ => this⟩
  | .segment lb e rb q, h => by
    obtain ⟨h1, h2, h3, h4⟩ := h
    have : Tight stopSeq (CQ.segment lb e rb q).lv := by
      rw [lv_segment]
      have := (Tight.wrap (stop := stopSeq) (lp := lb) (rp := rb) (by simp [delta, h1]) (by simp [delta, h3]) (by simp [stopSeq, h1])
        (exprLv_tight h2)).append (quant_tight (fun _ h => h) h4)
      simpa using this
    exact ⟨this.mono fun _ h => .inr h, fun _ => this⟩
  | .group lp c rp q, h => by
    obtain ⟨h1, h2, h3, h4, h5⟩ := h
    have : Tight stopSeq (CQ.group lp c rp q).lv := by
      rw [lv_group]
      have := (Tight.wrap (stop := stopSeq) (lp := lp) (rp := rp) (by simp [delta, h1]) (by simp [delta, h4]) (by simp [stopSeq, h1])
        (CQ.tight c h2).1).append (quant_tight (fun _ h => h) h5)
      simpa using this
    exact ⟨this.mono fun _ h => .inr h, fun _ => this⟩
  | .seq f rest, h => by
    obtain ⟨h1, h2, h3⟩ := h
    have : Tight stopSeq (CQ.seq f rest).lv := by
      have e : (CQ.seq f rest).lv = f.lv ++ PTree.leavesL rest.forest := by simp [CQ.lv, CQ.toTree, PTree.leaves, PTree.leavesL]
      rw [e]
      exact ((CQ.tight f h1).2 (by rcases h2 with h | h <;> simp [h])).append (CQTail.tight_seq rest h3)
    exact ⟨this.mono fun _ h => .inr h, fun _ => this⟩
  | .disj f rest, h => by
    obtain ⟨h1, h2, h3, h4⟩ := h
    refine ⟨?_, fun h => absurd rfl h⟩
    have e : (CQ.disj f rest).lv = f.lv ++ PTree.leavesL rest.forest := by simp [CQ.lv, CQ.toTree, PTree.leaves, PTree.leavesL]
    rw [e]
    exact (CQ.tight f h1).1.append (CQTail.tight_disj rest h4)
theorem CQTail.tight_seq : ∀ t : CQTail, t.WFseq → Tight stopSeq (PTree.leavesL t.forest)
  | .nil, _ => by simp only [CQTail.forest, PTree.leavesL]; exact .nil
  | .cons sep c rest, h => by
    obtain ⟨rfl, g2, g3, g4⟩ := h
    have : PTree.leavesL (CQTail.cons none c rest).forest = c.lv ++ PTree.leavesL rest.forest := by
      simp [CQ.lv, CQTail.forest, optLeaf, PTree.leaves, PTree.leavesL]
    rw [this]
    exact ((CQ.tight c g2).2 (by rcases g3 with h | h <;> simp [h])).append (CQTail.tight_seq rest g4)
theorem CQTail.tight_disj : ∀ t : CQTail, t.WFdisj → Tight stopDisj (PTree.leavesL t.forest)
  | .nil, _ => by simp only [CQTail.forest, PTree.leavesL]; exact .nil
  | .cons sep c rest, h => by
    obtain ⟨⟨o, rfl, ho⟩, g2, g3, g4⟩ := h
    have : PTree.leavesL (CQTail.cons (some o) c rest).forest = o :: (c.lv ++ PTree.leavesL rest.forest) := by
      simp [CQ.lv, CQTail.forest, optLeaf, PTree.leaves, PTree.leavesL]
    rw [this]
    exact .cons (by simp [delta, ho]) (by simp [stopDisj, ho]) ((CQ.tight c g2).1.append (CQTail.tight_disj rest g4))
end

/-! ### Items of a sequence -/

/-- What may come after an item: nothing, or a token that does not belong to it. -/
def Follow (r : List Tok) : Prop := ∀ t, r.head? = some t → t.type ≠ .FWD_SLASH ∧ t.type ≠ .Q_ONE_OR_MORE ∧
  t.type ≠ .Q_ZERO_OR_MORE ∧ t.type ≠ .Q_ZERO_OR_ONE ∧ t.type ≠ .L_CURLY_BRACKET

theorem quantLv_sym (t : Tok) : quantLv (some (.sym t)) = [t] := by
  simp [quantLv, optQuant, PTree.leavesL, PTree.leaves, CQuant.forest]
theorem quantLv_exactly (lb n rb : Tok) : quantLv (some (.exactly lb n rb)) = [lb, n, rb] := by
  simp [quantLv, optQuant, PTree.leavesL, PTree.leaves, CQuant.forest]
theorem quantLv_range (lb c rb : Tok) (n m : Option Tok) :
    quantLv (some (.range lb n c m rb)) = lb :: (n.toList ++ c :: (m.toList ++ [rb])) := by
  cases n <;> cases m <;> simp [quantLv, optQuant, PTree.leavesL, PTree.leaves, CQuant.forest, optLeaf]

theorem quantLv_cons {q : CQuant} (h : q.WF) : ∃ t ts, quantLv (some q) = t :: ts ∧ (t.type = .Q_ONE_OR_MORE ∨
    t.type = .Q_ZERO_OR_MORE ∨ t.type = .Q_ZERO_OR_ONE ∨ t.type = .L_CURLY_BRACKET) := by
  cases q with
  | sym t =>
    refine ⟨t, [], quantLv_sym t, ?_⟩
    rcases h with h | h | h <;> simp [h]
  | exactly lb n rb => exact ⟨_, _, quantLv_exactly lb n rb, by simp [h.1]⟩
  | range lb n c m rb => exact ⟨_, _, quantLv_range lb c rb n m, by simp [h.1]⟩

theorem quant_split_some {q q' : CQuant} (h : q.WF) (h' : q'.WF) {r r' : List Tok}
    (e : quantLv (some q) ++ r = quantLv (some q') ++ r') : quantLv (some q) = quantLv (some q') := by
  cases q with
  | sym t =>
    cases q' with
    | sym t' =>
      rw [quantLv_sym, quantLv_sym] at *
      simp only [List.cons_append, List.nil_append, List.cons.injEq] at e
      rw [e.1]
    | exactly lb n rb =>
      rw [quantLv_sym, quantLv_exactly] at e
      simp only [List.cons_append, List.cons.injEq] at e
      obtain ⟨rfl, -⟩ := e
      have h1 := h'.1
      rcases h with h | h | h <;> simp [h] at h1
    | range lb n c m rb =>
      rw [quantLv_sym, quantLv_range] at e
      simp only [List.cons_append, List.cons.injEq] at e
      obtain ⟨rfl, -⟩ := e
      have h1 := h'.1
      rcases h with h | h | h <;> simp [h] at h1
  | exactly lb n rb =>
    obtain ⟨h1, h2, h3⟩ := h
    cases q' with
    | sym t' =>
      rw [quantLv_sym, quantLv_exactly] at e
      simp only [List.cons_append, List.cons.injEq] at e
      obtain ⟨rfl, -⟩ := e
      rcases h' with h | h | h <;> simp [h] at h1
    | exactly lb' n' rb' =>
      rw [quantLv_exactly, quantLv_exactly] at *
      simp only [List.cons_append, List.nil_append, List.cons.injEq] at e
      obtain ⟨rfl, rfl, rfl, -⟩ := e
      rfl
    | range lb' n' c' m' rb' =>
      obtain ⟨g1, g2, g3, g4, g5, g6⟩ := h'
      rw [quantLv_exactly, quantLv_range] at e
      cases n' with
      | none =>
        simp only [Option.toList, List.cons_append, List.nil_append, List.cons.injEq] at e
        obtain ⟨rfl, rfl, -⟩ := e
        simp [g2] at h2
      | some n' =>
        simp only [Option.toList, List.cons_append, List.nil_append, List.cons.injEq] at e
        obtain ⟨rfl, rfl, rfl, -⟩ := e
        simp [g2] at h3
  | range lb n c m rb =>
    obtain ⟨h1, h2, h3, h4, h5, h6⟩ := h
    cases q' with
    | sym t' =>
      rw [quantLv_sym, quantLv_range] at e
      simp only [List.cons_append, List.cons.injEq] at e
      obtain ⟨rfl, -⟩ := e
      rcases h' with h | h | h <;> simp [h] at h1
    | exactly lb' n' rb' =>
      obtain ⟨g1, g2, g3⟩ := h'
      rw [quantLv_exactly, quantLv_range] at e
      cases n with
      | none =>
        simp only [Option.toList, List.cons_append, List.nil_append, List.cons.injEq] at e
        obtain ⟨rfl, rfl, -⟩ := e
        simp [g2] at h2
      | some n =>
        simp only [Option.toList, List.cons_append, List.nil_append, List.cons.injEq] at e
        obtain ⟨rfl, rfl, rfl, -⟩ := e
        simp [g3] at h2
    | range lb' n' c' m' rb' =>
      obtain ⟨g1, g2, g3, g4, g5, g6⟩ := h'
      rw [quantLv_range, quantLv_range] at *
      cases n with
      | none =>
        cases n' with
        | none =>
          cases m with
          | none => simp at h6
          | some m =>
            cases m' with
            | none => simp at g6
            | some m' =>
              simp only [Option.toList, List.cons_append, List.nil_append, List.cons.injEq] at e
              obtain ⟨rfl, rfl, rfl, rfl, -⟩ := e
              rfl
        | some n' =>
          have := g4 _ rfl
          simp only [Option.toList, List.cons_append, List.nil_append, List.cons.injEq] at e
          obtain ⟨rfl, rfl, -⟩ := e
          simp [h2] at this
      | some n =>
        have hn := h4 _ rfl
        cases n' with
        | none =>
          simp only [Option.toList, List.cons_append, List.nil_append, List.cons.injEq] at e
          obtain ⟨rfl, rfl, -⟩ := e
          simp [g2] at hn
        | some n' =>
          cases m with
          | none =>
            cases m' with
            | none =>
              simp only [Option.toList, List.cons_append, List.nil_append, List.cons.injEq] at e
              obtain ⟨rfl, rfl, rfl, rfl, -⟩ := e
              rfl
            | some m' =>
              have := g5 _ rfl
              simp only [Option.toList, List.cons_append, List.nil_append, List.cons.injEq] at e
              obtain ⟨rfl, rfl, rfl, rfl, -⟩ := e
              simp [h3] at this
          | some m =>
            have hm := h5 _ rfl
            cases m' with
            | none =>
              simp only [Option.toList, List.cons_append, List.nil_append, List.cons.injEq] at e
              obtain ⟨rfl, rfl, rfl, rfl, -⟩ := e
              simp [g3] at hm
            | some m' =>
              simp only [Option.toList, List.cons_append, List.nil_append, List.cons.injEq] at e
              obtain ⟨rfl, rfl, rfl, rfl, rfl, -⟩ := e
              rfl

theorem quantLv_none : quantLv none = [] := by simp [quantLv, optQuant, PTree.leavesL]

theorem quant_split {q q' : Option CQuant} (h : optQuantWF q) (h' : optQuantWF q') {r r' : List Tok} (hr : Follow r) (hr' : Follow r')
    (e : quantLv q ++ r = quantLv q' ++ r') : quantLv q = quantLv q' := by
  cases q with
  | none =>
    cases q' with
    | none => rfl
    | some q' =>
      obtain ⟨t, ts, e1, e2⟩ := quantLv_cons (h' _ rfl)
      rw [e1, quantLv_none] at e
      have := hr t (by rw [List.nil_append] at e; rw [e]; rfl)
      simp_all
  | some q =>
    cases q' with
    | none =>
      obtain ⟨t, ts, e1, e2⟩ := quantLv_cons (h _ rfl)
      rw [e1, quantLv_none] at e
      have := hr' t (by rw [List.nil_append] at e; rw [← e]; rfl)
      simp_all
    | some q' => exact quant_split_some (h _ rfl) (h' _ rfl) e

/-- A single query or a group. -/
def CQ.isItem (c : CQ) : Prop := c.rule = .query_simple ∨ c.rule = .query_group

theorem follow_quant {q : Option CQuant} (h : optQuantWF q) {r : List Tok} (hr : Follow r) :
    ∀ t, (quantLv q ++ r).head? = some t → t.type ≠ .FWD_SLASH := by
  intro t ht
  cases q with
  | none => rw [quantLv_none, List.nil_append] at ht; exact (hr t ht).1
  | some q =>
    obtain ⟨t', ts, e1, e2⟩ := quantLv_cons (h _ rfl)
    rw [e1] at ht
    simp only [List.cons_append, List.head?_cons, Option.some.injEq] at ht
    subst ht
    rcases e2 with h | h | h | h <;> simp [h]

theorem regexp_split {c c' : CRegexp} (h : c.WF) (h' : c'.WF) {r r' : List Tok}
    (hr : ∀ t, r.head? = some t → t.type ≠ .FWD_SLASH) (hr' : ∀ t, r'.head? = some t → t.type ≠ .FWD_SLASH)
    (e : c.lv ++ r = c'.lv ++ r') : c.lv = c'.lv := by
  rcases c with ⟨p, _ | ⟨s, g⟩⟩ <;> rcases c' with ⟨p', _ | ⟨s', g'⟩⟩
  · rw [CRegexp.lv_none, CRegexp.lv_none] at *
    simp only [List.cons_append, List.nil_append, List.cons.injEq] at e
    rw [e.1]
  · rw [CRegexp.lv_none, CRegexp.lv_some] at e
    simp only [List.cons_append, List.nil_append, List.cons.injEq] at e
    obtain ⟨rfl, rfl⟩ := e
    exact absurd (h'.2 s' g' rfl).1 (hr s' rfl)
  · rw [CRegexp.lv_none, CRegexp.lv_some] at e
    simp only [List.cons_append, List.nil_append, List.cons.injEq] at e
    obtain ⟨rfl, rfl⟩ := e
    exact absurd (h.2 s g rfl).1 (hr' s rfl)
  · rw [CRegexp.lv_some, CRegexp.lv_some] at *
    simp only [List.cons_append, List.nil_append, List.cons.injEq] at e
    obtain ⟨rfl, rfl, rfl, -⟩ := e
    rfl

/-- The first token tells what kind of item it is. -/
theorem item_head {c : CQ} (h : c.WF) (hi : c.isItem) : ∃ t ts, c.lv = t :: ts ∧
    ((t.type = .REGEXP ∧ ∃ r q, c = .implicit r q) ∨ (t.type = .L_SQUARE_BRACKET ∧ ∃ lb e rb q, c = .segment lb e rb q) ∨
     (t.type = .L_PAREN ∧ ∃ lp m rp q, c = .group lp m rp q)) := by
  cases c with
  | implicit r q =>
    rcases r with ⟨p, _ | ⟨s, g⟩⟩
    · exact ⟨p, quantLv q, by rw [lv_implicit, CRegexp.lv_none]; rfl, .inl ⟨h.1.1, _, _, rfl⟩⟩
    · exact ⟨p, s :: g :: quantLv q, by rw [lv_implicit, CRegexp.lv_some]; rfl, .inl ⟨h.1.1, _, _, rfl⟩⟩
  | segment lb e rb q => exact ⟨_, _, lv_segment lb rb e q, .inr (.inl ⟨h.1, _, _, _, _, rfl⟩)⟩
  | group lp m rp q => exact ⟨_, _, lv_group lp rp m q, .inr (.inr ⟨h.1, _, _, _, _, rfl⟩)⟩
  | seq f rest => simp [CQ.isItem, CQ.rule] at hi
  | disj f rest => simp [CQ.isItem, CQ.rule] at hi

/-- The tokens of an item are determined by what they are the beginning of. -/
theorem item_split {c c' : CQ} (h : c.WF) (h' : c'.WF) (hi : c.isItem) (hi' : c'.isItem) {r r' : List Tok} (hr : Follow r)
    (hr' : Follow r') (e : c.lv ++ r = c'.lv ++ r') : c.lv = c'.lv ∧ c.rule = c'.rule := by
  obtain ⟨t, ts, e1, hk⟩ := item_head h hi
  obtain ⟨t', ts', e1', hk'⟩ := item_head h' hi'
  have ht : t = t' := by
    rw [e1, e1'] at e
    simp only [List.cons_append, List.cons.injEq] at e
    exact e.1
  subst ht
  rcases hk with ⟨ht, x, q, rfl⟩ | ⟨ht, lb, x, rb, q, rfl⟩ | ⟨ht, lp, m, rp, q, rfl⟩ <;>
    rcases hk' with ⟨ht', x', q', rfl⟩ | ⟨ht', lb', x', rb', q', rfl⟩ | ⟨ht', lp', m', rp', q', rfl⟩ <;>
    first
    | (exfalso; rw [ht] at ht'; cases ht'; done)
    | skip
  · refine ⟨?_, rfl⟩
    rw [lv_implicit, lv_implicit] at *
    rw [List.append_assoc, List.append_assoc] at e
    have e2 := regexp_split h.1 h'.1 (follow_quant h.2 hr) (follow_quant h'.2 hr') e
    rw [e2] at e ⊢
    rw [quant_split h.2 h'.2 hr hr' (List.append_cancel_left e)]
  · refine ⟨?_, rfl⟩
    obtain ⟨h1, h2, h3, h4⟩ := h
    obtain ⟨g1, g2, g3, g4⟩ := h'
    rw [lv_segment, lv_segment] at *
    simp only [List.cons_append, List.append_assoc, List.cons.injEq] at e
    obtain ⟨rfl, e⟩ := e
    have e2 := tight_unique (exprLv_tight h2) (exprLv_tight g2) (.inr (by simp [delta, h3])) (.inr (by simp [delta, g3])) e
    rw [e2] at e ⊢
    have e := List.append_cancel_left e
    simp only [List.cons.injEq] at e
    obtain ⟨rfl, e''⟩ := e
    rw [quant_split h4 g4 hr hr' e'']
  · refine ⟨?_, rfl⟩
    obtain ⟨h1, h2, h3, h4, h5⟩ := h
    obtain ⟨g1, g2, g3, g4, g5⟩ := h'
    rw [lv_group, lv_group] at *
    simp only [List.cons_append, List.append_assoc, List.cons.injEq] at e
    obtain ⟨rfl, e⟩ := e
    have e2 := tight_unique (m.tight h2).1 (m'.tight g2).1 (.inr (by simp [delta, h4])) (.inr (by simp [delta, g4])) e
    rw [e2] at e ⊢
    have e := List.append_cancel_left e
    simp only [List.cons.injEq] at e
    obtain ⟨rfl, e''⟩ := e
    rw [quant_split h5 g5 hr hr' e'']

/-- What may come after a whole sequence. -/
def SeqEnd (r : List Tok) : Prop := ∀ t, r.head? = some t → t.type ≠ .REGEXP ∧ t.type ≠ .L_SQUARE_BRACKET ∧ t.type ≠ .L_PAREN ∧
  t.type ≠ .FWD_SLASH ∧ t.type ≠ .Q_ONE_OR_MORE ∧
  t.type ≠ .Q_ZERO_OR_MORE ∧ t.type ≠ .Q_ZERO_OR_ONE ∧ t.type ≠ .L_CURLY_BRACKET

theorem SeqEnd.follow {r : List Tok} (h : SeqEnd r) : Follow r := fun t ht =>
  ⟨(h t ht).2.2.2.1, (h t ht).2.2.2.2.1, (h t ht).2.2.2.2.2.1, (h t ht).2.2.2.2.2.2.1, (h t ht).2.2.2.2.2.2.2⟩

/-- Tokens of a list of items. -/
def itemsLv (l : List CQ) : List Tok := l.flatMap CQ.lv

theorem items_follow {l : List CQ} (h : ∀ c ∈ l, c.WF ∧ c.isItem) {r : List Tok} (hr : SeqEnd r) : Follow (itemsLv l ++ r) := by
  cases l with
  | nil => simpa [itemsLv] using hr.follow
  | cons c l =>
    obtain ⟨t, ts, e, hk⟩ := item_head (h c (by simp)).1 (h c (by simp)).2
    intro x hx
    simp only [itemsLv, List.flatMap_cons, e, List.cons_append, List.head?_cons, Option.some.injEq] at hx
    subst hx
    rcases hk with ⟨h, -⟩ | ⟨h, -⟩ | ⟨h, -⟩ <;> simp [h]

/-- The tokens of a sequence determine its items. -/
theorem items_split : ∀ {l l' : List CQ}, (∀ c ∈ l, c.WF ∧ c.isItem) → (∀ c ∈ l', c.WF ∧ c.isItem) → ∀ {r r' : List Tok}, SeqEnd r →
    SeqEnd r' → itemsLv l ++ r = itemsLv l' ++ r' → l.map (fun c => (c.lv, c.rule)) = l'.map (fun c => (c.lv, c.rule))
  | [], [], _, _, _, _, _, _, _ => rfl
  | [], c :: l', _, h', r, r', hr, _, e => by
    obtain ⟨t, ts, e1, hk⟩ := item_head (h' c (by simp)).1 (h' c (by simp)).2
    simp only [itemsLv, List.flatMap_cons, List.flatMap_nil, e1, List.cons_append, List.nil_append] at e
    have := hr t (by rw [e]; rfl)
    rcases hk with ⟨h, -⟩ | ⟨h, -⟩ | ⟨h, -⟩ <;> simp [h] at this
  | c :: l, [], h, _, r, r', _, hr', e => by
    obtain ⟨t, ts, e1, hk⟩ := item_head (h c (by simp)).1 (h c (by simp)).2
    simp only [itemsLv, List.flatMap_cons, List.flatMap_nil, e1, List.cons_append, List.nil_append] at e
    have := hr' t (by rw [← e]; rfl)
    rcases hk with ⟨h, -⟩ | ⟨h, -⟩ | ⟨h, -⟩ <;> simp [h] at this
  | c :: l, c' :: l', h, h', r, r', hr, hr', e => by
    have hl : ∀ x ∈ l, x.WF ∧ x.isItem := fun x hx => h x (by simp [hx])
    have hl' : ∀ x ∈ l', x.WF ∧ x.isItem := fun x hx => h' x (by simp [hx])
    have hc := h c (by simp)
    have hc' := h' c' (by simp)
    have e2 : c.lv ++ (itemsLv l ++ r) = c'.lv ++ (itemsLv l' ++ r') := by
      simpa [itemsLv, List.append_assoc] using e
    obtain ⟨e3, e4⟩ := item_split hc.1 hc'.1 hc.2 hc'.2 (items_follow hl hr) (items_follow hl' hr') e2
    rw [e3] at e2
    simp only [List.map_cons, e3, e4, items_split hl hl' hr hr' (List.append_cancel_left e2)]

end Fcsql
