/-
Expressions in brackets: `[a]` and the expression `a`.
-/
import Verif.Props.Grouping
import Verif.Proofs.Beaten

set_option autoImplicit false
set_option linter.unusedSimpArgs false

namespace Fcsql

attribute [local irreducible] parseQuery

theorem snoc_cases {α : Type} (l : List α) : l = [] ∨ ∃ l' x, l = l' ++ [x] := by
  rcases List.eq_nil_or_concat l with h | ⟨l', x, h⟩
  · exact .inl h
  · exact .inr ⟨l', x, by rw [h, List.concat_eq_append]⟩

/-- The text before the last token. -/
theorem Laid.unsnoc {T : List (TokType × PyStr)} {q : PyStr} (h : Laid T q) : ∀ {ts : List (TokType × PyStr)} {ty : TokType} {w : PyStr},
    T = ts ++ [(ty, w)] → ∃ a ws, q = a ++ (w ++ ws) ∧ Laid ts a ∧ ∀ c ∈ ws, isWs c = true := by
  induction h with
  | nil h => intro ts ty w e; simp at e
  | @cons ws w' rest ty' ts' h1 h2 h3 h4 ih =>
    intro ts ty w e
    cases ts with
    | nil =>
      simp only [List.nil_append, List.cons.injEq, Prod.mk.injEq] at e
      obtain ⟨⟨rfl, rfl⟩, rfl⟩ := e
      refine ⟨ws, rest, rfl, .nil h1, ?_⟩
      cases h3 with
      | nil h => exact h
    | cons p ts =>
      simp only [List.cons_append, List.cons.injEq] at e
      obtain ⟨rfl, rfl⟩ := e
      obtain ⟨a, ws2, e, k1, k2⟩ := ih rfl
      refine ⟨ws ++ (w' ++ a), ws2, by rw [e]; simp, .cons h1 h2 k1 ?_, k2⟩
      intro c hc
      cases a with
      | nil => simp at hc
      | cons d a => exact h4 c (by rw [e]; simpa using hc)

/-- The text of an expression and its node. -/
def ExprOf (rt : Runtime) (cfg : Config) (a : PyStr) (n : Node) : Prop :=
  ∃ (ts : List (TokType × PyStr)) (e : CExpr), Laid ts a ∧ e.WF ∧ e.lv = bare ts ∧ e.Best ∧ e.Denotes rt.toPyRuntime cfg n

def lsq : Tok := Tok.ofWhat (.L_SQUARE_BRACKET, py!"[")
def rsq : Tok := Tok.ofWhat (.R_SQUARE_BRACKET, py!"]")

theorem laid_bracket {ts : List (TokType × PyStr)} {a : PyStr} (h : Laid ts a) :
    Laid ((.L_SQUARE_BRACKET, py!"[") :: (ts ++ [(.R_SQUARE_BRACKET, py!"]")])) (py!"[" ++ a ++ py!"]") := by
  have := (Laid.one_cons (ty := .L_SQUARE_BRACKET) (w := py!"[") (.fixed (by decide)) (by simp [Sticks]) h).append
    (Laid.one (ty := .R_SQUARE_BRACKET) (w := py!"]") (.fixed (by decide)))
    (by simp only [List.head?_cons, Option.some.injEq]; rintro c rfl; exact free_of (by decide))
  exact this

theorem denotes_not_wildcard {rt : PyRuntime} {cfg : Config} {e : CExpr} {n : Node} (h : e.Denotes rt cfg n) : n.kind ≠ .wildcard := by
  cases e with
  | basic a op r => obtain ⟨o, v, fl, -, -, rfl⟩ := h; simp [Node.kind]
  | group lp e rp => obtain ⟨m, -, rfl⟩ := h; simp [Node.kind]
  | or f t => obtain ⟨m, ms, -, -, rfl⟩ := h; simp [Node.kind]
  | and f t => obtain ⟨m, ms, -, -, rfl⟩ := h; simp [Node.kind]
  | not b e => obtain ⟨m, -, rfl⟩ := h; simp [Node.kind]

theorem bracket_parse {rt : Runtime} {cfg : Config} (hc : cfg.enableSourceLocations = false) {a : PyStr} {n : Node} (h : ExprOf rt cfg a n) :
    (parseQuery rt cfg (py!"[" ++ a ++ py!"]")).1 = .ok (.mk (.segment 1 1) [n] none) := by
  obtain ⟨ts, e, h1, h2, h3, h4, h5⟩ := h
  rw [parse_laid rt hc (laid_bracket h1)]
  left
  have wf : (CQ.segment lsq (some e) rsq none).WF := ⟨rfl, by rintro x ⟨⟩; exact h2, rfl, by simp [optQuantWF]⟩
  refine ⟨_, wf, ?_, best_segment wf h4, (by rintro x h; cases h), n, 1, 1, h5, ⟨rfl, rfl⟩, by rw [span_none hc]⟩
  rw [lv_segment, exprLv_some, h3, quantLv_none]
  simp [lsq, rsq]

/-- A token text with a given first character. -/
theorem literal_head {w : PyStr} {c : Nat} {s : PyStr} (h : TokenText .REGEXP w) (e : w = c :: s) : c = 34 ∨ c = 39 := by
  cases h with
  | fixed h => simp [fixedTokens] at h
  | @literal w q ps h =>
    obtain ⟨hq, -, hw⟩ := h
    rw [hw] at e
    simp [litText] at e
    rw [← e.1]; exact hq

/-- The content of a segment's brackets. -/
theorem bracket_laid {rt : Runtime} {cfg : Config} (hc : cfg.enableSourceLocations = false) {a : PyStr} {n : Node} {mn mx : Int}
    (h : (parseQuery rt cfg (py!"[" ++ a ++ py!"]")).1 = .ok (.mk (.segment mn mx) [n] none)) (hn : n.kind ≠ .wildcard) :
    mn = 1 ∧ mx = 1 ∧ ExprOf rt cfg a n := by
  obtain ⟨ts, hl, x, c1, c2, c3, c4, c5⟩ := main_of_parse hc h (by simp [Node.kind])
  have hx : x.rule = .query_simple := by
    rcases CQ.denotes_kind c5 with ⟨hr, -⟩ | ⟨-, a, b, hk⟩ | ⟨-, hk⟩ | ⟨-, hk⟩
    · exact hr
    all_goals simp [Node.kind] at hk
  -- the first token
  have hfirst : ∀ {ty : TokType} {w : PyStr} {r : List (TokType × PyStr)}, ts = (ty, w) :: r → ∃ s, w = 91 :: s := by
    intro ty w r e
    subst e
    generalize hq : py!"[" ++ a ++ py!"]" = q at hl
    cases hl with
    | @cons ws _ rest _ _ h1 h2 h3 h4 =>
      cases ws with
      | cons d ws =>
        simp at hq
        have := h1 d (by simp)
        rw [← hq.1] at this
        simp [isWs_eq, inRanges, wsRanges] at this
      | nil =>
        cases w with
        | nil =>
          exact absurd rfl (h2.ne_nil)
        | cons d w =>
          simp at hq
          exact ⟨w, by rw [hq.1]⟩
  cases x with
  | implicit r q =>
    exfalso
    obtain ⟨w1, w2⟩ := c1
    rw [lv_implicit] at c2
    obtain ⟨p, tl, ep, hp⟩ : ∃ p tl, r.lv = p :: tl ∧ p.type = .REGEXP := by
      rcases r with ⟨p, _ | ⟨s, g⟩⟩
      · exact ⟨p, _, CRegexp.lv_none p, w1.1⟩
      · exact ⟨p, _, CRegexp.lv_some p s g, w1.1⟩
    cases ts with
    | nil => rw [ep] at c2; simp [bare] at c2
    | cons t ts =>
      rcases t with ⟨ty, w⟩
      obtain ⟨s, hs⟩ := hfirst rfl
      rw [ep] at c2
      simp only [bare, List.map_cons, List.cons_append, List.cons.injEq] at c2
      have hty : ty = .REGEXP := by rw [c2.1] at hp; exact hp
      subst hty
      have := literal_head (hl.texts (.REGEXP, w) (by simp)) hs
      omega
  | segment lb e rb q =>
    obtain ⟨w1, w2, w3, w4⟩ := c1
    rw [lv_segment] at c2
    obtain rfl := no_quant (u := lb :: (exprLv e ++ [rb])) hl (c := 93) (List.getLast?_concat ..) (by decide) (by decide) w4 (by simpa using c2)
    obtain ⟨m, mn', mx', d1, ⟨rfl, rfl⟩, d3⟩ := c5
    simp only [Node.mk.injEq, Kind.segment.injEq, List.cons.injEq, and_true] at d3
    obtain ⟨⟨rfl, rfl⟩, rfl, -⟩ := d3
    refine ⟨rfl, rfl, ?_⟩
    cases e with
    | none => rw [show optDenotes rt.toPyRuntime cfg lb rb none n = (n = _) from rfl] at d1; rw [d1] at hn; exact absurd rfl hn
    | some e =>
      rw [quantLv_none, exprLv_some] at c2
      cases ts with
      | nil => simp [bare] at c2
      | cons t ts =>
        rcases t with ⟨ty, w⟩
        obtain ⟨s, rfl⟩ := hfirst rfl
        simp only [bare, List.map_cons, List.cons.injEq] at c2
        obtain ⟨c2, c3'⟩ := c2
        have hty : ty = .L_SQUARE_BRACKET := by rw [c2] at w1; exact w1
        subst hty
        have hw : 91 :: s = py!"[" := by
          have := hl.texts _ (List.mem_cons_self ..)
          cases this with
          | fixed h => have : ∀ p ∈ fixedTokens, p.1 = .L_SQUARE_BRACKET → p.2 = py!"[" := by decide
                       exact this _ h rfl
        rw [hw] at hl
        obtain ⟨T', t', rfl⟩ : ∃ T' t', ts = T' ++ [t'] := by
          rcases snoc_cases ts with rfl | ⟨T', t', rfl⟩
          · simp at c3'
          · exact ⟨T', t', rfl⟩
        rw [List.map_append, List.map_singleton] at c3'
        obtain ⟨k1, k2⟩ := List.append_inj' c3' rfl
        simp only [List.cons.injEq, and_true] at k2
        rcases t' with ⟨ty, w⟩
        have hty : ty = .R_SQUARE_BRACKET := by rw [k2] at w3; exact w3
        subst hty
        have hw2 : w = py!"]" := by
          have := hl.texts (.R_SQUARE_BRACKET, w) (by simp)
          cases this with
          | fixed h => have : ∀ p ∈ fixedTokens, p.1 = .R_SQUARE_BRACKET → p.2 = py!"]" := by decide
                       exact this _ h rfl
        subst hw2
        generalize hq : py!"[" ++ a ++ py!"]" = q at hl
        cases hl with
        | @cons ws _ rest _ _ g1 g2 g3 g4 =>
          cases ws with
          | cons d ws =>
            simp at hq
            have := g1 d (by simp)
            rw [← hq.1] at this
            simp [isWs_eq, inRanges, wsRanges] at this
          | nil =>
            simp only [List.cons_append, List.nil_append, List.cons.injEq, true_and] at hq
            obtain ⟨a', ws, e1, g5, g6⟩ := g3.unsnoc rfl
            have : a' = a := by
              rw [← hq] at e1
              rcases snoc_cases ws with rfl | ⟨ws', z, rfl⟩
              · simp only [List.append_nil] at e1
                exact (List.append_inj' e1 rfl).1.symm
              · exfalso
                have hz := g6 z (by simp)
                have : (a ++ [93]).getLast? = (a' ++ (py!"]" ++ (ws' ++ [z]))).getLast? := by rw [← e1]
                rw [← List.append_assoc, ← List.append_assoc, List.getLast?_concat, List.getLast?_concat] at this
                simp only [Option.some.injEq] at this
                subst this
                simp [isWs_eq, inRanges, wsRanges] at hz
            subst this
            exact ⟨T', e, g5, w2 e rfl, k1, c3.expr, d1⟩
  | _ => simp [CQ.rule] at hx

/-! ### A node and tokens determine the syntax -/

theorem CRegexp.same {rt : PyRuntime} {cfg : Config} {r r' : CRegexp} {v v' : PyStr} {fl : Option FlagSet} {u u' : List Tok}
    (h : r.Denotes rt cfg v fl) (h' : r'.Denotes rt cfg v' fl) (e : r.lv ++ u = r'.lv ++ u') : r = r' ∧ u = u' := by
  rcases r with ⟨p, _ | ⟨s, g⟩⟩ <;> rcases r' with ⟨p', _ | ⟨s', g'⟩⟩ <;> simp [CRegexp.lv_none, CRegexp.lv_some] at e ⊢
  · exact e
  · obtain ⟨-, rfl⟩ := h
    obtain ⟨-, _, -, -, h⟩ := h'
    cases h
  · obtain ⟨-, rfl⟩ := h'
    obtain ⟨-, _, -, -, h⟩ := h
    cases h
  · exact ⟨⟨e.1, e.2.1, e.2.2.1⟩, e.2.2.2⟩

theorem CAttr.same {a a' : CAttr} {u u' : List Tok} (h : a.qual.map (fun p => p.1.text) = a'.qual.map (fun p => p.1.text))
    (e : a.toTree.leaves ++ u = a'.toTree.leaves ++ u') : a = a' ∧ u = u' := by
  rcases a with ⟨_ | ⟨q, c⟩, i⟩ <;> rcases a' with ⟨_ | ⟨q', c'⟩, i'⟩ <;> simp [CAttr.lv_none, CAttr.lv_some] at e h ⊢
  · exact e
  · exact ⟨⟨⟨e.1, e.2.1⟩, e.2.2.1⟩, e.2.2.2⟩

theorem CExpr.lv_or (f : CExpr) (t : CTail) : (CExpr.or f t).lv = f.lv ++ PTree.leavesL t.forest := by
  simp [CExpr.lv, CExpr.toTree, PTree.leaves, PTree.leavesL]
theorem CExpr.lv_and (f : CExpr) (t : CTail) : (CExpr.and f t).lv = f.lv ++ PTree.leavesL t.forest := by
  simp [CExpr.lv, CExpr.toTree, PTree.leaves, PTree.leavesL]
theorem CTail.lv_cons (o : Tok) (e : CExpr) (t : CTail) : PTree.leavesL (CTail.cons o e t).forest = o :: (e.lv ++ PTree.leavesL t.forest) := by
  simp [CExpr.lv, CTail.forest, PTree.leaves, PTree.leavesL]

mutual
theorem CExpr.same {rt : PyRuntime} {cfg : Config} : ∀ (e e' : CExpr) (n : Node) (u u' : List Tok), e.Denotes rt cfg n → e'.Denotes rt cfg n →
    e.lv ++ u = e'.lv ++ u' → e = e' ∧ u = u'
  | .basic a op r, e', n, u, u', h, h', eq => by
    obtain ⟨o, v, fl, h1, h2, rfl⟩ := h
    cases e' with
    | basic a' op' r' =>
      obtain ⟨o', v', fl', g1, g2, g3⟩ := h'
      simp only [Node.mk.injEq, Kind.expression.injEq] at g3
      obtain ⟨⟨g3, g4, rfl, rfl, rfl⟩, -⟩ := g3
      rw [CExpr.lv_basic, CExpr.lv_basic] at eq
      simp only [List.append_assoc, List.cons_append] at eq
      obtain ⟨rfl, eq1⟩ := CAttr.same g3 eq
      simp only [List.cons.injEq] at eq1
      obtain ⟨rfl, eq2⟩ := eq1
      obtain ⟨rfl, rfl⟩ := CRegexp.same h2 g2 eq2
      exact ⟨rfl, rfl⟩
    | group lp e rp => obtain ⟨m, -, h⟩ := h'; simp at h
    | or f t => obtain ⟨m, ms, -, -, h⟩ := h'; simp at h
    | and f t => obtain ⟨m, ms, -, -, h⟩ := h'; simp at h
    | not b e => obtain ⟨m, -, h⟩ := h'; simp at h
  | .group lp e rp, e', n, u, u', h, h', eq => by
    obtain ⟨m, h1, rfl⟩ := h
    cases e' with
    | group lp' e' rp' =>
      obtain ⟨m', g1, g⟩ := h'
      simp only [Node.mk.injEq, List.cons.injEq, and_true, true_and] at g
      obtain ⟨rfl, -⟩ := g
      rw [CExpr.lv_group, CExpr.lv_group] at eq
      simp only [List.cons_append, List.append_assoc, List.cons.injEq] at eq
      obtain ⟨rfl, eq1⟩ := eq
      obtain ⟨rfl, eq2⟩ := CExpr.same e e' _ _ _ h1 g1 eq1
      simp only [List.nil_append, List.cons_append, List.cons.injEq] at eq2
      obtain ⟨rfl, rfl⟩ := eq2
      exact ⟨rfl, rfl⟩
    | basic a op r => obtain ⟨_, _, _, -, -, h⟩ := h'; simp at h
    | or f t => obtain ⟨m, ms, -, -, h⟩ := h'; simp at h
    | and f t => obtain ⟨m, ms, -, -, h⟩ := h'; simp at h
    | not b e => obtain ⟨m, -, h⟩ := h'; simp at h
  | .or f t, e', n, u, u', h, h', eq => by
    obtain ⟨m, ms, h1, h2, rfl⟩ := h
    cases e' with
    | or f' t' =>
      obtain ⟨m', ms', g1, g2, g⟩ := h'
      simp only [Node.mk.injEq, List.cons.injEq, true_and] at g
      obtain ⟨⟨rfl, rfl⟩, -⟩ := g
      rw [CExpr.lv_or, CExpr.lv_or, List.append_assoc, List.append_assoc] at eq
      obtain ⟨rfl, eq2⟩ := CExpr.same f f' _ _ _ h1 g1 eq
      obtain ⟨rfl, rfl⟩ := CTail.same t t' _ _ _ h2 g2 eq2
      exact ⟨rfl, rfl⟩
    | basic a op r => obtain ⟨_, _, _, -, -, h⟩ := h'; simp at h
    | group lp e rp => obtain ⟨m, -, h⟩ := h'; simp at h
    | and f t => obtain ⟨m, ms, -, -, h⟩ := h'; simp at h
    | not b e => obtain ⟨m, -, h⟩ := h'; simp at h
  | .and f t, e', n, u, u', h, h', eq => by
    obtain ⟨m, ms, h1, h2, rfl⟩ := h
    cases e' with
    | and f' t' =>
      obtain ⟨m', ms', g1, g2, g⟩ := h'
      simp only [Node.mk.injEq, List.cons.injEq, true_and] at g
      obtain ⟨⟨rfl, rfl⟩, -⟩ := g
      rw [CExpr.lv_and, CExpr.lv_and, List.append_assoc, List.append_assoc] at eq
      obtain ⟨rfl, eq2⟩ := CExpr.same f f' _ _ _ h1 g1 eq
      obtain ⟨rfl, rfl⟩ := CTail.same t t' _ _ _ h2 g2 eq2
      exact ⟨rfl, rfl⟩
    | basic a op r => obtain ⟨_, _, _, -, -, h⟩ := h'; simp at h
    | group lp e rp => obtain ⟨m, -, h⟩ := h'; simp at h
    | or f t => obtain ⟨m, ms, -, -, h⟩ := h'; simp at h
    | not b e => obtain ⟨m, -, h⟩ := h'; simp at h
  | .not b e, e', n, u, u', h, h', eq => by
    obtain ⟨m, h1, rfl⟩ := h
    cases e' with
    | not b' e' =>
      obtain ⟨m', g1, g⟩ := h'
      simp only [Node.mk.injEq, List.cons.injEq, and_true, true_and] at g
      obtain ⟨rfl, -⟩ := g
      rw [CExpr.lv_not, CExpr.lv_not] at eq
      simp only [List.cons_append, List.append_assoc, List.cons.injEq] at eq
      obtain ⟨rfl, eq⟩ := eq
      obtain ⟨rfl, rfl⟩ := CExpr.same e e' _ _ _ h1 g1 eq
      exact ⟨rfl, rfl⟩
    | basic a op r => obtain ⟨_, _, _, -, -, h⟩ := h'; simp at h
    | group lp e rp => obtain ⟨m, -, h⟩ := h'; simp at h
    | or f t => obtain ⟨m, ms, -, -, h⟩ := h'; simp at h
    | and f t => obtain ⟨m, ms, -, -, h⟩ := h'; simp at h
theorem CTail.same {rt : PyRuntime} {cfg : Config} : ∀ (t t' : CTail) (ns : List Node) (u u' : List Tok), t.Denotes rt cfg ns → t'.Denotes rt cfg ns →
    PTree.leavesL t.forest ++ u = PTree.leavesL t'.forest ++ u' → t = t' ∧ u = u'
  | .nil, t', ns, u, u', h, h', eq => by
    have h : ns = [] := h
    subst h
    cases t' with
    | nil => exact ⟨rfl, by simpa [CTail.forest, PTree.leavesL] using eq⟩
    | cons o e t => obtain ⟨m, ms, -, -, h⟩ := h'; cases h
  | .cons o e t, t', ns, u, u', h, h', eq => by
    obtain ⟨m, ms, h1, h2, rfl⟩ := h
    cases t' with
    | nil => cases h'
    | cons o' e' t' =>
      obtain ⟨m', ms', g1, g2, g⟩ := h'
      simp only [List.cons.injEq] at g
      obtain ⟨rfl, rfl⟩ := g
      rw [CTail.lv_cons, CTail.lv_cons] at eq
      simp only [List.cons_append, List.append_assoc, List.cons.injEq] at eq
      obtain ⟨rfl, eq1⟩ := eq
      obtain ⟨rfl, eq2⟩ := CExpr.same e e' _ _ _ h1 g1 eq1
      obtain ⟨rfl, rfl⟩ := CTail.same t t' _ _ _ h2 g2 eq2
      exact ⟨rfl, rfl⟩
end

end Fcsql
