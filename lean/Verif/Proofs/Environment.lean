/-
How the tree of a query depends on the Python environment.
-/
import Verif.Proofs.Parse

set_option autoImplicit false
set_option linter.unusedSimpArgs false
set_option linter.unusedSectionVars false

namespace Fcsql

section
variable {rt rt' : PyRuntime} {cfg : Config}

theorem CRegexp.Denotes.env (hn : ∀ s, cfg.norm rt s = cfg.norm rt' s) {r : CRegexp} {v : PyStr} {fl : Option FlagSet}
    (h : r.Denotes rt cfg v fl) : r.Denotes rt' cfg v fl := by
  obtain ⟨⟨raw, h1, h2⟩, h3⟩ := h
  exact ⟨⟨raw, h1, by rw [h2, hn]⟩, h3⟩

theorem optBounds.env (hi : ∀ x n, IntText rt x n → IntText rt' x n) {q : Option CQuant} {mn mx : Int}
    (h : optBounds rt q mn mx) : optBounds rt' q mn mx := by
  rcases q with _ | ⟨t⟩ | ⟨a, n, b⟩ | ⟨a, n, b, m, c⟩
  · exact h
  · exact h
  · exact ⟨hi _ _ h.1, h.2⟩
  · rcases n with _ | n <;> rcases m with _ | m
    · exact h
    · exact ⟨h.1, hi _ _ h.2⟩
    · exact ⟨hi _ _ h.1, h.2⟩
    · exact ⟨hi _ _ h.1, hi _ _ h.2.1, h.2.2⟩

variable (hn : ∀ s, cfg.norm rt s = cfg.norm rt' s)
include hn

mutual
theorem env_expr : ∀ (e : CExpr) (n : Node), e.Denotes rt cfg n → e.Denotes rt' cfg n
  | .basic a op r, n, h => by
    simp only [CExpr.Denotes] at h ⊢
    obtain ⟨o, v, fl, h1, h2, h3⟩ := h
    exact ⟨o, v, fl, h1, h2.env hn, h3⟩
  | .group lp e rp, n, h => by
    simp only [CExpr.Denotes] at h ⊢
    obtain ⟨m, h1, h2⟩ := h
    exact ⟨m, env_expr e m h1, h2⟩
  | .not b e, n, h => by
    simp only [CExpr.Denotes] at h ⊢
    obtain ⟨m, h1, h2⟩ := h
    exact ⟨m, env_expr e m h1, h2⟩
  | .or f rest, n, h => by
    simp only [CExpr.Denotes] at h ⊢
    obtain ⟨m, ms, h1, h2, h3⟩ := h
    exact ⟨m, ms, env_expr f m h1, env_tail rest ms h2, h3⟩
  | .and f rest, n, h => by
    simp only [CExpr.Denotes] at h ⊢
    obtain ⟨m, ms, h1, h2, h3⟩ := h
    exact ⟨m, ms, env_expr f m h1, env_tail rest ms h2, h3⟩
theorem env_tail : ∀ (t : CTail) (ns : List Node), t.Denotes rt cfg ns → t.Denotes rt' cfg ns
  | .nil, ns, h => by simpa only [CTail.Denotes] using h
  | .cons o e rest, ns, h => by
    simp only [CTail.Denotes] at h ⊢
    obtain ⟨m, ms, h1, h2, h3⟩ := h
    exact ⟨m, ms, env_expr e m h1, env_tail rest ms h2, h3⟩
end

variable (hi : ∀ x n, IntText rt x n → IntText rt' x n)
include hi

mutual
theorem env_q : ∀ (c : CQ) (n : Node), c.Denotes rt cfg n → c.Denotes rt' cfg n
  | .implicit r q, n, h => by
    simp only [CQ.Denotes] at h ⊢
    obtain ⟨v, fl, mn, mx, h1, h2, h3⟩ := h
    exact ⟨v, fl, mn, mx, h1.env hn, h2.env hi, h3⟩
  | .segment lb e rb q, n, h => by
    simp only [CQ.Denotes] at h ⊢
    obtain ⟨m, mn, mx, h1, h2, h3⟩ := h
    refine ⟨m, mn, mx, ?_, h2.env hi, h3⟩
    cases e with
    | none => exact h1
    | some e => exact env_expr hn e m h1
  | .group lp c rp q, n, h => by
    simp only [CQ.Denotes] at h ⊢
    obtain ⟨m, mn, mx, h1, h2, h3⟩ := h
    exact ⟨m, mn, mx, env_q c m h1, h2.env hi, h3⟩
  | .seq f rest, n, h => by
    simp only [CQ.Denotes] at h ⊢
    obtain ⟨m, ms, h1, h2, h3⟩ := h
    exact ⟨m, ms, env_q f m h1, env_qtail rest ms h2, h3⟩
  | .disj f rest, n, h => by
    simp only [CQ.Denotes] at h ⊢
    obtain ⟨m, ms, h1, h2, h3⟩ := h
    exact ⟨m, ms, env_q f m h1, env_qtail rest ms h2, h3⟩
theorem env_qtail : ∀ (t : CQTail) (ns : List Node), t.Denotes rt cfg ns → t.Denotes rt' cfg ns
  | .nil, ns, h => by simpa only [CQTail.Denotes] using h
  | .cons o e rest, ns, h => by
    simp only [CQTail.Denotes] at h ⊢
    obtain ⟨m, ms, h1, h2, h3⟩ := h
    exact ⟨m, ms, env_q e m h1, env_qtail rest ms h2, h3⟩
end

theorem env_query (q : CQuery) (n : Node) (h : q.Denotes rt cfg n) : q.Denotes rt' cfg n := by
  obtain ⟨main, within, eof⟩ := q
  rcases within with _ | ⟨w, s⟩
  · exact env_q hn hi main n h
  · simp only [CQuery.Denotes] at h ⊢
    obtain ⟨m, sc, h1, h2, h3⟩ := h
    exact ⟨m, sc, env_q hn hi main m h1, h2, h3⟩

end

theorem parse_env {rt rt' : Runtime} {cfg : Config} (hn : ∀ s, cfg.norm rt.toPyRuntime s = cfg.norm rt'.toPyRuntime s)
    (hi : ∀ x n, IntText rt.toPyRuntime x n → IntText rt'.toPyRuntime x n) {q : PyStr} {n : Node}
    (h : (parseQuery rt cfg q).1 = .ok n) : (parseQuery rt' cfg q).1 = .ok n := by
  obtain ⟨hl, cst, hs, hd⟩ := (parse_ok rt cfg q n).1 h
  exact (parse_ok rt' cfg q n).2 ⟨hl, cst, hs, env_query hn hi cst n hd⟩

end Fcsql
