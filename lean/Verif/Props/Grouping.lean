/-
C50, C51: parentheses around a query, a quantifier after a query.
-/
import Verif.Props.Compose

set_option autoImplicit false
set_option linter.unusedSimpArgs false

namespace Fcsql

attribute [local irreducible] parseQuery

/-! ### C50 -/

/-- How a query appears inside parentheses: a single query becomes a one-element sequence. -/
def Node.asContent (n : Node) : Node :=
  match n.kind with
  | .segment _ _ => .mk .sequence [n] none
  | .qgroup _ _ => .mk .sequence [n] none
  | _ => n

/-- **C50.** If `Q` parses to a query without `within`, then `(Q)` parses to the group, occurring once, of that query
(without source locations). -/
theorem C50_group (rt : Runtime) (cfg : Config) (hc : cfg.enableSourceLocations = false) (Q : PyStr) (n : Node)
    (h : (parseQuery rt cfg Q).1 = .ok n) (hn : n.kind ≠ .withWithin) :
    (parseQuery rt cfg (py!"(" ++ Q ++ py!")")).1 = .ok (.mk (.qgroup 1 1) [n.asContent] none) := by
  obtain ⟨ts, hl, c, c1, c2, c3, c4, c5⟩ := main_of_parse hc h hn
  have hl2 : Laid (((.L_PAREN, py!"(") :: ts) ++ [(.R_PAREN, py!")")]) (py!"(" ++ Q ++ py!")") :=
    (Laid.one_cons (.fixed (by decide)) (by simp [Sticks]) hl).append (Laid.one (.fixed (by decide)))
      (by simp only [List.head?_cons, Option.some.injEq]; rintro c rfl; exact free_of (by decide))
  rw [parse_laid rt hc hl2]
  left
  obtain ⟨c', d1, d2, d3, d4, d5⟩ : ∃ c' : CQ, c'.WF ∧ (c'.rule = .query_disjunction ∨ c'.rule = .query_sequence) ∧ c'.lv = bare ts ∧ c'.Best ∧
      c'.Denotes rt.toPyRuntime cfg n.asContent := by
    have item : c.isItem → ∃ c' : CQ, c'.WF ∧ (c'.rule = .query_disjunction ∨ c'.rule = .query_sequence) ∧ c'.lv = bare ts ∧ c'.Best ∧
      c'.Denotes rt.toPyRuntime cfg (.mk .sequence [n] none) := by
      intro hi
      have hi : ∀ x ∈ [c], x.WF ∧ x.isItem := by simp [c1, hi]
      refine ⟨.seq c (seqTail []), seq_WF hi, .inr rfl, ?_, best_seq hi (by simpa using c3), ?_⟩
      · rw [lv_seq, ← c2]; simp [itemsLv]
      · exact ⟨n, [], c5, rfl, by rw [span_none hc]⟩
    rcases CQ.denotes_kind c5 with ⟨hr, a, b, hk⟩ | ⟨hr, a, b, hk⟩ | ⟨hr, hk⟩ | ⟨hr, hk⟩
    · simpa only [Node.asContent, hk] using item (.inl hr)
    · simpa only [Node.asContent, hk] using item (.inr hr)
    · exact ⟨c, c1, .inr hr, c2, c3, by simpa [Node.asContent, hk] using c5⟩
    · exact ⟨c, c1, .inl hr, c2, c3, by simpa [Node.asContent, hk] using c5⟩
  have wf : (CQ.group (Tok.ofWhat (.L_PAREN, py!"(")) c' (Tok.ofWhat (.R_PAREN, py!")")) none).WF := ⟨rfl, d1, d2, rfl, by simp [optQuantWF]⟩
  refine ⟨_, wf, ?_, best_group wf d4, (by rintro x h; cases h), ?_⟩
  · rw [lv_group, d3, quantLv_none]; simp
  · exact ⟨_, 1, 1, d5, ⟨rfl, rfl⟩, by rw [span_none hc]⟩

example : (parseQuery rt0 defaultConfig py!"('a')").1 = .ok (.mk (.qgroup 1 1) [.mk .sequence
    [.mk (.segment 1 1) [.mk (.expression none py!"text" .EQUALS py!"a" none) [] none] none] none] none) :=
  C50_group rt0 defaultConfig rfl py!"'a'" (.mk (.segment 1 1) [.mk (.expression none py!"text" .EQUALS py!"a" none) [] none] none)
    (by decide +kernel) (by decide)

/-- **C50.** With any settings, up to source locations. -/
theorem C50_group_located (rt : Runtime) (cfg : Config) (Q : PyStr) (n : Node) (h : (parseQuery rt cfg Q).1 = .ok n)
    (hn : n.kind ≠ .withWithin) :
    ∃ n', (parseQuery rt cfg (py!"(" ++ Q ++ py!")")).1 = .ok n' ∧ n'.unlocated = .mk (.qgroup 1 1) [n.unlocated.asContent] none :=
  parse_on (C50_group rt { cfg with enableSourceLocations := false } rfl Q _ (parse_off h) (by rw [unlocated_kind]; exact hn))

/-! ### C51 -/

theorem isInt_token {rt : PyRuntime} {x : PyStr} {n : Int} (h : IsInt rt x n) : TokenText .INTEGER x := .integer h.1 h.2.1

theorem laid_int {rt : PyRuntime} {x : PyStr} {n : Int} (h : IsInt rt x n) {ts : List (TokType × PyStr)} {q : PyStr} (hq : Laid ts q)
    (hc : ∀ c, q.head? = some c → Free c) : Laid ((.INTEGER, x) :: ts) (x ++ q) :=
  (Laid.one (isInt_token h)).append hq hc

theorem laid_fix {ty : TokType} {w : PyStr} (h : (ty, w) ∈ fixedTokens) (hty : ∀ c, ¬ Sticks ty c) {ts : List (TokType × PyStr)} {q : PyStr}
    (hq : Laid ts q) : Laid ((ty, w) :: ts) (w ++ q) := Laid.one_cons (.fixed h) hty hq

theorem laid_empty : Laid [] [] := .nil (by simp)

/-- The tokens of a quantifier. -/
theorem quantText_tokens {rt : PyRuntime} {t : PyStr} {mn mx : Int} (h : QuantText rt t mn mx) :
    (∀ c, t.head? = some c → Free c) ∧ ∃ (ts : List (TokType × PyStr)) (q : CQuant), Laid ts t ∧ q.WF ∧ quantLv (some q) = bare ts ∧ q.Bounds rt mn mx := by
  have fr : ∀ {a : Nat} {r : PyStr}, a ∈ py!"()[]|&!/{}+*?,:\"'" → ∀ c, (a :: r).head? = some c → Free c := by
    intro a r h c hc
    simp only [List.head?_cons, Option.some.injEq] at hc
    subst hc
    exact free_of h
  have rb : Laid [(.R_CURLY_BRACKET, py!"}")] py!"}" := Laid.one (.fixed (by decide))
  have crb : Laid [(.Q_COMMA, py!","), (.R_CURLY_BRACKET, py!"}")] py!",}" := laid_fix (w := py!",") (by decide) (by simp [Sticks]) rb
  let T : TokType → PyStr → Tok := fun a b => Tok.ofWhat (a, b)
  cases h with
  | star => exact ⟨fr (by decide), _, .sym (T .Q_ZERO_OR_MORE py!"*"), Laid.one (.fixed (by decide)), .inr (.inl rfl), quantLv_sym _, .inl ⟨rfl, rfl, rfl⟩⟩
  | plus => exact ⟨fr (by decide), _, .sym (T .Q_ONE_OR_MORE py!"+"), Laid.one (.fixed (by decide)), .inl rfl, quantLv_sym _, .inr (.inl ⟨rfl, rfl, rfl⟩)⟩
  | opt => exact ⟨fr (by decide), _, .sym (T .Q_ZERO_OR_ONE py!"?"), Laid.one (.fixed (by decide)), .inr (.inr rfl), quantLv_sym _, .inr (.inr ⟨rfl, rfl, rfl⟩)⟩
  | @exactly x _ hx =>
    refine ⟨fr (by decide), [(.L_CURLY_BRACKET, py!"{"), (.INTEGER, x), (.R_CURLY_BRACKET, py!"}")], .exactly (T .L_CURLY_BRACKET py!"{") (T .INTEGER x) (T .R_CURLY_BRACKET py!"}"), ?_, ⟨rfl, rfl, rfl⟩,
      quantLv_exactly _ _ _, hx.2.2, rfl⟩
    have := laid_fix (ty := .L_CURLY_BRACKET) (w := py!"{") (by decide) (by simp [Sticks]) (laid_int hx rb (fr (by decide)))
    simpa using this
  | @atLeast x _ hx =>
    refine ⟨fr (by decide), [(.L_CURLY_BRACKET, py!"{"), (.INTEGER, x), (.Q_COMMA, py!","), (.R_CURLY_BRACKET, py!"}")], .range (T .L_CURLY_BRACKET py!"{") (some (T .INTEGER x)) (T .Q_COMMA py!",") none (T .R_CURLY_BRACKET py!"}"),
      ?_, ⟨rfl, rfl, rfl, by simp [T, Tok.ofWhat], by simp, by simp⟩, quantLv_range _ _ _ _ _, hx.2.2, rfl⟩
    have := laid_fix (ty := .L_CURLY_BRACKET) (w := py!"{") (by decide) (by simp [Sticks]) (laid_int hx crb (fr (by decide)))
    simpa using this
  | @atMost y _ hy =>
    refine ⟨fr (by decide), [(.L_CURLY_BRACKET, py!"{"), (.Q_COMMA, py!","), (.INTEGER, y), (.R_CURLY_BRACKET, py!"}")], .range (T .L_CURLY_BRACKET py!"{") none (T .Q_COMMA py!",") (some (T .INTEGER y)) (T .R_CURLY_BRACKET py!"}"),
      ?_, ⟨rfl, rfl, rfl, by simp, by simp [T, Tok.ofWhat], by simp⟩, quantLv_range _ _ _ _ _, rfl, hy.2.2⟩
    have := laid_fix (ty := .L_CURLY_BRACKET) (w := py!"{") (by decide) (by simp [Sticks])
      (laid_fix (ty := .Q_COMMA) (w := py!",") (by decide) (by simp [Sticks]) (laid_int hy rb (fr (by decide))))
    simpa using this
  | @between x y n m hx hy hle =>
    refine ⟨fr (by decide), [(.L_CURLY_BRACKET, py!"{"), (.INTEGER, x), (.Q_COMMA, py!","), (.INTEGER, y), (.R_CURLY_BRACKET, py!"}")], .range (T .L_CURLY_BRACKET py!"{") (some (T .INTEGER x)) (T .Q_COMMA py!",") (some (T .INTEGER y)) (T .R_CURLY_BRACKET py!"}"),
      ?_, ⟨rfl, rfl, rfl, by simp [T, Tok.ofWhat], by simp [T, Tok.ofWhat], by simp⟩, quantLv_range _ _ _ _ _, hx.2.2, hy.2.2, hle⟩
    have := laid_fix (ty := .L_CURLY_BRACKET) (w := py!"{") (by decide) (by simp [Sticks])
      (laid_int hx (laid_fix (ty := .Q_COMMA) (w := py!",") (by decide) (by simp [Sticks]) (laid_int hy rb (fr (by decide)))) (fr (by decide)))
    simpa using this

/-- A query whose text does not end with a quantifier has none. -/
theorem no_quant {ts : List (TokType × PyStr)} {Q : PyStr} {c : Nat} (hl : Laid ts Q) (hQ : Q.getLast? = some c) (hws : isWs c = false)
    (hc : c ∉ py!"*+?}") {q : Option CQuant} (hq : optQuantWF q) {u : List Tok} (e : u ++ quantLv q = bare ts) : q = none := by
  cases q with
  | none => rfl
  | some q =>
    exfalso
    have hq := hq q rfl
    obtain ⟨v, t, e1, ht⟩ : ∃ (v : List Tok) (t : Tok), quantLv (some q) = v ++ [t] ∧ (t.type = .Q_ONE_OR_MORE ∨
        t.type = .Q_ZERO_OR_MORE ∨ t.type = .Q_ZERO_OR_ONE ∨ t.type = .R_CURLY_BRACKET) := by
      cases q with
      | sym t => exact ⟨[], t, quantLv_sym t, by rcases hq with h | h | h <;> simp [h]⟩
      | exactly lb n rb => exact ⟨[lb, n], rb, quantLv_exactly _ _ _, by simp [hq.2.2]⟩
      | range lb n cm m rb => exact ⟨lb :: (n.toList ++ cm :: m.toList), rb, by simp [quantLv_range], by simp [hq.2.2.1]⟩
    rw [e1] at e
    have hlast : (bare ts).getLast? = some t := by rw [← e, ← List.append_assoc, List.getLast?_concat]
    rw [List.getLast?_map] at hlast
    obtain ⟨p, hp, rfl⟩ := Option.map_eq_some_iff.1 hlast
    have htx := hl.texts p (List.mem_of_mem_getLast? hp)
    obtain ⟨a, ws, e2, hw⟩ := hl.last hp
    have hx : p.2 ∈ [py!"*", py!"+", py!"?", py!"}"] := by
      rcases p with ⟨ty, w⟩
      have ht : ty = .Q_ONE_OR_MORE ∨ ty = .Q_ZERO_OR_MORE ∨ ty = .Q_ZERO_OR_ONE ∨ ty = .R_CURLY_BRACKET := ht
      have htx : TokenText ty w := htx
      have : ∀ p ∈ fixedTokens, (p.1 = .Q_ONE_OR_MORE ∨ p.1 = .Q_ZERO_OR_MORE ∨ p.1 = .Q_ZERO_OR_ONE ∨ p.1 = .R_CURLY_BRACKET) →
        p.2 ∈ [py!"*", py!"+", py!"?", py!"}"] := by decide
      cases htx with
      | fixed h => exact this _ h ht
      | _ => simp at ht
    have hws' : ws = [] := by
      cases hg : ws.getLast? with
      | none => simpa using hg
      | some d =>
        have hd := hw d (List.mem_of_mem_getLast? hg)
        rw [e2, ← List.append_assoc, List.getLast?_append, hg] at hQ
        simp only [Option.some_or, Option.some.injEq] at hQ
        subst hQ
        simp [hd] at hws
    subst hws'
    simp only [List.append_nil] at e2
    obtain ⟨d, hd, hd2⟩ : ∃ d, p.2 = [d] ∧ d ∈ py!"*+?}" := by
      simp only [List.mem_cons, List.not_mem_nil, or_false] at hx
      rcases hx with h | h | h | h <;> exact ⟨_, h, by decide⟩
    rw [e2, hd, List.getLast?_concat] at hQ
    simp only [Option.some.injEq] at hQ
    subst hQ
    exact hc hd2

/-- The same class with other bounds. -/
def Kind.withBounds (mn mx : Int) : Kind → Kind
  | .segment _ _ => .segment mn mx
  | .qgroup _ _ => .qgroup mn mx
  | k => k

/-- **C51.** If `Q` parses to a segment or a group and does not end with a quantifier, then `Q` followed by a quantifier parses
to the same node with the bounds of the quantifier (without source locations). -/
theorem C51_quantifier (rt : Runtime) (cfg : Config) (hc : cfg.enableSourceLocations = false) (Q t : PyStr) (n : Node) (c : Nat) (mn mx : Int)
    (h : (parseQuery rt cfg Q).1 = .ok n) (hn : n.isItem) (hQ : Q.getLast? = some c) (hws : isWs c = false) (hcq : c ∉ py!"*+?}")
    (ht : QuantText rt.toPyRuntime t mn mx) :
    (parseQuery rt cfg (Q ++ t)).1 = .ok (.mk (n.kind.withBounds mn mx) n.children none) := by
  obtain ⟨ts, hl, x, c1, c2, c3, c4, c5⟩ := main_of_parse hc h (by rcases hn with ⟨_, _, h⟩ | ⟨_, _, h⟩ <;> simp [h])
  obtain ⟨hfree, tq, q, hlq, qwf, qlv, qb⟩ := quantText_tokens ht
  rw [parse_laid rt hc (hl.append hlq hfree)]
  left
  have wfq : optQuantWF (some q) := by intro x hx; cases hx; exact qwf
  cases x with
  | implicit r q0 =>
    obtain ⟨w1, w2⟩ := c1
    rw [lv_implicit] at c2
    obtain rfl := no_quant hl hQ hws hcq w2 c2
    have wf : (CQ.implicit r (some q)).WF := ⟨w1, wfq⟩
    refine ⟨_, wf, ?_, best_implicit wf, (by rintro x h; cases h), ?_⟩
    · rw [quantLv_none, List.append_nil] at c2
      rw [lv_implicit, qlv, bare_append, c2]
    · obtain ⟨v, fl, _, _, d1, -, rfl⟩ := c5
      exact ⟨v, fl, mn, mx, d1, qb, by simp only [span_none hc]; rfl⟩
  | segment lb e rb q0 =>
    obtain ⟨w1, w2, w3, w4⟩ := c1
    rw [lv_segment] at c2
    obtain rfl := no_quant (u := lb :: (exprLv e ++ [rb])) hl hQ hws hcq w4 (by simpa using c2)
    have wf : (CQ.segment lb e rb (some q)).WF := ⟨w1, w2, w3, wfq⟩
    refine ⟨_, wf, ?_, best_segment wf c3.expr, (by rintro x h; cases h), ?_⟩
    · rw [lv_segment, qlv, bare_append, ← c2, quantLv_none]; simp
    · obtain ⟨m, _, _, d1, -, rfl⟩ := c5
      exact ⟨m, mn, mx, d1, qb, by simp only [span_none hc]; rfl⟩
  | group lp x rp q0 =>
    obtain ⟨w1, w2, w3, w4, w5⟩ := c1
    rw [lv_group] at c2
    obtain rfl := no_quant (u := lp :: (x.lv ++ [rp])) hl hQ hws hcq w5 (by simpa using c2)
    have wf : (CQ.group lp x rp (some q)).WF := ⟨w1, w2, w3, w4, wfq⟩
    refine ⟨_, wf, ?_, best_group wf c3.content, (by rintro x h; cases h), ?_⟩
    · rw [lv_group, qlv, bare_append, ← c2, quantLv_none]; simp
    · obtain ⟨m, _, _, d1, -, rfl⟩ := c5
      exact ⟨m, mn, mx, d1, qb, by simp only [span_none hc]; rfl⟩
  | seq f l =>
    obtain ⟨m, ms, -, -, rfl⟩ := c5
    rcases hn with ⟨_, _, h⟩ | ⟨_, _, h⟩ <;> cases h
  | disj f l =>
    obtain ⟨m, ms, -, -, rfl⟩ := c5
    rcases hn with ⟨_, _, h⟩ | ⟨_, _, h⟩ <;> cases h

example : (parseQuery rt0 defaultConfig py!"[]{02,17}").1 = .ok (.mk (.segment 2 17) [.mk .wildcard [] none] none) :=
  C51_quantifier rt0 defaultConfig rfl py!"[]" py!"{02,17}" (.mk (.segment 1 1) [.mk .wildcard [] none] none) 93 2 17
    (by decide +kernel) (.inl ⟨_, _, rfl⟩) rfl (by decide) (by decide)
    (.between (x := py!"02") (y := py!"17") ⟨by decide, by decide, .inr (by decide), by decide⟩ ⟨by decide, by decide, .inr (by decide), by decide⟩ (by decide))

/-- **C51.** With any settings, up to source locations. -/
theorem C51_quantifier_located (rt : Runtime) (cfg : Config) (Q t : PyStr) (n : Node) (c : Nat) (mn mx : Int)
    (h : (parseQuery rt cfg Q).1 = .ok n) (hn : n.isItem) (hQ : Q.getLast? = some c) (hws : isWs c = false) (hcq : c ∉ py!"*+?}")
    (ht : QuantText rt.toPyRuntime t mn mx) :
    ∃ n', (parseQuery rt cfg (Q ++ t)).1 = .ok n' ∧ n'.unlocated = .mk (n.kind.withBounds mn mx) n.unlocated.children none := by
  have := C51_quantifier rt { cfg with enableSourceLocations := false } rfl Q t n.unlocated c mn mx (parse_off h)
    (by simpa only [Node.isItem, unlocated_kind] using hn) hQ hws hcq ht
  rw [unlocated_kind] at this
  exact parse_on this

-- `[]{2,}` with locations
example : ∃ n', (parseQuery rt0 locConfig py!"[]{2,}").1 = .ok n' ∧ n'.unlocated = .mk (.segment 2 (-1)) [.mk .wildcard [] none] none :=
  C51_quantifier_located rt0 locConfig py!"[]" py!"{2,}" (.mk (.segment 1 1) [.mk .wildcard [] (some ⟨0, 2⟩)] (some ⟨0, 2⟩)) 93 2 (-1)
    (by decide +kernel) (.inl ⟨_, _, rfl⟩) rfl (by decide) (by decide)
    (.atLeast (x := py!"2") ⟨by decide, by decide, .inr (by decide), by decide⟩)

end Fcsql
