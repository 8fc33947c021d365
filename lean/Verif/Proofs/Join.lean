/-
Queries put together: layout of joined texts, and parsing in terms of the main query.
-/
import Verif.Proofs.BestQuery
import Verif.Props.Layout

set_option autoImplicit false
set_option linter.unusedSimpArgs false

namespace Fcsql

attribute [local irreducible] parseQuery

/-! ### Joined texts -/

theorem Laid.snoc_ws {ts : List (TokType × PyStr)} {q : PyStr} (h : Laid ts q) {ws : PyStr} (hw : ∀ c ∈ ws, isWs c = true) :
    Laid ts (q ++ ws) := by
  induction h with
  | @nil ws' h =>
    refine .nil ?_
    intro c hc
    rcases List.mem_append.1 hc with hc | hc
    · exact h c hc
    · exact hw c hc
  | @cons ws' w rest ty ts h1 h2 h3 h4 ih =>
    have : ws' ++ (w ++ rest) ++ ws = ws' ++ (w ++ (rest ++ ws)) := by simp
    rw [this]
    refine .cons h1 h2 ih ?_
    intro c hc
    cases rest with
    | nil => exact not_sticks_ws (hw c (by simp only [List.nil_append] at hc; exact List.mem_of_mem_head? hc))
    | cons a r => exact h4 c (by simpa using hc)

theorem Laid.pre_ws {ts : List (TokType × PyStr)} {q : PyStr} (h : Laid ts q) {ws : PyStr} (hw : ∀ c ∈ ws, isWs c = true) :
    Laid ts (ws ++ q) := by
  induction ws with
  | nil => exact h
  | cons c ws ih => exact Laid.ws (hw c (by simp)) (ih fun x hx => hw x (by simp [hx]))

/-- Two texts joined by whitespace. -/
theorem Laid.join {ts ts' : List (TokType × PyStr)} {q q' : PyStr} (h : Laid ts q) (h' : Laid ts' q') {c : Nat} (hc : isWs c = true) :
    Laid (ts ++ ts') (q ++ c :: q') := by
  induction h with
  | @nil ws h =>
    exact Laid.pre_ws (Laid.ws hc h') h
  | @cons ws w rest ty ts h1 h2 h3 h4 ih =>
    have : ws ++ (w ++ rest) ++ c :: q' = ws ++ (w ++ (rest ++ c :: q')) := by simp
    rw [this]
    refine .cons h1 h2 ih ?_
    intro d hd
    cases rest with
    | nil => simp only [List.nil_append, List.head?_cons, Option.some.injEq] at hd; subst hd; exact not_sticks_ws hc
    | cons a r => exact h4 d (by simpa using hd)

theorem Laid.one {ty : TokType} {w : PyStr} (h : TokenText ty w) : Laid [(ty, w)] w := by
  have := Laid.cons (ws := []) (rest := []) (by simp) h (.nil (by simp)) (by simp)
  simpa using this

theorem Laid.unique {ts ts' : List (TokType × PyStr)} {q : PyStr} (h : Laid ts q) (h' : Laid ts' q) : ts = ts' := by
  rw [← ((laid_iff _ _).1 h).2, ← ((laid_iff _ _).1 h').2]

theorem Laid.texts {ts : List (TokType × PyStr)} {q : PyStr} (h : Laid ts q) : ∀ p ∈ ts, TokenText p.1 p.2 := by
  induction h with
  | nil h => simp
  | @cons ws w rest ty ts h1 h2 h3 h4 ih =>
    intro p hp
    rcases List.mem_cons.1 hp with rfl | hp
    · exact h2
    · exact ih p hp

theorem TokenText.ws_quote {ty : TokType} {t1 t2 : PyStr} {c : Nat} (h : TokenText ty (t1 ++ c :: t2)) (hc : isWs c = true) :
    34 ∈ t2 ∨ 39 ∈ t2 := by
  have hn : isAlnum c = false ∧ isDigit c = false ∧ c ≠ 45 ∧ c ≠ 34 ∧ c ≠ 39 ∧ c ∉ py!"()[]|&!/{}+*?,=:" := by
    simp only [isWs_eq, wsRanges, inRanges, Bool.or_eq_true, Bool.and_eq_true, decide_eq_true_eq, Bool.or_false] at hc
    refine ⟨?_, ?_, by omega, by omega, by omega, by simp; omega⟩
    · simp only [isAlnum, isLetter, isDigit, Bool.or_eq_false_iff, Bool.and_eq_false_iff, decide_eq_false_iff_not]; omega
    · simp only [isDigit, Bool.and_eq_false_iff, decide_eq_false_iff_not]; omega
  obtain ⟨hn1, hn2, hn3, hn4, hn5, hn6⟩ := hn
  have name : IsName (t1 ++ c :: t2) → False := by
    intro h
    rcases h.chars c (by simp) with h | h
    · simp [hn1] at h
    · exact hn3 h
  generalize hw : t1 ++ c :: t2 = w at h name
  have hcw : c ∈ w := by simp [← hw]
  cases h with
  | fixed h =>
    exfalso
    have : ∀ p ∈ fixedTokens, ∀ x ∈ p.2, isWs x = false := by decide
    have := this _ h c hcw
    simp [hc] at this
  | scope h =>
    obtain ⟨s, h⟩ := h
    have : ∀ p ∈ scopeWords, ∀ x ∈ p.1, isWs x = false := by decide
    have := this _ h c hcw
    simp [hc] at this
  | flags h =>
    have := h.2 c hcw
    exfalso
    have h2 : ∀ x ∈ py!"iIcCld", isWs x = false := by decide
    have := h2 _ this
    simp [hc] at this
  | identifier h => exact (name h).elim
  | integer h1 h2 =>
    rw [List.all_eq_true] at h2
    have := h2 c hcw
    simp [hn2] at this
  | @literal w q ps h =>
    obtain ⟨hq, -, e⟩ := h
    have e : w = (q :: ps.flatMap LitPiece.text) ++ [q] := by rw [e]; simp [litText]
    have hl : w.getLast? = some q := by rw [e, List.getLast?_concat]
    rw [← hw] at hl
    have hq2 : q ∈ t2 := by
      by_cases ht : t2 = []
      · subst ht
        rw [List.getLast?_concat] at hl
        simp only [Option.some.injEq] at hl
        subst hl
        exact absurd hq (by simp [hn4, hn5])
      · rw [List.getLast?_append, List.getLast?_cons] at hl
        rw [List.getLast?_eq_some_getLast ht] at hl
        simp only [Option.getD_some, Option.some_or, Option.some.injEq] at hl
        rw [← hl]
        exact List.getLast_mem ht
    rcases hq with rfl | rfl
    · exact .inl hq2
    · exact .inr hq2

/-- A text can be cut at whitespace that is followed by no quote. -/
theorem Laid.cut {T : List (TokType × PyStr)} {q : PyStr} (h : Laid T q) : ∀ {P w : PyStr} {c : Nat}, isWs c = true → 34 ∉ w → 39 ∉ w →
    q = P ++ c :: w → ∃ T1 T2, T = T1 ++ T2 ∧ Laid T1 P ∧ Laid T2 w := by
  induction h with
  | @nil ws h =>
    intro P w c hc _ _ e
    subst e
    exact ⟨[], [], rfl, .nil fun x hx => h x (by simp [hx]), .nil fun x hx => h x (by simp [hx])⟩
  | @cons ws t rest ty ts h1 h2 h3 h4 ih =>
    intro P w c hc hd hs e
    rcases List.append_eq_append_iff.1 e with ⟨P', rfl, e'⟩ | ⟨x, e1, e2⟩
    · have aux : ∀ P'', P' = t ++ P'' → rest = P'' ++ c :: w → ∃ T1 T2, (ty, t) :: ts = T1 ++ T2 ∧ Laid T1 (ws ++ P') ∧ Laid T2 w := by
        rintro P'' rfl e2
        obtain ⟨T1, T2, rfl, k1, k2⟩ := ih hc hd hs e2
        refine ⟨(ty, t) :: T1, T2, rfl, .cons h1 h2 k1 ?_, k2⟩
        intro d hdd
        refine h4 d ?_
        rw [e2]
        cases P'' with
        | nil => simp at hdd
        | cons a P'' => simpa using hdd
      rcases List.append_eq_append_iff.1 e' with ⟨P'', e1, e2⟩ | ⟨x, e1, e2⟩
      · exact aux P'' e1 e2
      · cases x with
        | nil =>
          simp only [List.nil_append, List.append_nil] at e1 e2
          exact aux [] (by simp [e1]) (by simp [e2])
        | cons a x =>
          simp only [List.cons_append, List.cons.injEq] at e2
          obtain ⟨rfl, rfl⟩ := e2
          subst e1
          rcases h2.ws_quote hc with h | h
          · exact absurd (by simp [h]) hd
          · exact absurd (by simp [h]) hs
    · cases x with
      | nil =>
        simp only [List.nil_append, List.append_nil] at e1 e2
        cases t with
        | nil => exact absurd rfl h2.ne_nil
        | cons a t =>
          simp only [List.cons_append, List.cons.injEq] at e2
          obtain ⟨rfl, rfl⟩ := e2
          rcases h2.ws_quote (t1 := []) hc with h | h
          · exact absurd (by simp [h]) hd
          · exact absurd (by simp [h]) hs
      | cons a x =>
        simp only [List.cons_append, List.cons.injEq] at e2
        obtain ⟨rfl, rfl⟩ := e2
        subst e1
        exact ⟨[], (ty, t) :: ts, rfl, .nil fun y hy => h1 y (by simp [hy]), .cons (fun y hy => h1 y (by simp [hy])) h2 h3 h4⟩

/-- Characters that stick to no token. -/
def Free (c : Nat) : Prop := ∀ ty, ¬ Sticks ty c

theorem free_of {c : Nat} (h : c ∈ py!"()[]|&!/{}+*?,:\"'") : Free c := by
  intro ty hs
  have : ∀ c ∈ py!"()[]|&!/{}+*?,:\"'", isAlnum c = false ∧ isDigit c = false ∧ c ≠ 45 ∧ c ≠ 61 := by decide
  have := this c h
  cases ty <;> simp [Sticks, this] at hs

/-- Two texts put together, the second one starting with a character that sticks to no token. -/
theorem Laid.append {ts ts' : List (TokType × PyStr)} {q q' : PyStr} (h : Laid ts q) (h' : Laid ts' q')
    (hc : ∀ c, q'.head? = some c → Free c) : Laid (ts ++ ts') (q ++ q') := by
  induction h with
  | @nil ws h =>
    exact Laid.pre_ws h' h
  | @cons ws w rest ty ts h1 h2 h3 h4 ih =>
    have : ws ++ (w ++ rest) ++ q' = ws ++ (w ++ (rest ++ q')) := by simp
    rw [this]
    refine .cons h1 h2 ih ?_
    intro d hd
    cases rest with
    | nil => exact hc d (by simpa using hd) ty
    | cons a r => exact h4 d (by simpa using hd)

/-- A token that sticks to nothing that follows. -/
theorem Laid.one_cons {ty : TokType} {w : PyStr} {ts : List (TokType × PyStr)} {q : PyStr} (h : TokenText ty w) (hty : ∀ c, ¬ Sticks ty c)
    (h' : Laid ts q) : Laid ((ty, w) :: ts) (w ++ q) := by
  have := Laid.cons (ws := []) (by simp) h h' (fun c _ => hty c)
  simpa using this

/-- The last token is at the end of the text, except for whitespace. -/
theorem Laid.last {ts : List (TokType × PyStr)} {q : PyStr} (h : Laid ts q) : ∀ {p : TokType × PyStr}, ts.getLast? = some p →
    ∃ a ws, q = a ++ (p.2 ++ ws) ∧ ∀ c ∈ ws, isWs c = true := by
  induction h with
  | nil => simp
  | @cons ws w rest ty ts h1 h2 h3 h4 ih =>
    intro p hp
    cases ts with
    | nil =>
      simp only [List.getLast?_singleton, Option.some.injEq] at hp
      subst hp
      cases h3 with
      | nil h => exact ⟨ws, rest, rfl, h⟩
    | cons t ts =>
      rw [List.getLast?_cons_cons] at hp
      obtain ⟨a, ws', e, h⟩ := ih hp
      exact ⟨ws ++ (w ++ a), ws', by simp [e], h⟩

/-! ### Parsing in terms of the main query -/

/-- Tokens without positions. -/
abbrev bare (ts : List (TokType × PyStr)) : List Tok := ts.map Tok.ofWhat

/-- The tokens are a main query (no `within`) that denotes `n`. -/
def MainOf (rt : Runtime) (cfg : Config) (ts : List (TokType × PyStr)) (n : Node) : Prop :=
  ∃ c : CQ, c.WF ∧ c.lv = bare ts ∧ c.Best ∧ c.CanonMain ∧ c.Denotes rt.toPyRuntime cfg n

theorem bare_append (a b : List (TokType × PyStr)) : bare (a ++ b) = bare a ++ bare b := by simp [bare]

theorem ofWhat_inj {a b : TokType × PyStr} (h : Tok.ofWhat a = Tok.ofWhat b) : a = b := by
  rcases a with ⟨a, a'⟩
  rcases b with ⟨b, b'⟩
  simp [Tok.ofWhat] at h ⊢
  exact h

theorem bare_inj {a b : List (TokType × PyStr)} (h : bare a = bare b) : a = b := by
  induction a generalizing b with
  | nil => cases b with
    | nil => rfl
    | cons x b => simp [bare] at h
  | cons x a ih => cases b with
    | nil => simp [bare] at h
    | cons y b =>
      simp only [bare, List.map_cons, List.cons.injEq] at h
      rw [ofWhat_inj h.1, ih h.2]

theorem tokenText_within {w : PyStr} (h : TokenText .WITHIN w) : w = py!"within" := by
  cases h with
  | fixed h => simpa [fixedTokens] using h

theorem tokenText_scope {w : PyStr} (h : TokenText .SIMPLE_WITHIN_SCOPE w) : IsScopeWord w := by
  cases h with
  | fixed h => simp [fixedTokens] at h
  | scope h => exact h

/-- What a query parses to, without locations. -/
theorem parse_laid (rt : Runtime) {cfg : Config} (hc : cfg.enableSourceLocations = false) {ts : List (TokType × PyStr)} {q : PyStr}
    (hl : Laid ts q) (n : Node) :
    (parseQuery rt cfg q).1 = .ok n ↔ MainOf rt cfg ts n ∨
      ∃ ts' w sc m, ts = ts' ++ [(.WITHIN, py!"within"), (.SIMPLE_WITHIN_SCOPE, w)] ∧ (w, sc) ∈ scopeWords ∧ MainOf rt cfg ts' m ∧
        n = .mk .withWithin [m, .mk (.within sc) [] none] none := by
  obtain ⟨h1, h2⟩ := (laid_iff ts q).1 hl
  rw [parse_ok_bare rt hc, bareStream_eq, h2]
  constructor
  · rintro ⟨-, ⟨m, w, e⟩, hb, hd⟩
    obtain ⟨hw, hlv, hbest, hcan⟩ := (bareSyntax_iff _ _).1 hb
    rcases w with _ | ⟨w, s⟩
    · refine .inl ⟨m, hw.1, ?_, hbest, hcan, hd⟩
      simp only [withinLv, List.nil_append] at hlv
      exact (List.append_inj' hlv rfl).1
    · right
      simp only [withinLv] at hlv
      obtain ⟨k1, k2⟩ := hw.2.1 w s rfl
      have e1 : m.lv ++ [w, s] = bare ts := by
        have : m.lv ++ [w, s] ++ [e] = bare ts ++ [⟨.EOF, py!"<EOF>", 0, 0⟩] := by simpa using hlv
        exact (List.append_inj' this rfl).1
      obtain ⟨ts', r, rfl, e2, e3⟩ := List.map_eq_append_iff.1 e1.symm
      match r, e3 with
      | [⟨a, a'⟩, ⟨b, b'⟩], e3 =>
        simp only [List.map_cons, List.map_nil, List.cons.injEq, and_true] at e3
        obtain ⟨rfl, rfl⟩ := e3
        have k1 : a = .WITHIN := k1
        have k2 : b = .SIMPLE_WITHIN_SCOPE := k2
        subst k1 k2
        obtain rfl := tokenText_within (hl.texts (.WITHIN, a') (by simp))
        obtain ⟨m', sc, d1, d2, d3⟩ := hd
        refine ⟨ts', b', sc, m', rfl, d2, ⟨m, hw.1, e2.symm, hbest, hcan, d1⟩, ?_⟩
        rw [d3, span_none hc, span_none hc]
  · intro h
    refine ⟨h1, ?_⟩
    rcases h with ⟨c, c1, c2, c3, c4, c5⟩ | ⟨ts', w, sc, m, rfl, k1, ⟨c, c1, c2, c3, c4, c5⟩, rfl⟩
    · refine ⟨⟨c, none, ⟨.EOF, py!"<EOF>", 0, 0⟩⟩, (bareSyntax_iff _ _).2 ⟨⟨c1, by simp, rfl⟩, ?_, c3, c4⟩, c5⟩
      simp [withinLv, c2]
    · refine ⟨⟨c, some (⟨.WITHIN, py!"within", 0, 0⟩, ⟨.SIMPLE_WITHIN_SCOPE, w, 0, 0⟩), ⟨.EOF, py!"<EOF>", 0, 0⟩⟩,
        (bareSyntax_iff _ _).2 ⟨⟨c1, ?_, rfl⟩, ?_, c3, c4⟩, ?_⟩
      · simp
      · simp [withinLv, c2, Tok.ofWhat]
      · refine ⟨m, sc, c5, k1, ?_⟩
        rw [span_none hc, span_none hc]

/-- The kind of the node of a main query. -/
theorem CQ.denotes_kind {rt : PyRuntime} {cfg : Config} {c : CQ} {n : Node} (h : c.Denotes rt cfg n) :
    (c.rule = .query_simple ∧ ∃ a b, n.kind = .segment a b) ∨ (c.rule = .query_group ∧ ∃ a b, n.kind = .qgroup a b) ∨
    (c.rule = .query_sequence ∧ n.kind = .sequence) ∨ (c.rule = .query_disjunction ∧ n.kind = .disjunction) := by
  cases c with
  | implicit r q => obtain ⟨v, fl, mn, mx, -, -, rfl⟩ := h; exact .inl ⟨rfl, _, _, rfl⟩
  | segment lb e rb q => obtain ⟨v, mn, mx, -, -, rfl⟩ := h; exact .inl ⟨rfl, _, _, rfl⟩
  | group lp c rp q => obtain ⟨v, mn, mx, -, -, rfl⟩ := h; exact .inr (.inl ⟨rfl, _, _, rfl⟩)
  | seq f r => obtain ⟨v, mn, -, -, rfl⟩ := h; exact .inr (.inr (.inl ⟨rfl, rfl⟩))
  | disj f r => obtain ⟨v, mn, -, -, rfl⟩ := h; exact .inr (.inr (.inr ⟨rfl, rfl⟩))

theorem MainOf.kind {rt : Runtime} {cfg : Config} {ts : List (TokType × PyStr)} {n : Node} (h : MainOf rt cfg ts n) :
    n.kind ≠ .withWithin := by
  obtain ⟨c, -, -, -, -, h⟩ := h
  rcases CQ.denotes_kind h with ⟨-, _, _, h⟩ | ⟨-, _, _, h⟩ | ⟨-, h⟩ | ⟨-, h⟩ <;> rw [h] <;> simp

/-- An accepted query is laid out. -/
theorem laid_of_parse {rt : Runtime} {cfg : Config} {q : PyStr} {n : Node} (h : (parseQuery rt cfg q).1 = .ok n) :
    Laid ((lexTokens q).map Tok.what) q := by
  obtain ⟨hl, -⟩ := (parse_ok rt cfg q n).1 h
  exact (laid_iff _ _).2 ⟨hl, rfl⟩

/-- No main query ends with `within` and a word. -/
theorem not_main_within {c : CQ} (h : c.WF) {ts : List Tok} {w x : Tok} (hw : w.type = .WITHIN) (hx : plainTy x.type)
    (e : c.lv = ts ++ [w, x]) : False := by
  have ht := (c.tight h).1
  have h0 := ht.total
  rw [e, depth_append] at h0
  have hd : depth ts = 0 := by
    simp only [depth, delta_plain hx, delta_plain (show plainTy w.type by simp [hw, plainTy])] at h0
    omega
  exact ht.free ts w [x] e hd (.inl hw)

/-! ### Source locations -/

theorem unlocated_self (n : Node) : (∀ m ∈ n.subnodes, m.loc = none) → n.unlocated = n := by
  apply Node.rec (motive_1 := fun n => (∀ m ∈ n.subnodes, m.loc = none) → n.unlocated = n)
    (motive_2 := fun ns => (∀ m ∈ Node.subnodesL ns, m.loc = none) → Node.unlocatedL ns = ns)
  · intro k cs l ih h
    have h0 := h (.mk k cs l) (by simp [Node.subnodes])
    have h0 : l = none := h0
    subst h0
    simp only [Node.unlocated, ih fun m hm => h m (by simp [Node.subnodes, hm])]
  · intro _; rfl
  · intro c cs ih1 ih2 h
    simp only [Node.unlocatedL, ih1 fun m hm => h m (by simp [Node.subnodesL, hm]), ih2 fun m hm => h m (by simp [Node.subnodesL, hm])]

/-- With other settings of source locations: what is returned without locations. -/
theorem parse_off {rt : Runtime} {cfg : Config} {q : PyStr} {n : Node} (h : (parseQuery rt cfg q).1 = .ok n) :
    (parseQuery rt { cfg with enableSourceLocations := false } q).1 = .ok n.unlocated := by
  obtain ⟨m, h1, h2⟩ := C24_same_tree rt cfg false _ n h
  rw [h1, ← h2, unlocated_self m ((C24_all_or_none rt _ q m h1).2 rfl)]

theorem parse_on {rt : Runtime} {cfg : Config} {q : PyStr} {m : Node}
    (h : (parseQuery rt { cfg with enableSourceLocations := false } q).1 = .ok m) :
    ∃ n, (parseQuery rt cfg q).1 = .ok n ∧ n.unlocated = m := by
  obtain ⟨n, h1, h2⟩ := C24_same_tree rt { cfg with enableSourceLocations := false } cfg.enableSourceLocations _ m h
  refine ⟨n, h1, ?_⟩
  rw [h2, unlocated_self m ((C24_all_or_none rt _ q m h).2 rfl)]

theorem unlocatedL_map (l : List Node) : Node.unlocatedL l = l.map Node.unlocated := by
  induction l with
  | nil => rfl
  | cons n l ih => simp [Node.unlocatedL, ih]

theorem unlocated_kind (n : Node) : n.unlocated.kind = n.kind := by cases n; rfl

end Fcsql
