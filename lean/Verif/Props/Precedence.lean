/-
C12: operator precedence in layer expressions.
-/
import Verif.Proofs.Bracket

set_option autoImplicit false
set_option linter.unusedSimpArgs false

namespace Fcsql

attribute [local irreducible] parseQuery

/-- A comparison or a parenthesised expression. -/
def Node.isAtom (n : Node) : Prop := (∃ q i o v f, n.kind = .expression q i o v f) ∨ n.kind = .group

/-! ### Layout of joined texts -/

def joinTs (s : TokType × PyStr) : List (List (TokType × PyStr)) → List (TokType × PyStr)
  | [] => []
  | [t] => t
  | t :: ts => t ++ s :: joinTs s ts

theorem laid_joinWith {α : Type} {s : TokType × PyStr} (hs : s ∈ [(.AND, py!"&"), (.OR, py!"|")]) (T : α → List (TokType × PyStr))
    (X : α → PyStr) : ∀ (l : List α), (∀ x ∈ l, Laid (T x) (X x)) → Laid (joinTs s (l.map T)) (joinWith s.2 (l.map X))
  | [], _ => .nil (by simp [joinWith])
  | [x], h => h x (by simp)
  | x :: y :: l, h => by
    have ih := laid_joinWith hs T X (y :: l) fun z hz => h z (by simp [List.mem_cons.1 hz])
    refine (h x (by simp)).append (q' := s.2 ++ joinWith s.2 ((y :: l).map X)) (ts' := s :: joinTs s ((y :: l).map T)) (Laid.one_cons ?_ ?_ ih) ?_
    · refine .fixed ?_
      simp only [List.mem_cons, List.not_mem_nil, or_false] at hs
      rcases hs with rfl | rfl <;> decide
    · intro c
      simp only [List.mem_cons, List.not_mem_nil, or_false] at hs
      rcases hs with rfl | rfl <;> simp [Sticks]
    · intro c hc
      simp only [List.mem_cons, List.not_mem_nil, or_false] at hs
      rcases hs with rfl | rfl <;> simp at hc <;> subst hc <;> exact free_of (by decide)

theorem eq_token {ty : TokType} {w : PyStr} (g2 : TokenText ty (61 :: w)) : ty = .OPERATOR_EQ := by
  cases g2 with
  | fixed h =>
    have : ∀ p ∈ fixedTokens, p.2.head? = some 61 → p.1 = .OPERATOR_EQ := by decide
    exact this _ h rfl
  | scope h =>
    obtain ⟨s, h⟩ := h
    have : ∀ p ∈ scopeWords, p.1.head? ≠ some 61 := by decide
    exact absurd rfl (this _ h)
  | flags h => have := h.2 61 (by simp); revert this; decide
  | identifier h =>
    rcases h with ⟨c, h, hc⟩ | ⟨a, m, z, h, ha, -⟩
    · simp at h; rw [← h.1] at hc; revert hc; decide
    · simp at h; rw [← h.1] at ha; revert ha; decide
  | integer _ h => simp [isDigit] at h
  | literal h =>
    obtain ⟨hq, -, h⟩ := h
    simp [litText] at h
    rcases hq with hq | hq <;> omega

/-- An expression does not start with `=`. -/
theorem head_not_eq {ts : List (TokType × PyStr)} {a : PyStr} {e : CExpr} (hl : Laid ts a) (hw : e.WF)
    (hr : e.rule = .expression_basic ∨ e.rule = .expression_group) (he : e.lv = bare ts) : a.head? ≠ some 61 := by
  intro hh
  have hfirst : ∃ t r, e.lv = t :: r ∧ t.type ≠ .OPERATOR_EQ := by
    rcases hr with hr | hr
    · obtain ⟨t, r, h1, h2⟩ := head_basic hw hr
      exact ⟨t, r, h1, by rcases h2 with h | h | h | h <;> simp [h]⟩
    · obtain ⟨t, r, h1, h2⟩ := head_group hw hr
      exact ⟨t, r, h1, by simp [h2]⟩
  obtain ⟨t, r, h1, h2⟩ := hfirst
  cases hl with
  | nil h => rw [he] at h1; simp [bare] at h1
  | @cons ws w rest ty ts g1 g2 g3 g4 =>
    rw [h1] at he
    simp only [bare, List.map_cons, List.cons.injEq] at he
    cases ws with
    | cons c ws =>
      have := g1 c (by simp)
      simp only [List.cons_append, List.head?_cons, Option.some.injEq] at hh
      subst hh
      simp [isWs_eq, inRanges, wsRanges] at this
    | nil =>
      cases w with
      | nil => exact g2.ne_nil rfl
      | cons c w =>
        simp only [List.cons_append, List.nil_append, List.head?_cons, Option.some.injEq] at hh
        subst hh
        have hty : ty = .OPERATOR_EQ := eq_token g2
        rw [he.1] at h2
        exact h2 hty

theorem laid_nots {ts : List (TokType × PyStr)} {a : PyStr} (hl : Laid ts a) (hh : a.head? ≠ some 61) :
    ∀ k, Laid (List.replicate k (.NOT, py!"!") ++ ts) (List.replicate k 33 ++ a)
  | 0 => by simpa using hl
  | k + 1 => by
    have ih := laid_nots hl hh k
    have := Laid.cons (ws := []) (by simp) (.fixed (ty := .NOT) (w := py!"!") (by decide)) ih (by
      intro c hc hs
      have hs : c = 61 := hs
      subst hs
      cases k with
      | zero => exact hh (by simpa using hc)
      | succ k => simp [List.replicate_succ] at hc)
    simpa [List.replicate_succ] using this

/-! ### Calmness -/

theorem lone_map {α β : Type} (g : Nat × α → β) (C : List (Nat × α)) : LoneNegation (C.map fun u => (u.1, g u)) ↔ LoneNegation C := by
  constructor
  · rintro ⟨k, a, h⟩
    cases C with
    | nil => simp at h
    | cons u l =>
      cases l with
      | nil =>
        simp at h
        exact ⟨k, u.2, by rw [← h.1]⟩
      | cons w l => simp at h
  · rintro ⟨k, a, rfl⟩
    exact ⟨k, _, rfl⟩

theorem later_map {α β : Type} (g : Nat × α → β) (C : List (Nat × α)) : LaterNegation (C.map fun u => (u.1, g u)) ↔ LaterNegation C := by
  unfold LaterNegation
  rw [← List.map_tail]
  constructor
  · rintro ⟨k, a, h⟩
    obtain ⟨u, hu, e⟩ := List.mem_map.1 h
    simp only [Prod.mk.injEq] at e
    exact ⟨k, u.2, by rw [← e.1]; exact hu⟩
  · rintro ⟨k, a, h⟩
    exact ⟨k, g (k + 1, a), List.mem_map.2 ⟨_, h, rfl⟩⟩

theorem calmRest_map {α β : Type} (g : Nat × α → β) (Cs : List (List (Nat × α))) :
    CalmRest (Cs.map fun C => C.map fun u => (u.1, g u)) ↔ CalmRest Cs := by
  induction Cs with
  | nil => exact Iff.rfl
  | cons C Cs ih => simp only [List.map_cons, CalmRest, lone_map, later_map, ih]; simp

theorem calm_map {α β : Type} (g : Nat × α → β) (Cs : List (List (Nat × α))) :
    Calm (Cs.map fun C => C.map fun u => (u.1, g u)) ↔ Calm Cs := by
  cases Cs with
  | nil => exact Iff.rfl
  | cons C Cs =>
    have e : (Cs.map fun C => C.map fun u => (u.1, g u)).dropLast = Cs.dropLast.map fun C => C.map fun u => (u.1, g u) := by
      induction Cs with
      | nil => rfl
      | cons D Cs ih => cases Cs with
        | nil => rfl
        | cons E Cs => simp only [List.map_cons, List.dropLast_cons_cons, List.cons.injEq, true_and] at ih ⊢; exact ih
    have e2 : (∀ C' ∈ (Cs.map fun C => C.map fun u => (u.1, g u)).dropLast, C'.length = 1) ↔ ∀ C' ∈ Cs.dropLast, C'.length = 1 := by
      rw [e]; simp only [List.mem_map, forall_exists_index, and_imp, forall_apply_eq_imp_iff₂, List.length_map]
    simp only [List.map_cons, Calm, lone_map, later_map, calmRest_map, e2, List.length_map]

/-! ### The nodes -/

theorem notsE_denotes {rt : PyRuntime} {cfg : Config} (hc : cfg.enableSourceLocations = false) {e : CExpr} {n : Node}
    (h : e.Denotes rt cfg n) : ∀ k, (notsE k e).Denotes rt cfg (negated k n)
  | 0 => h
  | k + 1 => ⟨_, notsE_denotes hc h k, by rw [span_none hc]; rfl⟩

theorem tailOf_denotes {α : Type} {rt : PyRuntime} {cfg : Config} {o : Tok} (E : α → CExpr) (N : α → Node) :
    ∀ (l : List α), (∀ x ∈ l, (E x).Denotes rt cfg (N x)) → (tailOf o (l.map E)).Denotes rt cfg (l.map N)
  | [], _ => rfl
  | x :: l, h => ⟨_, _, h x (by simp), tailOf_denotes E N l fun y hy => h y (by simp [hy]), rfl⟩

theorem andE_denotes {α : Type} {rt : PyRuntime} {cfg : Config} (hc : cfg.enableSourceLocations = false) (E : α → CExpr) (N : α → Node)
    (x : α) (l : List α) (h : ∀ y ∈ x :: l, (E y).Denotes rt cfg (N y)) :
    (andE (E x) (l.map E)).Denotes rt cfg (conjunction ((x :: l).map N)) := by
  cases l with
  | nil => exact h x (by simp)
  | cons y l =>
    exact ⟨_, _, h x (by simp), tailOf_denotes E N (y :: l) fun z hz => h z (List.mem_cons_of_mem _ hz), by rw [span_none hc]; rfl⟩

theorem orE_denotes {α : Type} {rt : PyRuntime} {cfg : Config} (hc : cfg.enableSourceLocations = false) (E : α → CExpr) (N : α → Node)
    (x : α) (l : List α) (h : ∀ y ∈ x :: l, (E y).Denotes rt cfg (N y)) :
    (orE (E x) (l.map E)).Denotes rt cfg (disjunctionOf ((x :: l).map N)) := by
  cases l with
  | nil => exact h x (by simp)
  | cons y l =>
    exact ⟨_, _, h x (by simp), tailOf_denotes E N (y :: l) fun z hz => h z (List.mem_cons_of_mem _ hz), by rw [span_none hc]; rfl⟩

/-! ### Tokens of the parts -/

theorem bare_join_and (T : ExprUnit → List (TokType × PyStr)) (U : ExprUnit → CUnit) : ∀ (l : List ExprUnit) (u : ExprUnit),
    (∀ x ∈ u :: l, bare (T x) = unitLv (U x)) → bare (joinTs (.AND, py!"&") ((u :: l).map T)) = chunkLv (U u, l.map U)
  | [], u, h => by simpa [joinTs, chunkLv, restLv] using h u (by simp)
  | w :: l, u, h => by
    have ih := bare_join_and T U l w fun x hx => h x (List.mem_cons_of_mem _ hx)
    have : joinTs (.AND, py!"&") ((u :: w :: l).map T) = T u ++ (.AND, py!"&") :: joinTs (.AND, py!"&") ((w :: l).map T) := rfl
    rw [this, bare_append, h u (by simp)]
    have e2 : bare ((TokType.AND, py!"&") :: joinTs (.AND, py!"&") ((w :: l).map T)) = andTok :: bare (joinTs (.AND, py!"&") ((w :: l).map T)) := rfl
    rw [e2, ih]
    simp [chunkLv, restLv]

theorem bare_join_or {α : Type} (T : α → List (TokType × PyStr)) (U : α → CChunk) : ∀ (l : List α) (u : α),
    (∀ x ∈ u :: l, bare (T x) = chunkLv (U x)) → bare (joinTs (.OR, py!"|") ((u :: l).map T)) = wholeLv (U u) (l.map U)
  | [], u, h => by simpa [joinTs, wholeLv, chunksLv] using h u (by simp)
  | w :: l, u, h => by
    have ih := bare_join_or T U l w fun x hx => h x (List.mem_cons_of_mem _ hx)
    have : joinTs (.OR, py!"|") ((u :: w :: l).map T) = T u ++ (.OR, py!"|") :: joinTs (.OR, py!"|") ((w :: l).map T) := rfl
    rw [this, bare_append, h u (by simp)]
    have e2 : bare ((TokType.OR, py!"|") :: joinTs (.OR, py!"|") ((w :: l).map T)) = orTok :: bare (joinTs (.OR, py!"|") ((w :: l).map T)) := rfl
    rw [e2, ih]
    simp [wholeLv, chunksLv]

/-- What is given for every unit: the text of its atom parses, in brackets, to its node. -/
def UnitsParse (rt : Runtime) (cfg : Config) (Cs : List (List ExprUnit)) : Prop :=
  ∀ C ∈ Cs, C ≠ [] ∧ ∀ u ∈ C, (parseQuery rt cfg (py!"[" ++ u.2.1 ++ py!"]")).1 = .ok (.mk (.segment 1 1) [u.2.2] none) ∧ u.2.2.isAtom

theorem atom_of_parse {rt : Runtime} {cfg : Config} (hc : cfg.enableSourceLocations = false) {a : PyStr} {n : Node}
    (h : (parseQuery rt cfg (py!"[" ++ a ++ py!"]")).1 = .ok (.mk (.segment 1 1) [n] none)) (hn : n.isAtom) :
    ∃ (ts : List (TokType × PyStr)) (e : CExpr), Laid ts a ∧ e.lv = bare ts ∧ Atom e ∧ e.Denotes rt.toPyRuntime cfg n := by
  obtain ⟨-, -, ts, e, h1, h2, h3, h4, h5⟩ := bracket_laid hc h (by rcases hn with ⟨q, i, o, v, f, h⟩ | h <;> simp [h])
  refine ⟨ts, e, h1, h3, ⟨h2, h4, ?_⟩, h5⟩
  cases e with
  | basic a op r => exact .inl rfl
  | group lp e rp => exact .inr rfl
  | or f t => obtain ⟨m, ms, -, -, rfl⟩ := h5; rcases hn with ⟨q, i, o, v, f, h⟩ | h <;> cases h
  | and f t => obtain ⟨m, ms, -, -, rfl⟩ := h5; rcases hn with ⟨q, i, o, v, f, h⟩ | h <;> cases h
  | not b e => obtain ⟨m, -, rfl⟩ := h5; rcases hn with ⟨q, i, o, v, f, h⟩ | h <;> cases h

/-- The syntax of the whole expression, by precedence. -/
theorem whole_of_parse {rt : Runtime} {cfg : Config} (hc : cfg.enableSourceLocations = false) {Cs : List (List ExprUnit)} (hne : Cs ≠ [])
    (h : UnitsParse rt cfg Cs) : ∃ (ts : List (TokType × PyStr)) (e : CExpr), Laid ts (chunksText Cs) ∧ e.WF ∧ e.lv = bare ts ∧
      e.Denotes rt.toPyRuntime cfg (byPrecedence Cs) ∧ (e.Best ↔ Calm Cs) := by
  have hchoice : ∀ u : ExprUnit, ∃ p : List (TokType × PyStr) × CExpr,
      (parseQuery rt cfg (py!"[" ++ u.2.1 ++ py!"]")).1 = .ok (.mk (.segment 1 1) [u.2.2] none) ∧ u.2.2.isAtom →
      Laid p.1 u.2.1 ∧ p.2.lv = bare p.1 ∧ Atom p.2 ∧ p.2.Denotes rt.toPyRuntime cfg u.2.2 := by
    intro u
    by_cases hu : (parseQuery rt cfg (py!"[" ++ u.2.1 ++ py!"]")).1 = .ok (.mk (.segment 1 1) [u.2.2] none) ∧ u.2.2.isAtom
    · obtain ⟨ts, e, h⟩ := atom_of_parse hc hu.1 hu.2
      exact ⟨(ts, e), fun _ => h⟩
    · exact ⟨([], .basic ⟨none, notTok⟩ notTok ⟨notTok, none⟩), fun hu' => absurd hu' hu⟩
  obtain ⟨F, hF⟩ := Classical.axiomOfChoice hchoice
  let U : ExprUnit → CUnit := fun u => (u.1, (F u).2)
  let TU : ExprUnit → List (TokType × PyStr) := fun u => List.replicate u.1 (.NOT, py!"!") ++ (F u).1
  let XU : ExprUnit → PyStr := fun u => List.replicate u.1 33 ++ u.2.1
  let dflt : ExprUnit := (0, [], .mk .wildcard [] none)
  let UC : List ExprUnit → CChunk := fun C => (U (C.headD dflt), C.tail.map U)
  let TC : List ExprUnit → List (TokType × PyStr) := fun C => joinTs (.AND, py!"&") (C.map TU)
  let XC : List ExprUnit → PyStr := fun C => joinWith py!"&" (C.map XU)
  have hU : ∀ C ∈ Cs, ∀ u ∈ C, Laid (TU u) (XU u) ∧ bare (TU u) = unitLv (U u) ∧ Atom (U u).2 ∧
      (unitE (U u)).Denotes rt.toPyRuntime cfg (negated u.1 u.2.2) := by
    intro C hC u hu
    obtain ⟨k1, k2, k3, k4⟩ := hF u ((h C hC).2 u hu)
    refine ⟨laid_nots k1 (head_not_eq k1 k3.wf k3.small k2) u.1, ?_, k3, notsE_denotes hc k4 u.1⟩
    simp only [TU, U, unitLv, bare_append, k2]
    simp [bare, notTok]
  have hC : ∀ C ∈ Cs, Laid (TC C) (XC C) ∧ bare (TC C) = chunkLv (UC C) ∧ ChunkOk (UC C) ∧
      (chunkE (UC C)).Denotes rt.toPyRuntime cfg (conjunction (C.map fun u => negated u.1 u.2.2)) ∧ (UC C).list = C.map fun u => (u.1, (F u).2) := by
    intro C hC
    refine ⟨laid_joinWith (s := (.AND, py!"&")) (by simp) TU XU C fun u hu => (hU C hC u hu).1, ?_⟩
    have hne := (h C hC).1
    have hUC := hU C hC
    cases C with
    | nil => exact absurd rfl hne
    | cons u l =>
      refine ⟨bare_join_and TU U l u fun x hx => (hUC x hx).2.1, ?_, ?_, rfl⟩
      · intro w hw
        have hw : w ∈ (u :: l).map U := hw
        obtain ⟨x, hx, rfl⟩ := List.mem_map.1 hw
        exact (hUC x hx).2.2.1
      · have := andE_denotes hc (rt := rt.toPyRuntime) (fun u => unitE (U u)) (fun u => negated u.1 u.2.2) u l fun y hy => (hUC y hy).2.2.2
        simpa [chunkE, UC, Function.comp_def] using this
  cases Cs with
  | nil => exact absurd rfl hne
  | cons C Cs =>
    have hok : ∀ x ∈ UC C :: Cs.map UC, ChunkOk x := by
      intro x hx
      have hx : x ∈ (C :: Cs).map UC := hx
      obtain ⟨D, hD, rfl⟩ := List.mem_map.1 hx
      exact (hC D hD).2.2.1
    refine ⟨joinTs (.OR, py!"|") ((C :: Cs).map TC), wholeE (UC C) (Cs.map UC), ?_, ?_, ?_, ?_, ?_⟩
    · exact laid_joinWith (s := (.OR, py!"|")) (by simp) TC XC (C :: Cs) fun D hD => (hC D hD).1
    · refine orE_WF (chunkE_ok (hok _ (by simp))) ?_
      intro e he
      obtain ⟨x, hx, rfl⟩ := List.mem_map.1 he
      exact chunkE_ok (hok x (by simp [List.mem_map.1 hx]))
    · rw [wholeE_lv, bare_join_or TC UC Cs C fun D hD => (hC D hD).2.1]
    · have := orE_denotes hc (rt := rt.toPyRuntime) (fun C => chunkE (UC C)) (fun C => conjunction (C.map fun u => negated u.1 u.2.2)) C Cs
        fun D hD => (hC D hD).2.2.2.1
      simpa [wholeE, byPrecedence, Function.comp_def] using this
    · rw [best_whole_iff hok, ← calm_map (fun u => (F u).2) (C :: Cs)]
      have : (UC C :: Cs.map UC).map CChunk.list = (C :: Cs).map fun C => C.map fun u => (u.1, (F u).2) := by
        rw [show UC C :: Cs.map UC = (C :: Cs).map UC from rfl, List.map_map]
        exact List.map_congr_left fun D hD => (hC D hD).2.2.2.2
      rw [this]

/-- **C12.** Take any expression written as `|`-separated chunks of `&`-separated, possibly (repeatedly) negated atoms, an atom
being a comparison or a parenthesised expression.  In brackets, it parses to the disjunction of the conjunctions of the
(negated) atoms if and only if its negations are calm: behind a chunk that is one negated atom no chunk has several operands, and
behind a chunk with a negation after its first operand there is no chunk (where for the first chunk the last chunk does not count).
(Without source locations.) -/
theorem C12_precedence_iff (rt : Runtime) (cfg : Config) (hc : cfg.enableSourceLocations = false) (Cs : List (List ExprUnit)) (hne : Cs ≠ [])
    (h : UnitsParse rt cfg Cs) :
    (parseQuery rt cfg (py!"[" ++ chunksText Cs ++ py!"]")).1 = .ok (.mk (.segment 1 1) [byPrecedence Cs] none) ↔ Calm Cs := by
  obtain ⟨ts, e, h1, h2, h3, h4, h5⟩ := whole_of_parse hc hne h
  constructor
  · intro hp
    obtain ⟨-, -, ts', e', g1, g2, g3, g4, g5⟩ := bracket_laid hc hp (denotes_not_wildcard h4)
    obtain rfl := g1.unique h1
    obtain ⟨rfl, -⟩ := CExpr.same e' e _ [] [] g5 h4 (by rw [g3, h3])
    exact h5.1 g4
  · intro hcalm
    exact bracket_parse hc ⟨ts, e, h1, h2, h3, h5.2 hcalm, h4⟩

/-- The same for every configuration, source locations or not: what is claimed of the returned trees is claimed of the trees
without their locations. -/
theorem C12_precedence_located_iff (rt : Runtime) (cfg : Config) (Cs : List (List ExprUnit)) (hne : Cs ≠ [])
    (h : ∀ C ∈ Cs, C ≠ [] ∧ ∀ u ∈ C, u.2.2.isAtom ∧
      ∃ n, (parseQuery rt cfg (py!"[" ++ u.2.1 ++ py!"]")).1 = .ok n ∧ n.unlocated = .mk (.segment 1 1) [u.2.2] none) :
    (∃ n, (parseQuery rt cfg (py!"[" ++ chunksText Cs ++ py!"]")).1 = .ok n ∧ n.unlocated = .mk (.segment 1 1) [byPrecedence Cs] none) ↔
      Calm Cs := by
  have h' : UnitsParse rt { cfg with enableSourceLocations := false } Cs := by
    intro C hC
    refine ⟨(h C hC).1, fun u hu => ?_⟩
    obtain ⟨h1, n, h2, h3⟩ := (h C hC).2 u hu
    exact ⟨by rw [parse_off h2, h3], h1⟩
  rw [← C12_precedence_iff rt { cfg with enableSourceLocations := false } rfl Cs hne h']
  constructor
  · rintro ⟨n, h1, h2⟩
    rw [parse_off h1, h2]
  · exact parse_on

/-- Without negations `&` always binds tighter than `|`. -/
theorem C12_without_negation (rt : Runtime) (cfg : Config) (hc : cfg.enableSourceLocations = false) (Cs : List (List ExprUnit)) (hne : Cs ≠ [])
    (h : UnitsParse rt cfg Cs) (h0 : ∀ C ∈ Cs, ∀ u ∈ C, u.1 = 0) :
    (parseQuery rt cfg (py!"[" ++ chunksText Cs ++ py!"]")).1 = .ok (.mk (.segment 1 1) [byPrecedence Cs] none) := by
  refine (C12_precedence_iff rt cfg hc Cs hne h).2 ?_
  have hl : ∀ C ∈ Cs, ¬ LoneNegation C ∧ ¬ LaterNegation C := by
    intro C hC
    refine ⟨?_, ?_⟩
    · rintro ⟨k, a, rfl⟩
      have := h0 _ hC _ (List.mem_singleton.2 rfl)
      simp at this
    · rintro ⟨k, a, hk⟩
      have := h0 _ hC _ (List.mem_of_mem_tail hk)
      simp at this
  have hr : ∀ Ds : List (List ExprUnit), (∀ C ∈ Ds, ¬ LoneNegation C ∧ ¬ LaterNegation C) → CalmRest Ds := by
    intro Ds
    induction Ds with
    | nil => exact fun _ => trivial
    | cons D Ds ih =>
      exact fun hD => ⟨fun k => absurd k (hD D (by simp)).1, fun k => absurd k (hD D (by simp)).2, ih fun C hC => hD C (by simp [hC])⟩
  cases Cs with
  | nil => trivial
  | cons C Cs => exact ⟨fun k => absurd k (hl C (by simp)).1, fun k => absurd k (hl C (by simp)).2, hr Cs fun D hD => hl D (by simp [hD])⟩

/-- With at most one `|` (as in all examples of the grammar comments), `!` always binds tighter than `&`, and `&` tighter than `|`. -/
theorem C12_at_most_one_or (rt : Runtime) (cfg : Config) (hc : cfg.enableSourceLocations = false) (Cs : List (List ExprUnit)) (hne : Cs ≠ [])
    (h : UnitsParse rt cfg Cs) (h2 : Cs.length ≤ 2) :
    (parseQuery rt cfg (py!"[" ++ chunksText Cs ++ py!"]")).1 = .ok (.mk (.segment 1 1) [byPrecedence Cs] none) := by
  refine (C12_precedence_iff rt cfg hc Cs hne h).2 ?_
  match Cs, h2 with
  | [], _ => trivial
  | [C], _ => simp [Calm, CalmRest]
  | [C, D], _ => simp [Calm, CalmRest]

/-! ### Cases

`cmp x`: the comparison `x = '1'`. -/

private abbrev cmp (x : PyStr) : Node := .mk (.expression none x .EQUALS py!"1" none) [] none
private abbrev unit (k : Nat) (x : PyStr) : ExprUnit := (k, x ++ py!"='1'", cmp x)

private theorem units_abcd (Cs : List (List ExprUnit)) (h : ∀ C ∈ Cs, C ≠ [] ∧ ∀ u ∈ C, u.2 ∈ [(unit 0 py!"a").2, (unit 0 py!"b").2, (unit 0 py!"c").2, (unit 0 py!"d").2]) :
    UnitsParse rt0 defaultConfig Cs := by
  intro C hC
  refine ⟨(h C hC).1, fun u hu => ?_⟩
  have hu := (h C hC).2 u hu
  have key : ∀ p ∈ [(unit 0 py!"a").2, (unit 0 py!"b").2, (unit 0 py!"c").2, (unit 0 py!"d").2],
      (parseQuery rt0 defaultConfig (py!"[" ++ p.1 ++ py!"]")).1 = .ok (.mk (.segment 1 1) [p.2] none) := by decide +kernel
  refine ⟨key _ hu, ?_⟩
  simp only [List.mem_cons, List.not_mem_nil, or_false] at hu
  rcases hu with e | e | e | e <;> rw [e] <;> exact .inl ⟨_, _, _, _, _, rfl⟩

/-- The hypotheses are met, with negations, several `&` and one `|`: `[!a='1'&b='1'|c='1'&!!d='1']`. -/
example : (parseQuery rt0 defaultConfig py!"[!a='1'&b='1'|c='1'&!!d='1']").1 = .ok (.mk (.segment 1 1) [.mk .or
    [.mk .and [.mk .not [cmp py!"a"] none, cmp py!"b"] none,
     .mk .and [cmp py!"c", .mk .not [.mk .not [cmp py!"d"] none] none] none] none] none) :=
  C12_at_most_one_or rt0 defaultConfig rfl [[unit 1 py!"a", unit 0 py!"b"], [unit 0 py!"c", unit 2 py!"d"]] (by simp)
    (units_abcd _ (by decide)) (by simp)

/-- … and several `|`: `[a='1'&b='1'|!c='1'|d='1']`. -/
example : (parseQuery rt0 defaultConfig py!"[a='1'&b='1'|!c='1'|d='1']").1 = .ok (.mk (.segment 1 1) [.mk .or
    [.mk .and [cmp py!"a", cmp py!"b"] none, .mk .not [cmp py!"c"] none, cmp py!"d"] none] none) :=
  (C12_precedence_iff rt0 defaultConfig rfl [[unit 0 py!"a", unit 0 py!"b"], [unit 1 py!"c"], [unit 0 py!"d"]] (by simp)
    (units_abcd _ (by decide))).2 (by simp [Calm, CalmRest, LoneNegation, LaterNegation])

/-- **The comment in the grammar is wrong in general.**  Three expressions with two `|` and one `!` each, and what they are parsed to: `a & !b | c | d`
to `(a & (!b | c)) | d`; `!a | b & c | d` to `(!(a | b) & c) | d`; `a | !b | c & d` to `a | (!(b | c) & d)`. -/
theorem C12_negation_swallows :
    (parseQuery rt0 defaultConfig py!"[a='1'&!b='1'|c='1'|d='1']").1 = .ok (.mk (.segment 1 1) [.mk .or
      [.mk .and [cmp py!"a", .mk .or [.mk .not [cmp py!"b"] none, cmp py!"c"] none] none, cmp py!"d"] none] none) ∧
    (parseQuery rt0 defaultConfig py!"[!a='1'|b='1'&c='1'|d='1']").1 = .ok (.mk (.segment 1 1) [.mk .or
      [.mk .and [.mk .not [.mk .or [cmp py!"a", cmp py!"b"] none] none, cmp py!"c"] none, cmp py!"d"] none] none) ∧
    (parseQuery rt0 defaultConfig py!"[a='1'|!b='1'|c='1'&d='1']").1 = .ok (.mk (.segment 1 1) [.mk .or
      [cmp py!"a", .mk .and [.mk .not [.mk .or [cmp py!"b", cmp py!"c"] none] none, cmp py!"d"] none] none] none) := by
  decide +kernel

end Fcsql
