/-
C44-C46: queries put together from queries.
-/
import Verif.Proofs.Join

set_option autoImplicit false
set_option linter.unusedSimpArgs false

namespace Fcsql

attribute [local irreducible] parseQuery

/-! ### C44 -/

theorem scope_quotes {w : PyStr} {sc : Scope} (h : (w, sc) ∈ scopeWords) : 34 ∉ w ∧ 39 ∉ w := by
  have : ∀ p ∈ scopeWords, 34 ∉ p.1 ∧ 39 ∉ p.1 := by decide
  exact this _ h

theorem scopeWords_unique {w : PyStr} {sc sc' : Scope} (h : (w, sc) ∈ scopeWords) (h' : (w, sc') ∈ scopeWords) : sc = sc' := by
  have : ∀ p ∈ scopeWords, ∀ p' ∈ scopeWords, p.1 = p'.1 → p.2 = p'.2 := by decide
  exact this _ h _ h' rfl

/-- **C44.** `Q within w`, for a scope word `w`, parses exactly if `Q` parses to a query without `within`, and then to that
query within the scope `w` stands for (without source locations). -/
theorem C44_within (rt : Runtime) (cfg : Config) (hc : cfg.enableSourceLocations = false) (Q w : PyStr) (sc : Scope)
    (hw : (w, sc) ∈ scopeWords) (n' : Node) :
    (parseQuery rt cfg (Q ++ py!" within " ++ w)).1 = .ok n' ↔
      ∃ n, (parseQuery rt cfg Q).1 = .ok n ∧ n.kind ≠ .withWithin ∧ n' = .mk .withWithin [n, .mk (.within sc) [] none] none := by
  have e : Q ++ py!" within " ++ w = Q ++ 32 :: (py!"within" ++ 32 :: w) := by simp
  constructor
  · intro h
    have hl := laid_of_parse h
    obtain ⟨q1, q2⟩ := scope_quotes hw
    obtain ⟨T1, T2, e1, k1, k2⟩ := hl.cut (P := Q ++ py!" within") (w := w) (c := 32) (by decide) q1 q2 (by simp)
    obtain ⟨T11, T12, rfl, k3, k4⟩ := k1.cut (P := Q) (w := py!"within") (c := 32) (by decide) (by decide) (by decide) (by simp)
    obtain rfl := k4.unique (Laid.one (.fixed (ty := .WITHIN) (w := py!"within") (by decide)))
    obtain rfl := k2.unique (Laid.one (.scope ⟨sc, hw⟩))
    rw [e1] at hl
    rcases (parse_laid rt hc hl n').1 h with ⟨c, c1, c2, -⟩ | ⟨ts', w', sc', m', e2, k5, k6, rfl⟩
    · refine (not_main_within c1 (ts := bare T11) (w := Tok.ofWhat (.WITHIN, py!"within"))
        (x := Tok.ofWhat (.SIMPLE_WITHIN_SCOPE, w)) rfl (by simp [Tok.ofWhat, plainTy]) ?_).elim
      rw [c2]; simp
    · have e3 : T11 ++ [(.WITHIN, py!"within"), (.SIMPLE_WITHIN_SCOPE, w)] = ts' ++ [(.WITHIN, py!"within"), (.SIMPLE_WITHIN_SCOPE, w')] := by
        simpa using e2
      obtain ⟨rfl, e4⟩ := List.append_inj' e3 rfl
      simp only [List.cons.injEq, and_true, Prod.mk.injEq, true_and] at e4
      subst e4
      refine ⟨m', (parse_laid rt hc k3 m').2 (.inl k6), k6.kind, ?_⟩
      rw [scopeWords_unique hw k5]
  · rintro ⟨n, h, hn, rfl⟩
    have hl := laid_of_parse h
    have hm : MainOf rt cfg ((lexTokens Q).map Tok.what) n := by
      rcases (parse_laid rt hc hl n).1 h with h | ⟨_, _, _, _, _, _, _, rfl⟩
      · exact h
      · exact absurd rfl hn
    have hl2 := hl.join ((Laid.one (.fixed (ty := .WITHIN) (w := py!"within") (by decide))).join (Laid.one (.scope ⟨sc, hw⟩))
      (c := 32) (by decide)) (c := 32) (by decide)
    rw [e, parse_laid rt hc hl2]
    exact .inr ⟨_, w, sc, n, rfl, hw, hm, rfl⟩

example : (parseQuery rt0 defaultConfig py!"'a'* within s").1 = .ok (.mk .withWithin
    [.mk (.segment 0 (-1)) [.mk (.expression none py!"text" .EQUALS py!"a" none) [] none] none, .mk (.within .SENTENCE) [] none] none) :=
  (C44_within rt0 defaultConfig rfl py!"'a'*" py!"s" .SENTENCE (by decide) _).2 ⟨_, by decide +kernel, by decide, rfl⟩

/-- The type of a word. -/
theorem name_token {w : PyStr} (h : IsName w) : ∃ ty, TokenText ty w ∧ plainTy ty ∧ (ty = .SIMPLE_WITHIN_SCOPE → IsScopeWord w) := by
  by_cases h1 : w = py!"within"
  · subst h1; exact ⟨.WITHIN, .fixed (by decide), by simp [plainTy], by simp⟩
  by_cases h2 : IsScopeWord w
  · exact ⟨_, .scope h2, by simp [plainTy], fun _ => h2⟩
  by_cases h3 : IsFlags w
  · exact ⟨_, .flags h3, by simp [plainTy], by simp⟩
  · exact ⟨_, .identifier h h1 h2 h3, by simp [plainTy], by simp⟩

theorem isName_quotes {w : PyStr} (h : IsName w) : 34 ∉ w ∧ 39 ∉ w := by
  constructor <;> intro hm <;> rcases h.chars _ hm with h | h <;> simp [isAlnum, isLetter, isDigit] at h

/-- **C44.** Any other word after `within` is rejected, whatever stands before. -/
theorem C44_other_word (rt : Runtime) (cfg : Config) (Q w : PyStr) (hw : IsName w) (hs : ¬ IsScopeWord w) (n : Node) :
    (parseQuery rt cfg (Q ++ py!" within " ++ w)).1 ≠ .ok n := by
  intro h
  obtain ⟨m, h1, -⟩ := C24_same_tree rt cfg false _ n h
  generalize hcfg : ({ cfg with enableSourceLocations := false } : Config) = cfg' at h1
  have hc : cfg'.enableSourceLocations = false := by rw [← hcfg]
  have hl := laid_of_parse h1
  obtain ⟨q1, q2⟩ := isName_quotes hw
  obtain ⟨T1, T2, e1, k1, k2⟩ := hl.cut (P := Q ++ py!" within") (w := w) (c := 32) (by decide) q1 q2 (by simp)
  obtain ⟨T11, T12, rfl, k3, k4⟩ := k1.cut (P := Q) (w := py!"within") (c := 32) (by decide) (by decide) (by decide) (by simp)
  obtain ⟨ty, t1, t2, t3⟩ := name_token hw
  obtain rfl := k4.unique (Laid.one (.fixed (ty := .WITHIN) (w := py!"within") (by decide)))
  obtain rfl := k2.unique (Laid.one t1)
  rw [e1] at hl
  rcases (parse_laid rt hc hl m).1 h1 with ⟨c, c1, c2, -⟩ | ⟨ts', w', sc, m', e2, k5, -⟩
  · refine not_main_within c1 (ts := bare T11) (w := Tok.ofWhat (.WITHIN, py!"within")) (x := Tok.ofWhat (ty, w)) rfl t2 ?_
    rw [c2]; simp
  · have e3 : T11 ++ [(.WITHIN, py!"within")] ++ [(ty, w)] = (ts' ++ [(.WITHIN, py!"within")]) ++ [(.SIMPLE_WITHIN_SCOPE, w')] := by simpa using e2
    have e4 := (List.append_inj' e3 rfl).2
    simp only [List.cons.injEq, and_true, Prod.mk.injEq] at e4
    exact hs (t3 e4.1)

example : (parseQuery rt0 defaultConfig (py!"'a' within s" ++ py!" within " ++ py!"foo-1")).1 ≠ .ok (.mk .wildcard [] none) :=
  C44_other_word _ _ _ _ (.inr ⟨102, py!"oo-", 49, rfl, by decide, by decide, by decide⟩) (by rintro ⟨s, h⟩; simp [scopeWords] at h) _

/-- **C44.** The root of a returned tree is a QueryWithWithin exactly if the last two tokens of the query are
`within` and a scope word. -/
theorem C44_root (rt : Runtime) (cfg : Config) (q : PyStr) (n : Node) (h : (parseQuery rt cfg q).1 = .ok n) :
    n.kind = .withWithin ↔ ∃ ts w, Laid (ts ++ [(.WITHIN, py!"within"), (.SIMPLE_WITHIN_SCOPE, w)]) q := by
  obtain ⟨m, h1, h2⟩ := C24_same_tree rt cfg false _ n h
  have hk : n.kind = m.kind := by
    have := congrArg Node.kind h2
    cases n; cases m
    simpa [Node.unlocated, Node.kind] using this.symm
  rw [hk]
  generalize hcfg : ({ cfg with enableSourceLocations := false } : Config) = cfg' at h1
  have hc : cfg'.enableSourceLocations = false := by rw [← hcfg]
  have hl := laid_of_parse h1
  constructor
  · intro hk
    rcases (parse_laid rt hc hl m).1 h1 with h | ⟨ts', w', sc, m', e2, -⟩
    · exact absurd hk h.kind
    · exact ⟨ts', w', e2 ▸ hl⟩
  · rintro ⟨ts, w, hl'⟩
    rcases (parse_laid rt hc hl' m).1 h1 with ⟨c, c1, c2, -⟩ | ⟨ts', w', sc, m', e2, -, -, rfl⟩
    · refine (not_main_within c1 (ts := bare ts) (w := Tok.ofWhat (.WITHIN, py!"within"))
        (x := Tok.ofWhat (.SIMPLE_WITHIN_SCOPE, w)) rfl (by simp [Tok.ofWhat, plainTy]) ?_).elim
      rw [c2]; simp
    · rfl

example : Laid ([(.REGEXP, py!"'a'")] ++ [(.WITHIN, py!"within"), (.SIMPLE_WITHIN_SCOPE, py!"turn")]) py!"'a'within turn" :=
  (C49_layout _ _).2 ⟨by decide +kernel, by decide +kernel⟩

/-- **C44.** With any settings, up to source locations. -/
theorem C44_within_located (rt : Runtime) (cfg : Config) (Q w : PyStr) (sc : Scope) (hw : (w, sc) ∈ scopeWords) (n : Node)
    (h : (parseQuery rt cfg Q).1 = .ok n) (hn : n.kind ≠ .withWithin) :
    ∃ n', (parseQuery rt cfg (Q ++ py!" within " ++ w)).1 = .ok n' ∧
      n'.unlocated = .mk .withWithin [n.unlocated, .mk (.within sc) [] none] none :=
  parse_on ((C44_within rt { cfg with enableSourceLocations := false } rfl Q w sc hw _).2
    ⟨_, parse_off h, by rw [unlocated_kind]; exact hn, rfl⟩)

/-! ### C45 -/

/-- The node of a single query (segment or group). -/
def Node.isItem (n : Node) : Prop := (∃ a b, n.kind = .segment a b) ∨ ∃ a b, n.kind = .qgroup a b

theorem main_of_parse {rt : Runtime} {cfg : Config} (hc : cfg.enableSourceLocations = false) {q : PyStr} {n : Node}
    (h : (parseQuery rt cfg q).1 = .ok n) (hn : n.kind ≠ .withWithin) : ∃ ts, Laid ts q ∧ MainOf rt cfg ts n := by
  have hl := laid_of_parse h
  refine ⟨_, hl, ?_⟩
  rcases (parse_laid rt hc hl n).1 h with h | ⟨_, _, _, _, _, _, _, rfl⟩
  · exact h
  · exact absurd rfl hn

theorem items_of_parse {rt : Runtime} {cfg : Config} (hc : cfg.enableSourceLocations = false) :
    ∀ {ps : List (PyStr × Node)}, (∀ p ∈ ps, (parseQuery rt cfg p.1).1 = .ok p.2 ∧ p.2.isItem) →
      ∃ (l : List CQ) (ts : List (TokType × PyStr)), (∀ c ∈ l, c.WF ∧ c.isItem) ∧ (∀ c ∈ l, c.Best) ∧ itemsLv l = bare ts ∧
        Laid ts (joinWith [32] (ps.map Prod.fst)) ∧ (seqTail l).Denotes rt.toPyRuntime cfg (ps.map Prod.snd) ∧ l.length = ps.length
  | [], _ => ⟨[], [], by simp, by simp, rfl, .nil (by simp [joinWith]), rfl, rfl⟩
  | p :: ps, h => by
    obtain ⟨hp, hk⟩ := h p (by simp)
    obtain ⟨l, ts, l1, l2, l3, l4, l5, l6⟩ := items_of_parse hc (ps := ps) fun x hx => h x (by simp [hx])
    obtain ⟨ts0, t1, c, c1, c2, c3, c4, c5⟩ := main_of_parse hc hp (by rcases hk with ⟨_, _, h⟩ | ⟨_, _, h⟩ <;> simp [h])
    have ci : c.isItem := by
      rcases CQ.denotes_kind c5 with ⟨h, -⟩ | ⟨h, -⟩ | ⟨-, h⟩ | ⟨-, h⟩
      · exact .inl h
      · exact .inr h
      · rcases hk with ⟨_, _, h'⟩ | ⟨_, _, h'⟩ <;> simp [h] at h'
      · rcases hk with ⟨_, _, h'⟩ | ⟨_, _, h'⟩ <;> simp [h] at h'
    refine ⟨c :: l, ts0 ++ ts, ?_, ?_, ?_, ?_, ?_, by simp [l6]⟩
    · intro x hx
      rcases List.mem_cons.1 hx with rfl | hx
      · exact ⟨c1, ci⟩
      · exact l1 x hx
    · intro x hx
      rcases List.mem_cons.1 hx with rfl | hx
      · exact c3
      · exact l2 x hx
    · rw [bare_append, ← l3, ← c2]; simp [itemsLv]
    · cases ps with
      | nil =>
        have : l = [] := by simpa using l6
        subst this
        have : ts = [] := by
          have : bare ts = [] := by rw [← l3]; rfl
          simpa [bare] using this
        subst this
        simpa [joinWith] using t1
      | cons p' ps => exact t1.join l4 (c := 32) (by decide)
    · exact ⟨p.2, _, c5, l5, rfl⟩

/-- **C45.** If two or more queries each parse to a segment or a group, then these queries written one after the other, with
spaces between them, parse to the sequence of exactly these trees (without source locations). -/
theorem C45_sequence (rt : Runtime) (cfg : Config) (hc : cfg.enableSourceLocations = false) (ps : List (PyStr × Node))
    (hlen : 2 ≤ ps.length) (h : ∀ p ∈ ps, (parseQuery rt cfg p.1).1 = .ok p.2 ∧ p.2.isItem) :
    (parseQuery rt cfg (joinWith [32] (ps.map Prod.fst))).1 = .ok (.mk .sequence (ps.map Prod.snd) none) := by
  obtain ⟨l, ts, l1, l2, l3, l4, l5, l6⟩ := items_of_parse hc h
  match l, ps with
  | f :: l, p :: ps =>
    rw [parse_laid rt hc l4]
    refine .inl ⟨.seq f (seqTail l), seq_WF l1, by rw [lv_seq, l3], best_seq l1 l2, ?_, ?_⟩
    · intro x hx
      simp only [CQ.seq.injEq] at hx
      cases l with
      | nil =>
        simp only [List.length_cons, List.length_nil] at l6 hlen
        omega
      | cons c l => simp [seqTail] at hx
    · obtain ⟨m, ms, d1, d2, d3⟩ := l5
      simp only [List.map_cons, List.cons.injEq] at d3
      obtain ⟨rfl, rfl⟩ := d3
      exact ⟨_, _, d1, d2, by rw [span_none hc]; rfl⟩
  | _, [] => simp at hlen
  | [], _ :: _ => simp at l6

example : (parseQuery rt0 defaultConfig py!"'a'* ('b' | 'c') []").1 = .ok (.mk .sequence
    [.mk (.segment 0 (-1)) [.mk (.expression none py!"text" .EQUALS py!"a" none) [] none] none,
     .mk (.qgroup 1 1) [.mk .disjunction
       [.mk (.segment 1 1) [.mk (.expression none py!"text" .EQUALS py!"b" none) [] none] none,
        .mk (.segment 1 1) [.mk (.expression none py!"text" .EQUALS py!"c" none) [] none] none] none] none,
     .mk (.segment 1 1) [.mk .wildcard [] none] none] none) :=
  C45_sequence rt0 defaultConfig rfl
    [(py!"'a'*", .mk (.segment 0 (-1)) [.mk (.expression none py!"text" .EQUALS py!"a" none) [] none] none),
     (py!"('b' | 'c')", .mk (.qgroup 1 1) [.mk .disjunction
       [.mk (.segment 1 1) [.mk (.expression none py!"text" .EQUALS py!"b" none) [] none] none,
        .mk (.segment 1 1) [.mk (.expression none py!"text" .EQUALS py!"c" none) [] none] none] none] none),
     (py!"[]", .mk (.segment 1 1) [.mk .wildcard [] none] none)]
    (by decide) (by
      intro p hp
      simp only [List.mem_cons, List.not_mem_nil, or_false] at hp
      rcases hp with rfl | rfl | rfl
      · exact ⟨by decide +kernel, .inl ⟨_, _, rfl⟩⟩
      · exact ⟨by decide +kernel, .inr ⟨_, _, rfl⟩⟩
      · exact ⟨by decide +kernel, .inl ⟨_, _, rfl⟩⟩)

/-- **C45.** With any settings, up to source locations. -/
theorem C45_sequence_located (rt : Runtime) (cfg : Config) (ps : List (PyStr × Node)) (hlen : 2 ≤ ps.length)
    (h : ∀ p ∈ ps, (parseQuery rt cfg p.1).1 = .ok p.2 ∧ p.2.isItem) :
    ∃ n, (parseQuery rt cfg (joinWith [32] (ps.map Prod.fst))).1 = .ok n ∧
      n.unlocated = .mk .sequence (ps.map fun p => p.2.unlocated) none := by
  refine parse_on ?_
  have := C45_sequence rt { cfg with enableSourceLocations := false } rfl (ps.map fun p => (p.1, p.2.unlocated)) (by simpa using hlen) (by
    intro p hp
    obtain ⟨x, hx, rfl⟩ := List.mem_map.1 hp
    exact ⟨parse_off (h x hx).1, by simpa only [Node.isItem, unlocated_kind] using (h x hx).2⟩)
  simpa [List.map_map, Function.comp_def] using this

/-! ### C46 -/

/-- The node of a possible operand of a disjunction: anything but a disjunction or a whole query with `within`. -/
def Node.isOperand (n : Node) : Prop := n.isItem ∨ n.kind = .sequence

/-- How an operand appears in the disjunction: a group is wrapped in a one-element sequence. -/
def Node.asOperand (n : Node) : Node :=
  match n.kind with
  | .qgroup _ _ => .mk .sequence [n] none
  | _ => n

/-- The construct of an operand. -/
theorem operand_of_parse {rt : Runtime} {cfg : Config} (hc : cfg.enableSourceLocations = false) {q : PyStr} {n : Node}
    (h : (parseQuery rt cfg q).1 = .ok n) (hn : n.isOperand) :
    ∃ (ts : List (TokType × PyStr)) (c : CQ), Laid ts q ∧ c.WF ∧ c.Best ∧ c.CanonOp ∧ c.lv = bare ts ∧ c.Denotes rt.toPyRuntime cfg n.asOperand := by
  have hw : n.kind ≠ .withWithin := by rcases hn with (⟨_, _, h⟩ | ⟨_, _, h⟩) | h <;> simp [h]
  obtain ⟨ts, hl, c, c1, c2, c3, c4, c5⟩ := main_of_parse hc h hw
  rcases CQ.denotes_kind c5 with ⟨hr, a, b, hk⟩ | ⟨hr, a, b, hk⟩ | ⟨hr, hk⟩ | ⟨-, hk⟩
  · exact ⟨ts, c, hl, c1, c3, .inl hr, c2, by simpa [Node.asOperand, hk] using c5⟩
  · have hi : ∀ x ∈ [c], x.WF ∧ x.isItem := by simp [c1, CQ.isItem, hr]
    refine ⟨ts, .seq c (seqTail []), hl, seq_WF hi, best_seq hi (by simpa using c3), .inr ⟨rfl, ?_⟩, ?_, ?_⟩
    · intro x hx
      simp only [CQ.seq.injEq] at hx
      rw [← hx.1, hr]; simp
    · rw [lv_seq, ← c2]; simp [itemsLv]
    · simp only [Node.asOperand, hk]
      exact ⟨n, [], c5, rfl, by rw [span_none hc]⟩
  · refine ⟨ts, c, hl, c1, c3, .inr ⟨hr, fun x hx => absurd hx (c4 x)⟩, c2, by simpa [Node.asOperand, hk] using c5⟩
  · rcases hn with (⟨_, _, h⟩ | ⟨_, _, h⟩) | h <;> simp [hk] at h

theorem laid_or : Laid [(.OR, py!"|")] py!"|" := Laid.one (.fixed (by decide))

theorem operands_of_parse {rt : Runtime} {cfg : Config} (hc : cfg.enableSourceLocations = false) :
    ∀ {ps : List (PyStr × Node)} {q0 : PyStr} {ts0 : List (TokType × PyStr)}, Laid ts0 q0 →
      (∀ p ∈ ps, (parseQuery rt cfg p.1).1 = .ok p.2 ∧ p.2.isOperand) →
      ∃ (l : List (Tok × CQ)) (ts : List (TokType × PyStr)), (∀ p ∈ l, p.1.type = .OR ∧ p.2.WF ∧ p.2.Best ∧ p.2.CanonOp) ∧
        opsLv l = bare ts ∧ Laid (ts0 ++ ts) (joinWith py!" | " (q0 :: ps.map Prod.fst)) ∧
        (disjTail l).Denotes rt.toPyRuntime cfg (ps.map fun p => p.2.asOperand) ∧ l.length = ps.length
  | [], q0, ts0, h0, _ => ⟨[], [], by simp, rfl, by simpa [joinWith] using h0, rfl, rfl⟩
  | p :: ps, q0, ts0, h0, h => by
    obtain ⟨hp, hk⟩ := h p (by simp)
    obtain ⟨ts1, c, t1, c1, c2, c3, c4, c5⟩ := operand_of_parse hc hp hk
    obtain ⟨l, ts, l1, l2, l3, l4, l5⟩ := operands_of_parse hc (ps := ps) t1 fun x hx => h x (by simp [hx])
    refine ⟨(Tok.ofWhat (.OR, py!"|"), c) :: l, (.OR, py!"|") :: (ts1 ++ ts), ?_, ?_, ?_, ⟨_, _, c5, l4, rfl⟩, by simp [l5]⟩
    · intro x hx
      rcases List.mem_cons.1 hx with rfl | hx
      · exact ⟨rfl, c1, c2, c3⟩
      · exact l1 x hx
    · simp only [opsLv] at l2
      simp [opsLv, l2, c4]
    · have := h0.join (laid_or.join l3 (c := 32) (by decide)) (c := 32) (by decide)
      simpa [joinWith] using this

/-- **C46.** If two or more queries each parse to a segment, a group or a sequence, then these queries with `|` between them
parse to the disjunction of exactly these trees, groups being wrapped in a one-element sequence (without source locations). -/
theorem C46_disjunction (rt : Runtime) (cfg : Config) (hc : cfg.enableSourceLocations = false) (ps : List (PyStr × Node))
    (hlen : 2 ≤ ps.length) (h : ∀ p ∈ ps, (parseQuery rt cfg p.1).1 = .ok p.2 ∧ p.2.isOperand) :
    (parseQuery rt cfg (joinWith py!" | " (ps.map Prod.fst))).1 = .ok (.mk .disjunction (ps.map fun p => p.2.asOperand) none) := by
  match ps with
  | p :: ps =>
    obtain ⟨hp, hk⟩ := h p (by simp)
    obtain ⟨ts1, c, t1, c1, c2, c3, c4, c5⟩ := operand_of_parse hc hp hk
    obtain ⟨l, ts, l1, l2, l3, l4, l5⟩ := operands_of_parse hc (ps := ps) t1 fun x hx => h x (by simp [hx])
    match l with
    | [] =>
      simp only [List.length_cons, List.length_nil] at l5 hlen
      omega
    | x :: l =>
      rw [List.map_cons, parse_laid rt hc l3]
      have l1' : ∀ p ∈ x :: l, p.1.type = .OR ∧ p.2.WF ∧ p.2.rule ≠ .query_disjunction := fun p hp =>
        ⟨(l1 p hp).1, (l1 p hp).2.1, CanonOp.nd (l1 p hp).2.2.2⟩
      refine .inl ⟨.disj c (disjTail (x :: l)), disj_WF c1 (CanonOp.nd c3) l1', ?_, best_disj ⟨c1, c2, c3⟩ l1, (by rintro x h; cases h), ?_⟩
      · rw [lv_disj, l2, c4, bare_append]
      · exact ⟨_, _, c5, l4, by rw [span_none hc]; rfl⟩
  | [] => simp at hlen

example : (parseQuery rt0 defaultConfig py!"'a' | ('b' 'c')? | [] 'd'").1 = .ok (.mk .disjunction
    [.mk (.segment 1 1) [.mk (.expression none py!"text" .EQUALS py!"a" none) [] none] none,
     .mk .sequence [.mk (.qgroup 0 1) [.mk .sequence
       [.mk (.segment 1 1) [.mk (.expression none py!"text" .EQUALS py!"b" none) [] none] none,
        .mk (.segment 1 1) [.mk (.expression none py!"text" .EQUALS py!"c" none) [] none] none] none] none] none,
     .mk .sequence [.mk (.segment 1 1) [.mk .wildcard [] none] none,
       .mk (.segment 1 1) [.mk (.expression none py!"text" .EQUALS py!"d" none) [] none] none] none] none) :=
  C46_disjunction rt0 defaultConfig rfl
    [(py!"'a'", .mk (.segment 1 1) [.mk (.expression none py!"text" .EQUALS py!"a" none) [] none] none),
     (py!"('b' 'c')?", .mk (.qgroup 0 1) [.mk .sequence
       [.mk (.segment 1 1) [.mk (.expression none py!"text" .EQUALS py!"b" none) [] none] none,
        .mk (.segment 1 1) [.mk (.expression none py!"text" .EQUALS py!"c" none) [] none] none] none] none),
     (py!"[] 'd'", .mk .sequence [.mk (.segment 1 1) [.mk .wildcard [] none] none,
       .mk (.segment 1 1) [.mk (.expression none py!"text" .EQUALS py!"d" none) [] none] none] none)]
    (by decide) (by
      intro p hp
      simp only [List.mem_cons, List.not_mem_nil, or_false] at hp
      rcases hp with rfl | rfl | rfl
      · exact ⟨by decide +kernel, .inl (.inl ⟨_, _, rfl⟩)⟩
      · exact ⟨by decide +kernel, .inl (.inr ⟨_, _, rfl⟩)⟩
      · exact ⟨by decide +kernel, .inr rfl⟩)

/-- **C46.** With any settings, up to source locations. -/
theorem C46_disjunction_located (rt : Runtime) (cfg : Config) (ps : List (PyStr × Node)) (hlen : 2 ≤ ps.length)
    (h : ∀ p ∈ ps, (parseQuery rt cfg p.1).1 = .ok p.2 ∧ p.2.isOperand) :
    ∃ n, (parseQuery rt cfg (joinWith py!" | " (ps.map Prod.fst))).1 = .ok n ∧
      n.unlocated = .mk .disjunction (ps.map fun p => p.2.unlocated.asOperand) none := by
  refine parse_on ?_
  have := C46_disjunction rt { cfg with enableSourceLocations := false } rfl (ps.map fun p => (p.1, p.2.unlocated)) (by simpa using hlen) (by
    intro p hp
    obtain ⟨x, hx, rfl⟩ := List.mem_map.1 hp
    exact ⟨parse_off (h x hx).1, by simpa only [Node.isOperand, Node.isItem, unlocated_kind] using (h x hx).2⟩)
  simpa [List.map_map, Function.comp_def] using this

-- `'a' | []` with locations
example : ∃ n, (parseQuery rt0 locConfig py!"'a' | []").1 = .ok n ∧ n.unlocated = .mk .disjunction
    [.mk (.segment 1 1) [.mk (.expression none py!"text" .EQUALS py!"a" none) [] none] none,
     .mk (.segment 1 1) [.mk .wildcard [] none] none] none :=
  C46_disjunction_located rt0 locConfig
    [(py!"'a'", .mk (.segment 1 1) [.mk (.expression none py!"text" .EQUALS py!"a" none) [] (some ⟨0, 3⟩)] (some ⟨0, 3⟩)),
     (py!"[]", .mk (.segment 1 1) [.mk .wildcard [] (some ⟨0, 2⟩)] (some ⟨0, 2⟩))]
    (by decide) (by
      intro p hp
      simp only [List.mem_cons, List.not_mem_nil, or_false] at hp
      rcases hp with rfl | rfl
      · exact ⟨by decide +kernel, .inl (.inl ⟨_, _, rfl⟩)⟩
      · exact ⟨by decide +kernel, .inl (.inl ⟨_, _, rfl⟩)⟩)

end Fcsql
