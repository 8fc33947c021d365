/-
The program and the parser with all tokens known beforehand do the same: single steps.
-/
import Verif.Proofs.ProgramFetch

set_option autoImplicit false
set_option linter.unusedSimpArgs false

namespace Fcsql

attribute [local irreducible] parserAtn parseQuery lexerAtn lexPieces

/-- As `Sim`, with the current token fetched. -/
structure Sim1 (q : PyStr) (s : PState) (e : EState) : Prop where
  sim : Sim q s e
  read : e.unread ≤ e.rest.length - 1

variable {m : Nat} {q : PyStr} {s : PState} {e : EState}

theorem Sim1.look (hm : 28 ≤ m) (k : Nat) (h : Sim1 q s e) : ∃ s', s.look lexerAtn m q k = some s' ∧ Sim1 q s' (e.look k) := by
  obtain ⟨s', h1, h2⟩ := sim_look hm k h.sim
  exact ⟨s', h1, h2, by simp only [EState.look]; omega⟩

theorem Sim.first (hm : 28 ≤ m) (h : Sim q s e) : ∃ s', s.look lexerAtn m q 0 = some s' ∧ Sim1 q s' (e.look 0) := by
  obtain ⟨s', h1, h2⟩ := sim_look hm 0 h
  exact ⟨s', h1, h2, by simp only [EState.look]; omega⟩

theorem Sim1.note (h : Sim1 q s e) (d : Choice) : Sim1 q s (e.note d) := by
  obtain ⟨h, hr⟩ := h
  exact ⟨⟨h.1, h.2, h.3, h.4, h.5, h.6, h.7, h.8, h.9, h.10, h.11, h.12, h.13⟩, hr⟩

theorem Sim1.at (h : Sim1 q s e) (st : Nat) : Sim1 q (s.at st) (e.at st) := by
  obtain ⟨h, hr⟩ := h
  exact ⟨⟨rfl, h.2, h.3, h.4, h.5, h.6, h.7, h.8, h.9, h.10, h.11, h.12, h.13⟩, hr⟩

theorem Sim.endError (h : Sim q s e) : Sim q s.endError e.endError :=
  ⟨h.1, rfl, rfl, h.4, .inl ⟨rfl, rfl⟩, h.6, h.7, h.8, h.9, h.10, h.11, h.12, h.13⟩

theorem Sim1.endError (h : Sim1 q s e) : Sim1 q s.endError e.endError := ⟨h.sim.endError, h.read⟩

theorem Sim1.report (h : Sim1 q s e) (t : Tok) (msg : PyStr) : Sim1 q (s.report (rawOf q t) msg) (e.report t msg) := by
  obtain ⟨h, hr⟩ := h
  unfold PState.report EState.report
  rw [h.recovering]
  split
  · exact ⟨h, hr⟩
  · refine ⟨⟨h.1, rfl, h.3, h.4, h.5, h.6, h.7, h.8, h.9, h.10, h.11, ?_, ?_⟩, hr⟩
    · simp only
      rw [listener_report q t msg e.reports 0 h.order, List.map_append, h.calls]
      rfl
    · intro r hr
      rcases List.mem_append.1 hr with hr | hr
      · exact h.order r hr
      · rw [List.mem_singleton] at hr; subst hr; exact Nat.le_refl _

theorem Sim.toks (h : Sim q s e) : s.toks q = e.rest.take (e.rest.length - e.unread) := by
  unfold PState.toks
  rw [h.tokens, List.map_map]
  have : ∀ l : List Tok, (∀ x ∈ l, x ∈ tokenStream q) → l.map (RawTok.tok q ∘ rawOf q) = l := by
    intro l hl
    conv => rhs; rw [← List.map_id l]
    exact List.map_congr_left fun x hx => tok_rawOf (hl x hx)
  exact this _ fun x hx => h.rest.subset (List.mem_of_mem_take hx)

theorem Sim1.toks_cons (h : Sim1 q s e) {x : Tok} {xs : List Tok} (hr : e.rest = x :: xs) :
    s.toks q = x :: xs.take (xs.length - e.unread) := by
  rw [h.sim.toks, hr]
  have := h.read
  rw [hr] at this
  simp only [List.length_cons] at this ⊢
  rw [show xs.length + 1 - e.unread = (xs.length - e.unread) + 1 by omega]
  rfl

theorem Sim.toks_nil (h : Sim q s e) (hr : e.rest = []) : s.toks q = [] := by rw [h.toks, hr, List.take_nil]

theorem Sim1.la (h : Sim1 q s e) : la (s.toks q) = Fcsql.la e.rest := by
  cases hr : e.rest with
  | nil => rw [h.sim.toks_nil hr]
  | cons x xs => rw [h.toks_cons hr]; rfl

theorem eof_raw (t : Tok) : (rawOf q t).type = -1 ↔ t.type = .EOF := by
  constructor
  · intro h; exact TokType.num_inj (show t.type.num = TokType.EOF.num from h)
  · intro h; simp only [rawOf, h]; rfl

theorem Sim1.current (h : Sim1 q s e) : s.current = rawOf q (e.current (eofTok q)) := by
  unfold PState.current EState.current
  cases hr : e.rest with
  | nil =>
    have hu := h.sim.unread
    rw [hr] at hu
    have ht := h.sim.tokens
    rw [hr] at ht
    rw [ht, h.sim.last (by simpa using hu)]
    simp [rawOf_eof]
  | cons x xs =>
    have ht := h.sim.tokens
    have hu := h.read
    rw [hr] at ht hu
    simp only [List.length_cons] at hu ht
    rw [ht, show xs.length + 1 - e.unread = (xs.length - e.unread) + 1 by omega]
    rfl

theorem Sim1.current_mem (h : Sim1 q s e) : e.current (eofTok q) ∈ tokenStream q := by
  unfold EState.current
  cases hr : e.rest with
  | nil => simp [tokenStream]
  | cons x xs => exact h.sim.rest.subset (by rw [hr]; simp)

theorem Sim1.current_tok (h : Sim1 q s e) : s.current.tok q = e.current (eofTok q) := by
  rw [h.current, tok_rawOf h.current_mem]

theorem Sim.only (h : Sim q s e) : ∀ us x vs, e.rest = us ++ x :: vs → x.type = .EOF → vs = [] := by
  intro us x vs e1 hx
  obtain ⟨ws, hw⟩ := h.rest
  exact (ending_stream q).only (ws ++ us) x vs (by rw [← hw, e1]; simp) hx

/-- A token that is not `EOF` is not the last. -/
theorem Sim.more (h : Sim q s e) {x : Tok} {xs : List Tok} (hr : e.rest = x :: xs) (hx : x.type ≠ .EOF) : xs ≠ [] := by
  rintro rfl
  obtain ⟨ws, hw⟩ := h.rest
  rw [hr, tokenStream] at hw
  have := (List.append_inj' hw rfl).2
  simp only [List.cons.injEq, and_true] at this
  exact hx (this ▸ rfl)

theorem Sim1.advance (h : Sim1 q s e) : Sim q s.advance { e with rest := e.rest.tail } := by
  obtain ⟨h, hr⟩ := h
  cases hrest : e.rest with
  | nil =>
    have ht := h.tokens
    rw [hrest, List.take_nil] at ht
    have : s.advance = s := by unfold PState.advance; rw [ht]; rfl
    rw [this]
    have : ({ e with rest := ([] : List Tok).tail } : EState) = e := by cases e; simp at hrest; simp [hrest]
    rw [this]
    exact h
  | cons x xs =>
    have ht := h.tokens
    have hi := h.index
    rw [hrest] at hr ht hi
    simp only [List.length_cons] at hr ht hi
    rw [show xs.length + 1 - e.unread = (xs.length - e.unread) + 1 by omega] at ht
    have : s.advance = { s with tokens := (xs.take (xs.length - e.unread)).map (rawOf q), index := s.index + 1 } := by
      unfold PState.advance; rw [ht]; rfl
    rw [this]
    refine ⟨h.1, h.2, h.3, ?_, h.5, ?_, ?_, rfl, h.9, h.10, h.11, h.12, h.13⟩
    · simp only [List.tail_cons]; omega
    · exact (List.suffix_cons x xs).trans (hrest ▸ h.rest)
    · simp only [List.tail_cons]; omega

theorem Sim1.matched (hm : 28 ≤ m) (h : Sim1 q s e) : ∃ s', s.matched lexerAtn m q = some s' ∧ Sim1 q s' (e.matched e.rest.tail) :=
  h.advance.endError.first hm

theorem EState.look_zero {e : EState} (h : e.unread ≤ e.rest.length - 1) : e.look 0 = e := by
  unfold EState.look
  rw [Nat.min_eq_left (by omega)]

theorem EState.skip_short {e : EState} (h : e.unread ≤ e.rest.length - 1) (hl : e.rest.length ≤ 1) (k : Nat) : e.skip k = e := by
  unfold EState.skip
  rw [skipTo_short hl]
  exact EState.look_zero h

theorem EState.skip_zero {e : EState} (h : e.unread ≤ e.rest.length - 1) : e.skip 0 = e := by
  unfold EState.skip
  rw [skipTo_none]
  exact EState.look_zero h

theorem EState.skip_skip (e : EState) (j k : Nat) : (e.skip j).skip k = e.skip (j + k) := by
  simp only [EState.skip, EState.look, skipTo_skipTo]
  congr 1
  rw [length_skipTo, length_skipTo]
  omega

theorem Sim1.consume (hm : 28 ≤ m) (h : Sim1 q s e) : ∃ s', s.consume lexerAtn m q = some s' ∧ Sim1 q s' (e.skip 1) := by
  unfold PState.consume
  rw [h.current]
  by_cases hx : (e.current (eofTok q)).type = .EOF
  · rw [if_pos ((eof_raw _).2 hx)]
    have hl : e.rest.length ≤ 1 := by
      cases hr : e.rest with
      | nil => simp
      | cons x xs =>
        rw [EState.current, hr] at hx
        have := h.sim.only [] x xs hr hx
        subst this; simp
    rw [EState.skip_short h.read hl]
    exact ⟨s, rfl, h⟩
  · rw [if_neg (fun h' => hx ((eof_raw _).1 h'))]
    have hsk : skipTo 1 e.rest = e.rest.tail := by
      cases hr : e.rest with
      | nil => rfl
      | cons x xs =>
        rw [EState.current, hr] at hx
        cases xs with
        | nil => exact absurd rfl (h.sim.more hr hx)
        | cons y ys => rw [skipTo_one]; rfl
    obtain ⟨s', h1, h2⟩ := h.advance.first hm
    refine ⟨s', h1, ?_⟩
    unfold EState.skip
    rw [hsk]
    exact h2

theorem Sim1.until (hm : 28 ≤ m) (set : Int → Bool) : ∀ (n : Nat) {s : PState} {e : EState}, Sim1 q s e → e.rest.length < n →
    ∃ s', s.until lexerAtn m q set n = some s' ∧ Sim1 q s' (e.skip (untilTok set e.rest)) := by
  intro n
  induction n with
  | zero => intro s e _ h; cases h
  | succ n ih =>
    intro s e h hn
    rw [PState.until, h.la]
    cases hr : e.rest with
    | nil =>
      rw [if_pos (by simp [Fcsql.la])]
      refine ⟨s, rfl, ?_⟩
      rw [EState.skip_short h.read (by simp [hr])]
      exact h
    | cons x xs =>
      by_cases hc : x.type = .EOF ∨ set x.type.num = true
      · rw [if_pos]
        · refine ⟨s, rfl, ?_⟩
          have : untilTok set (x :: xs) = 0 := by
            unfold untilTok
            rw [List.takeWhile_cons_of_neg]; rfl
            rcases hc with hc | hc <;> simp [hc]
          rw [this, EState.skip_zero h.read]
          exact h
        · rcases hc with hc | hc
          · simp [Fcsql.la, hc, TokType.num]
          · simp [Fcsql.la, hc]
      · have hc1 : x.type ≠ .EOF := fun h => hc (.inl h)
        have hc2 : set x.type.num = false := by
          cases hh : set x.type.num with
          | true => exact absurd (.inr hh) hc
          | false => rfl
        rw [if_neg]
        · obtain ⟨s1, h1, h2⟩ := h.consume hm
          rw [h1]
          simp only
          have hxs := h.sim.more hr hc1
          have hsk : skipTo 1 e.rest = xs := by
            rw [hr]
            cases xs with
            | nil => exact absurd rfl hxs
            | cons y ys => rw [skipTo_one]
          have hrest : (e.skip 1).rest = xs := hsk
          obtain ⟨s2, h3, h4⟩ := ih h2 (by rw [hrest]; rw [hr, List.length_cons] at hn; omega)
          refine ⟨s2, h3, ?_⟩
          rw [hrest, EState.skip_skip] at h4
          have : untilTok set (x :: xs) = 1 + untilTok set xs := by
            unfold untilTok
            rw [List.takeWhile_cons_of_pos (by simp [hc1, hc2]), List.length_cons, Nat.add_comm]
          rw [this]
          exact h4
        · intro h'
          simp only [Fcsql.la, hc2, Bool.or_false, decide_eq_true_eq] at h'
          exact hc1 (TokType.num_inj (show x.type.num = TokType.EOF.num from of_decide_eq_true h'))

variable {A : Atn}

theorem look_look {k j : Nat} (hk : k ≤ j) (e : EState) : (e.look k).look j = e.look j := by
  unfold EState.look
  simp only
  rw [show min (min e.unread (e.rest.length - 1 - k)) (e.rest.length - 1 - j) = min e.unread (e.rest.length - 1 - j) by omega]

theorem look_less {k j : Nat} (hk : j ≤ k) (e : EState) : (e.look k).look j = e.look k := by
  unfold EState.look
  simp only
  rw [show min (min e.unread (e.rest.length - 1 - k)) (e.rest.length - 1 - j) = min e.unread (e.rest.length - 1 - k) by omega]

theorem look_end {k j : Nat} (hk : e.rest.length ≤ k) : (e.look k).look j = e.look k := by
  unfold EState.look
  simp only
  rw [show min (min e.unread (e.rest.length - 1 - k)) (e.rest.length - 1 - j) = min e.unread (e.rest.length - 1 - k) by omega]

theorem look_max {k j : Nat} (e : EState) : (e.look k).look j = e.look (max k j) := by
  rcases Nat.le_total k j with h | h
  · rw [look_look h, Nat.max_eq_right h]
  · rw [look_less h, Nat.max_eq_left h]

/-- The token that is looked at. -/
theorem Sim1.token {k : Nat} (h : Sim1 q s (e.look k)) : (s.toks q)[k]? = e.rest[k]? := by
  rw [h.sim.toks]
  simp only [EState.look]
  rw [List.getElem?_take]
  split
  · rfl
  · rw [List.getElem?_eq_none]; omega

theorem drop_cons {α : Type} {l : List α} {k : Nat} {x : α} (h : l[k]? = some x) : l.drop k = x :: l.drop (k + 1) := by
  obtain ⟨hk, rfl⟩ := List.getElem?_eq_some_iff.1 h
  exact List.drop_eq_getElem_cons hk

theorem Sim1.full (hm : 28 ≤ m) : ∀ (n : Nat) (S : AConfigSet) (k : Nat) {s : PState} {e : EState}, Sim1 q s e → e.rest.length - k < n →
    ∃ r s', fullP lexerAtn m q A n S k s = some (r, s') ∧ Sim1 q s' (e.look (k + A.llLook S (e.rest.drop k))) ∧
      r.1 = A.llLoop S (e.rest.drop k) ∧ (r.1 = none → r.2 = k + A.llStop S (e.rest.drop k)) := by
  intro n
  induction n with
  | zero => intro S k s e _ h; cases h
  | succ n ih =>
    intro S k s e h hn
    obtain ⟨s1, h1, h2⟩ := h.look hm k
    rw [fullP, h1]
    simp only
    rw [h2.token]
    cases hx : e.rest[k]? with
    | none =>
      have := List.getElem?_eq_none_iff.1 hx
      rw [List.drop_of_length_le this]
      exact ⟨_, s1, rfl, h2, rfl, fun _ => rfl⟩
    | some x =>
      have hd := drop_cons hx
      have hlt := (List.getElem?_eq_some_iff.1 hx).1
      rw [hd, Atn.llLook, Atn.llLoop, Atn.llStop]
      simp only
      by_cases hr : (A.reachSet true S x.type.num).isEmpty = true
      · simp only [hr, if_true]
        exact ⟨_, s1, rfl, h2, rfl, fun _ => rfl⟩
      · simp only [hr, if_false, Bool.false_eq_true]
        cases hu : (A.reachSet true S x.type.num).uniqueAlt with
        | some i => exact ⟨_, s1, rfl, h2, rfl, fun hn => by cases hn⟩
        | none =>
          simp only
          cases hc : AConfigSet.resolves (A.reachSet true S x.type.num).conflictingAltSubsets with
          | some i => exact ⟨_, s1, rfl, h2, rfl, fun hn => by cases hn⟩
          | none =>
            simp only
            obtain ⟨r, s2, k1, k2, k3, k4⟩ := ih (A.reachSet true S x.type.num) (k + 1) h2 (by simp only [EState.look]; omega)
            refine ⟨r, s2, k1, ?_, k3, fun hr => ?_⟩
            · rw [look_look (by omega)] at k2
              rw [show k + (A.llLook (A.reachSet true S x.type.num) (e.rest.drop (k + 1)) + 1) =
                k + 1 + A.llLook (A.reachSet true S x.type.num) (e.rest.drop (k + 1)) by omega]
              exact k2
            · have := k4 hr
              simp only [EState.look] at this
              omega

theorem Sim1.walk (hm : 28 ≤ m) (d : Nat) (ctx : List Nat) : ∀ (n : Nat) (S : AConfigSet) (k : Nat) {s : PState} {e : EState}, Sim1 q s e →
    e.rest.length ≤ q.length + 1 → e.rest.length - k < n →
    ∃ r s', walkP lexerAtn m q A d ctx n S k s = some (r, s') ∧ Sim1 q s' (e.look (A.sllLook d ctx e.rest (e.rest.drop k) S k)) ∧
      r.1 = A.simulator.walk d ctx e.rest (e.rest.drop k) S ∧ (r.1 = none → r.2 = A.sllStop d ctx e.rest (e.rest.drop k) S k) := by
  intro n
  induction n with
  | zero => intro S k s e _ _ h; cases h
  | succ n ih =>
    intro S k s e h hq hn
    obtain ⟨s1, h1, h2⟩ := h.look hm k
    rw [walkP, h1]
    simp only
    rw [h2.token]
    obtain ⟨r, s2, k1, k2, k3, k4⟩ := h2.full (A := A) hm (q.length + 2) (A.startConfigs true d (A.returnStates ctx)) 0
      (by simp only [EState.look]; omega)
    simp only [Nat.zero_add, List.drop_zero] at k2 k3 k4
    rw [look_max] at k2
    have hrest : (e.look k).rest = e.rest := rfl
    rw [hrest] at k2 k3 k4
    cases hx : e.rest[k]? with
    | none =>
      have := List.getElem?_eq_none_iff.1 hx
      rw [List.drop_of_length_le this]
      refine ⟨r, s2, k1, ?_, k3, k4⟩
      rw [← look_max, look_end this] at k2
      exact k2
    | some x =>
      have hd := drop_cons hx
      have hlt := (List.getElem?_eq_some_iff.1 hx).1
      rw [hd, Atn.sllLook, Simulator.walk, Atn.sllStop]
      simp only [show A.simulator.target S x.type.num = A.reachSet false S x.type.num from rfl,
        show ∀ T, A.simulator.verdict T = A.sllVerdict T from fun _ => rfl]
      cases hv : A.sllVerdict (A.reachSet false S x.type.num) with
      | fail => exact ⟨_, s1, rfl, h2, rfl, fun _ => rfl⟩
      | alt i => exact ⟨_, s1, rfl, h2, rfl, fun hn => by cases hn⟩
      | full => exact ⟨r, s2, k1, k2, k3, k4⟩
      | more =>
        simp only
        obtain ⟨r, s2, j1, j2, j3, j4⟩ := ih (A.reachSet false S x.type.num) (k + 1) h2 hq (by simp only [EState.look]; omega)
        rw [hrest] at j2 j3 j4
        rw [look_look] at j2
        · exact ⟨r, s2, j1, j2, j3, j4⟩
        · have hge : ∀ (xs : List Tok) (S : AConfigSet) (n : Nat), n ≤ A.sllLook d ctx e.rest xs S n := by
            intro xs
            induction xs with
            | nil => intro S n; exact Nat.le_refl _
            | cons x xs ih =>
              intro S n
              rw [Atn.sllLook]
              split
              · exact Nat.le_max_left _ _
              · have := ih (A.reachSet false S x.type.num) (n + 1)
                omega
              · exact Nat.le_refl _
          have := hge (e.rest.drop (k + 1)) (A.reachSet false S x.type.num) (k + 1)
          omega

theorem Sim1.predict (hm : 28 ≤ m) (d : Nat) (ctx : List Nat) {s : PState} {e : EState} (h : Sim1 q s e) (hq : e.rest.length ≤ q.length + 1) :
    ∃ k s', predictP lexerAtn m q A d ctx s = some ((A.simulator.predictor.predict d ctx e.rest, k), s') ∧
      Sim1 q s' (e.look (A.looksAt d ctx e.rest)) ∧
      (A.simulator.predictor.predict d ctx e.rest = none → k = A.offending d ctx e.rest) := by
  obtain ⟨⟨r1, r2⟩, s', h1, h2, h3, h4⟩ := h.walk (A := A) hm d ctx (q.length + 2) (A.startConfigs false d []) 0 hq (by omega)
  simp only [List.drop_zero] at h1 h2 h3 h4
  have h3 : r1 = A.simulator.predictor.predict d ctx e.rest := h3
  subst h3
  exact ⟨r2, s', h1, h2, h4⟩

theorem stream_length (q : PyStr) : (tokenStream q).length ≤ q.length + 1 := by
  have h1 : (lexTokens q).length ≤ (lexPieces q).length := List.length_filterMap_le _ _
  have h2 : (lexPieces q).length ≤ q.length := by
    have ht := (lexPieces_splits q).text
    have hne := (lexPieces_splits q).nonempty
    refine Nat.le_trans ?_ (Nat.le_of_eq (congrArg List.length ht))
    generalize lexPieces q = ps at hne
    clear ht h1
    induction ps with
    | nil => simp
    | cons p ps ih =>
      have h3 := List.length_pos_iff.2 (hne p (List.mem_cons_self ..))
      have h4 := ih fun p hp => hne p (List.mem_cons_of_mem _ hp)
      simp only [piecesText, List.flatMap_cons, List.length_append, List.length_cons] at h4 ⊢
      omega
  rw [tokenStream, List.length_append, List.length_singleton]
  omega

theorem Sim.rest_length (h : Sim q s e) : e.rest.length ≤ q.length + 1 := Nat.le_trans h.rest.length_le (stream_length q)

theorem Sim1.unwanted (h : Sim1 q s e) (ctx : List Nat) : Sim1 q (reportUnwantedP q A ctx s) (reportUnwanted A (eofTok q) ctx e) := by
  unfold reportUnwantedP reportUnwanted
  rw [h.current_tok, h.current, h.sim.state]
  exact h.report _ _

theorem Sim1.missing (h : Sim1 q s e) (ctx : List Nat) : Sim1 q (reportMissingP q A ctx s) (reportMissing A (eofTok q) ctx e) := by
  unfold reportMissingP reportMissing
  rw [h.current_tok, h.current, h.sim.state]
  exact h.report _ _

theorem Sim1.ahead (h : Sim1 q s e) (hu : e.unread = 0) (k : Nat) : s.ahead k = rawOf q ((skipTo k e.rest).headD (eofTok q)) := by
  unfold PState.ahead skipTo
  rw [h.sim.tokens, hu, h.sim.last hu, Nat.sub_zero, List.take_length, List.length_map, ← List.map_drop, ← rawOf_eof]
  cases e.rest.drop (min k (e.rest.length - 1)) <;> rfl

theorem Sim1.failure (hm : 28 ≤ m) (h : Sim1 q s e) (ctx : List Nat) (f : Failure) :
    ∃ s', reportFailureP lexerAtn m q A ctx f s = some s' ∧ Sim1 q s' (reportFailure A (eofTok q) ctx f e) := by
  unfold reportFailureP reportFailure
  rw [h.sim.recovering]
  split
  · exact ⟨s, rfl, h⟩
  · cases f with
    | mismatch =>
      simp only
      rw [h.current_tok, h.current, h.sim.state]
      exact ⟨_, rfl, h.report _ _⟩
    | noViable k =>
      simp only
      obtain ⟨s1, h1, h2⟩ := sim_fetchN hm (q.length + 1) h.sim
      have hz : e.unread - (q.length + 1) = 0 := by have := h.sim.rest_length; have := h.sim.unread; omega
      rw [hz] at h2
      have h3 : Sim1 q s1 { e with unread := 0 } := ⟨h2, Nat.zero_le _⟩
      rw [h1]
      simp only
      refine ⟨_, rfl, ?_⟩
      have ht : s1.toks q = e.rest := by rw [h2.toks]; simp
      have hcur : (s1.current.type = -1) = ((e.current (eofTok q)).type = .EOF) := by
        rw [h3.current]
        exact propext (eof_raw _)
      rw [h3.ahead rfl, ht]
      simp only [hcur]
      exact h3.report _ _

theorem Sim1.recover (hm : 28 ≤ m) (h : Sim1 q s e) (ctx : List Nat) :
    ∃ s', recoverP lexerAtn m q A ctx s = some s' ∧ Sim1 q s' (Fcsql.recover A ctx e) := by
  have hcond : (s.lastIndex = some s.index ∧ s.state ∈ s.lastStates) ↔ (e.lastIndex = some e.rest.length ∧ e.state ∈ e.lastStates) := by
    rw [h.sim.state, h.sim.lastStates]
    refine and_congr_left fun _ => ?_
    have hi := h.sim.index
    rcases h.sim.lastIndex with ⟨h1, h2⟩ | ⟨k, hk, h1, h2⟩
    · rw [h1, h2]; simp
    · rw [h1, h2]
      simp only [Option.some.injEq]
      omega
  have hstep : ∃ s1, (if s.lastIndex = some s.index ∧ s.state ∈ s.lastStates then s.consume lexerAtn m q else some s) = some s1 ∧
      Sim1 q s1 (e.skip (if e.lastIndex = some e.rest.length ∧ e.state ∈ e.lastStates then 1 else 0)) := by
    by_cases hc : e.lastIndex = some e.rest.length ∧ e.state ∈ e.lastStates
    · rw [if_pos (hcond.2 hc), if_pos hc]; exact h.consume hm
    · rw [if_neg (fun h' => hc (hcond.1 h')), if_neg hc, EState.skip_zero h.read]; exact ⟨s, rfl, h⟩
  obtain ⟨s1, h1, h2⟩ := hstep
  unfold recoverP
  rw [h1]
  simp only
  unfold Fcsql.recover
  generalize (if e.lastIndex = some e.rest.length ∧ e.state ∈ e.lastStates then 1 else 0) = k at h2
  dsimp only
  have h3 : Sim1 q { s1 with lastIndex := some s1.index, lastStates := s1.lastStates ++ [s1.state] }
      { e.skip k with lastIndex := some (e.skip k).rest.length, lastStates := (e.skip k).lastStates ++ [(e.skip k).state] } := by
    obtain ⟨h, hr⟩ := h2
    refine ⟨⟨h.1, h.2, ?_, h.4, .inr ⟨_, ?_, rfl, ?_⟩, h.6, h.7, h.8, h.9, h.10, h.11, h.12, h.13⟩, hr⟩
    · simp only; rw [h.lastStates, h.state]
    · exact h.rest.length_le
    · have := h.index
      simp only [Option.some.injEq]; omega
  obtain ⟨s2, h4, h5⟩ := h3.until hm (fun t => A.recoveryTok t ctx) (q.length + 2) (by have := h3.sim.rest_length; omega)
  exact ⟨s2, h4, h5.note _⟩

theorem Sim1.caught (hm : 28 ≤ m) (h : Sim1 q s e) (ctx : List Nat) (f : Failure) :
    ∃ s', caughtP lexerAtn m q A ctx f s = some s' ∧ Sim1 q s' (caughtE A (eofTok q) ctx f e) := by
  obtain ⟨s1, h1, h2⟩ := h.failure (A := A) hm ctx f
  obtain ⟨s2, h3, h4⟩ := h2.recover (A := A) hm ctx
  exact ⟨s2, by unfold caughtP; rw [h1]; exact h3, h4⟩

/-! ### Statements -/

/-- Statements of both. -/
def StepSim (q : PyStr) : PStep → EStep → Prop
  | .go _ s, .go e => Sim1 q s e
  | .stop f s, .stop f' e => f = f' ∧ Sim1 q s e
  | _, _ => False

theorem Sim1.la2_look (h : Sim1 q s (e.look 1)) : Fcsql.la2 (s.toks q) = Fcsql.la2 e.rest := by
  rw [h.sim.toks]
  have hr := h.sim.unread
  match hrest : e.rest with
  | [] => simp [EState.look, hrest]
  | [x] =>
    have : (e.look 1).unread = 0 := by simp [EState.look, hrest]
    simp [EState.look, hrest]
  | x :: y :: ts =>
    have hu : (e.look 1).unread ≤ ts.length := by simp [EState.look, hrest]; omega
    rw [show (x :: y :: ts).length - (e.look 1).unread = (ts.length - (e.look 1).unread) + 2 by simp only [List.length_cons]; omega]
    rfl

theorem simP_sync (hm : 28 ≤ m) (h : Sim1 q s e) (ctx : List Nat) :
    ∃ r, syncP lexerAtn m q A ctx s = some r ∧ StepSim q r (syncE A (eofTok q) ctx e) ∧ ∀ f s', r = .go f s' → f = [] := by
  unfold syncP syncE
  rw [h.sim.recovering]
  split
  · exact ⟨_, rfl, h, by rintro f s' ⟨⟩; rfl⟩
  · dsimp only
    rw [h.la, h.sim.state]
    split
    · exact ⟨_, rfl, h, by rintro f s' ⟨⟩; rfl⟩
    · split
      · obtain ⟨s1, h1, h2⟩ := h.look hm 1
        rw [h1]
        simp only
        unfold canDelete
        rw [h2.la2_look, h2.sim.state]
        simp only [show (e.look 1).rest = e.rest from rfl]
        split
        · obtain ⟨s2, h3, h4⟩ := (h2.unwanted (A := A) ctx).consume hm
          rw [h3]
          exact ⟨_, rfl, h4.endError.note _, by rintro f s' ⟨⟩; rfl⟩
        · exact ⟨_, rfl, ⟨rfl, h2.note _⟩, by rintro f s' ⟨⟩⟩
      · split
        · have h2 := h.unwanted (A := A) ctx
          obtain ⟨s2, h3, h4⟩ := h2.until hm (fun t => A.expectedTok t (reportUnwantedP q A ctx s).state ctx || A.recoveryTok t ctx) (q.length + 2)
            (by have := h2.sim.rest_length; omega)
          rw [h3]
          refine ⟨_, rfl, ?_, by rintro f s' ⟨⟩; rfl⟩
          rw [h2.sim.state] at h4
          exact h4.note _
        · exact ⟨_, rfl, h, by rintro f s' ⟨⟩; rfl⟩

theorem simP_inline (hm : 28 ≤ m) (h : Sim1 q s e) (ctx : List Nat) :
    ∃ r, inlineP lexerAtn m q A ctx s = some r ∧ StepSim q r (inlineE A (eofTok q) ctx e) := by
  unfold inlineP inlineE
  obtain ⟨s1, h1, h2⟩ := h.look hm 1
  rw [h1]
  simp only
  unfold canDelete canInsert
  rw [h2.la2_look, h2.sim.state, h2.la]
  simp only [show (e.look 1).rest = e.rest from rfl]
  split
  · obtain ⟨s2, h3, h4⟩ := (h2.unwanted (A := A) ctx).consume hm
    obtain ⟨s3, h5, h6⟩ := h4.matched hm
    rw [h3]
    simp only
    rw [h5]
    refine ⟨_, rfl, ?_⟩
    have hrest : ((reportUnwanted A (eofTok q) ctx (e.look 1)).skip 1).rest.tail = e.rest.drop 2 := by
      have : (reportUnwanted A (eofTok q) ctx (e.look 1)).rest = e.rest := (same_unwanted (A := A) (eof := eofTok q) ctx (e.look 1)).rest
      simp only [EState.skip, EState.look] at this ⊢
      rw [this]
      match e.rest with
      | [] => rfl
      | [x] => rfl
      | x :: y :: ts => simp [skipTo]
    rw [hrest] at h6
    exact h6.note _
  · split
    · exact ⟨_, rfl, (h2.missing (A := A) ctx).note _⟩
    · exact ⟨_, rfl, rfl, h2.note _⟩

theorem simP_match (hm : 28 ≤ m) (h : Sim1 q s e) (ctx : List Nat) (ok : Int → Bool) :
    ∃ r, matchP lexerAtn m q A ctx ok s = some r ∧ StepSim q r (matchE A (eofTok q) ctx ok e) ∧
      ∀ x xs, e.rest = x :: xs → ok x.type.num = true → ∃ s', r = .go [.leaf x] s' := by
  unfold matchP matchE
  cases hr : e.rest with
  | nil =>
    rw [h.sim.toks_nil hr]
    simp only
    obtain ⟨r, h1, h2⟩ := simP_inline (A := A) hm h ctx
    exact ⟨r, h1, h2, by intro x xs h'; cases h'⟩
  | cons x xs =>
    rw [h.toks_cons hr]
    simp only
    split
    · obtain ⟨s1, h1, h2⟩ := h.matched hm
      rw [h1]
      refine ⟨_, rfl, ?_, ?_⟩
      · rw [hr] at h2; exact h2
      · intro y ys h' _
        cases h'
        exact ⟨s1, rfl⟩
    · rename_i hok
      obtain ⟨r, h1, h2⟩ := simP_inline (A := A) hm h ctx
      refine ⟨r, h1, h2, ?_⟩
      intro y ys h' hy
      cases h'
      exact absurd hy hok

end Fcsql
