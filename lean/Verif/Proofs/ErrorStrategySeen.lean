/-
The strategy that reads the choices of the error strategy from a list does the same.
-/
import Batteries.Data.List.Perm
import Verif.Proofs.AdaptiveRecovery
import Verif.Proofs.ErrorStrategyRun

set_option autoImplicit false
set_option linter.unusedSimpArgs false

namespace Fcsql

variable {A : Atn} {eof : Tok} {prog : Rule → List Stmt}

/-! ### The strategy that reads its choices -/

/-- The offending token, counted from the current one. -/
def Failure.offset : Failure → Nat
  | .noViable k => k
  | .mismatch => 0

/-- Reads its choices from `T`. -/
def Atn.replay (A : Atn) (T : Nat → Choice) : Strategy Nat where
  toPredictor := A.simulator.predictor
  onSync m _ _ _ := (match T m with | .sync a => a | _ => .raise, m + 1)
  onMismatch m _ _ _ := (match T m with | .inline a => a | _ => .raise, m + 1)
  onNoViable m d ctx ts := (A.offending d ctx ts, m)
  onRecover m _ _ := (match T m with | .skipped k => k | _ => 0, m + 1)
  patience := A.states.length

/-- The list begins with what was done. -/
def Records (T : Nat → Choice) (l : List Choice) : Prop := ∀ i (h : i < l.length), T i = l[i]

theorem Records.prefix {T : Nat → Choice} {l l' : List Choice} (h : Records T l') (hl : l <+: l') : Records T l := by
  obtain ⟨w, rfl⟩ := hl
  intro i hi
  rw [h i (by simp; omega), List.getElem_append_left hi]

theorem Records.last {T : Nat → Choice} {l : List Choice} {d : Choice} (h : Records T (l ++ [d])) : T l.length = d := by
  rw [h l.length (by simp), List.getElem_concat_length rfl]

/-- The state seen by it. -/
def EState.seen (stuck : Nat) (s : EState) : RState Nat :=
  { rest := s.rest, stuck := stuck, recovering := s.recovering, reports := s.reports.map (·.token), mem := s.log.length }

/-- How often nothing was skipped: not more often than there are states. -/
def Patient (A : Atn) (stuck : Nat) (s : EState) : Prop :=
  s.rest.length ≤ 1 ∨ stuck = 0 ∨
    (s.lastIndex = some s.rest.length ∧ ∃ L : List Nat, L.Nodup ∧ (∀ i ∈ L, i < A.states.length ∧ i ∈ s.lastStates) ∧ stuck ≤ L.length)

/-- With a state of the network. -/
def Steady (A : Atn) (stuck : Nat) (s : EState) : Prop := s.state < A.states.length ∧ Patient A stuck s

theorem skipTo_none (ts : List Tok) : skipTo 0 ts = ts := by simp [skipTo]

theorem skipTo_one (x y : Tok) (ts : List Tok) : skipTo 1 (x :: y :: ts) = y :: ts := by simp [skipTo]

theorem length_skipTo (k : Nat) (ts : List Tok) : (skipTo k ts).length = ts.length - min k (ts.length - 1) := by simp [skipTo]

theorem skipTo_skipTo (k j : Nat) (ts : List Tok) : skipTo j (skipTo k ts) = skipTo (k + j) ts := by
  unfold skipTo
  rw [List.drop_drop]
  congr 1
  simp only [List.length_drop]
  omega

theorem seen_report (t : Tok) (m : PyStr) (k i : Nat) (s : EState) (ht : (skipTo i s.rest).headD eof = t) :
    reportAt eof i (s.seen k) = (s.report t m).seen k := by
  unfold reportAt EState.report EState.seen
  cases h : s.recovering <;> simp [← ht, h]

theorem seen_unwanted (ctx : List Nat) (k : Nat) (s : EState) : reportAt eof 0 (s.seen k) = (reportUnwanted A eof ctx s).seen k :=
  seen_report _ _ _ _ _ (by rw [skipTo_none]; rfl)

theorem seen_missing (ctx : List Nat) (k : Nat) (s : EState) : reportAt eof 0 (s.seen k) = (reportMissing A eof ctx s).seen k :=
  seen_report _ _ _ _ _ (by rw [skipTo_none]; rfl)

theorem seen_failure (ctx : List Nat) (f : Failure) (k : Nat) (s : EState) :
    reportAt eof f.offset (s.seen k) = (reportFailure A eof ctx f s).seen k := by
  unfold reportFailure
  split
  · rename_i h; simp [reportAt, EState.seen, h]
  · cases f with
    | noViable j =>
      exact seen_report (eof := eof) _ _ k j { s with unread := 0 } rfl
    | mismatch => exact seen_report _ _ _ _ _ (by rw [Failure.offset, skipTo_none]; rfl)

theorem syncOk_eq (st : Nat) (ts : List Tok) : A.syncOk st ts = (Atn.hasTok (A.nextTokens st) (la ts) || Atn.hasEps (A.nextTokens st)) := by
  unfold Atn.syncOk Atn.hasTok Atn.hasEps Atn.nextTokens
  induction A.lookSet (A.states.length + 1) st [] [] with
  | nil => rfl
  | cons x l ih =>
    simp only [List.any_cons, ih]
    cases x <;> simp
    ac_rfl

/-! ### Statements -/

/-- A statement as seen. -/
def StepSeen (A : Atn) : EStep → Step Nat → Prop
  | .go s, r => ∃ f k, r = .go f (s.seen k) ∧ Steady A k s
  | .stop f s, r => ∃ k, r = .stop f.offset (s.seen k) ∧ Steady A k s

/-- What is not touched. -/
structure Same (s s' : EState) : Prop where
  rest : s'.rest = s.rest
  state : s'.state = s.state
  lastIndex : s'.lastIndex = s.lastIndex
  lastStates : s'.lastStates = s.lastStates

theorem Same.steady {k : Nat} {s s' : EState} (h : Same s s') (hs : Steady A k s) : Steady A k s' := by
  obtain ⟨h1, h2, h3, h4⟩ := h
  unfold Steady Patient at *
  rw [h1, h2, h3, h4]
  exact hs

theorem same_report (t : Tok) (m : PyStr) (s : EState) : Same s (s.report t m) := by
  unfold EState.report
  split <;> exact ⟨rfl, rfl, rfl, rfl⟩

theorem same_unwanted (ctx : List Nat) (s : EState) : Same s (reportUnwanted A eof ctx s) := same_report _ _ _

theorem same_missing (ctx : List Nat) (s : EState) : Same s (reportMissing A eof ctx s) := same_report _ _ _

theorem same_failure (ctx : List Nat) (f : Failure) (s : EState) : Same s (reportFailure A eof ctx f s) := by
  unfold reportFailure
  split
  · exact ⟨rfl, rfl, rfl, rfl⟩
  · cases f with
    | noViable j =>
      have h := same_report ((skipTo j s.rest).headD eof) (py!"no viable alternative at input " ++ escapeWSAndQuote
          (if (s.current eof).type = .EOF then py!"<EOF>" else textUpTo j s.rest)) { s with unread := 0 }
      exact ⟨h.1, h.2, h.3, h.4⟩
    | mismatch => exact same_report _ _ _

theorem Steady.zero {s : EState} (h : s.state < A.states.length) : Steady A 0 s := ⟨h, .inr (.inl rfl)⟩

theorem sim_sync {T : Nat → Choice} {k : Nat} {ctx : List Nat} {s : EState} (hs : Steady A k s) (hat : A.SyncAt s.state)
    (hT : Records T (syncE A eof ctx s).state.log) :
    StepSeen A (syncE A eof ctx s) (syncStep (A.replay T) eof s.state ctx (s.seen k)) := by
  unfold syncStep
  rw [show (A.replay T).sync s.state ctx (s.seen k).rest = A.syncOk s.state s.rest from rfl, syncOk_eq]
  unfold syncE at hT ⊢
  cases hr : s.recovering with
  | true =>
    simp only [hr, EState.seen, if_true, Bool.true_or] at hT ⊢
    exact ⟨[], k, by simp [EState.seen, hr], hs⟩
  | false =>
    simp only [hr, Bool.false_eq_true, if_false] at hT ⊢
    have hr' : (s.seen k).recovering = false := hr
    rw [hr']
    simp only [Bool.false_or] at hT ⊢
    split at hT
    · rename_i h
      rw [if_pos h, if_pos h]
      exact ⟨[], k, rfl, hs⟩
    · rename_i h
      rw [if_neg h, if_neg h]
      simp only [Bool.or_eq_true, not_or, Bool.not_eq_true] at h
      have hty : A.stateType s.state ∈ [3, 5, 4, 10] := by
        rcases hat with h' | ⟨h', -⟩
        · rw [h'] at h; exact absurd h.2 (by simp)
        · exact h'
      rw [if_pos hty] at hT ⊢
      have hT' : ∀ d, Records T (s.log ++ [d]) → T (s.seen k).mem = d := fun d h => h.last
      split at hT
      · rename_i hd
        rw [if_pos hd]
        have hd' : A.expectedTok (la2 s.rest) s.state ctx = true := hd
        have hm := hT' (.sync .delete) (by simpa [EStep.state, log_note] using hT)
        obtain ⟨x, y, ts, hxy⟩ : ∃ x y ts, s.rest = x :: y :: ts := by
          match hrest : s.rest with
          | x :: y :: ts => exact ⟨x, y, ts, rfl⟩
          | [] =>
            exfalso
            rw [hrest] at hd' h
            cases ctx <;> simp [Atn.expectedTok, la2, h.1, h.2] at hd'
          | [x] =>
            exfalso
            rw [hrest] at hd' h
            cases ctx <;> simp [Atn.expectedTok, la2, h.1, h.2] at hd'
        have hon : (A.replay T).onSync (s.seen k).mem s.state ctx (s.seen k).rest = (.delete, s.log.length + 1) := by
          simp only [Atn.replay, hm]; rfl
        rw [hon]
        have hrest : (s.seen k).rest = x :: y :: ts := hxy
        rw [hrest]
        refine ⟨[], 0, ?_, Steady.zero ?_⟩
        · dsimp only
          have hu := seen_unwanted (A := A) (eof := eof) ctx k (s.look 1)
          rw [show reportAt eof 0 (s.seen k) = _ from hu]
          have h1 : (reportUnwanted A eof ctx (s.look 1)).rest = x :: y :: ts := (same_unwanted ctx _).rest.trans hxy
          have h2 : (reportUnwanted A eof ctx (s.look 1)).log = s.log := log_unwanted ctx (s.look 1)
          generalize reportUnwanted A eof ctx (s.look 1) = u at *
          simp [EState.seen, RState.to, EState.skip, EState.look, EState.endError, EState.note, h1, h2, skipTo_one]
        · exact (same_unwanted (A := A) (eof := eof) ctx (s.look 1)).state ▸ hs.1
      · rename_i hd
        rw [if_neg hd]
        have hm := hT' (.sync .raise) (by simpa [EStep.state, log_note] using hT)
        have hon : (A.replay T).onSync (s.seen k).mem s.state ctx (s.seen k).rest = (.raise, s.log.length + 1) := by
          simp only [Atn.replay, hm]; rfl
        rw [hon]
        refine ⟨k, ?_, Same.steady ⟨rfl, rfl, rfl, rfl⟩ hs⟩
        simp [EState.seen, EState.look, EState.note, Failure.offset, hr]

theorem sim_inline {T : Nat → Choice} {k : Nat} {ctx : List Nat} {s : EState} {ok : Int → Bool} (hs : Steady A k s)
    (hat : A.Only s.state ok) (hno : ok (la s.rest) = false) (hT : Records T (inlineE A eof ctx s).state.log) :
    StepSeen A (inlineE A eof ctx s) (inlineStep (A.replay T) eof s.state ctx ok (s.seen k)) := by
  have hex : ∀ j, A.expectedTok j s.state ctx = true → ok j = true := by
    intro j hj
    cases ctx <;> simp [Atn.expectedTok, hat.1] at hj <;> exact hat.2.1 j hj
  have hT' : ∀ d, Records T (s.log ++ [d]) → T (s.seen k).mem = d := fun d h => h.last
  unfold inlineStep
  unfold inlineE at hT ⊢
  dsimp only at hT ⊢
  split at hT
  · rename_i hd
    rw [if_pos hd]
    have hd' : ok (la2 s.rest) = true := hex _ hd
    have hm := hT' (.inline .delete) (by simpa [EStep.state, log_note] using hT)
    obtain ⟨x, y, ts, hxy⟩ : ∃ x y ts, s.rest = x :: y :: ts := by
      match hrest : s.rest with
      | x :: y :: ts => exact ⟨x, y, ts, rfl⟩
      | [] => rw [hrest] at hd' hno; exact absurd hd' (by simp [la2, hno])
      | [x] => rw [hrest] at hd' hno; exact absurd hd' (by simp [la2, hno])
    have hon : (A.replay T).onMismatch (s.seen k).mem s.state ctx (s.seen k).rest = (.delete, s.log.length + 1) := by
      simp only [Atn.replay, hm]; rfl
    rw [hon]
    have hrest : (s.seen k).rest = x :: y :: ts := hxy
    rw [hrest]
    have hy : ok y.type.num = true := by rw [hxy] at hd'; exact hd'
    simp only [hy, if_true]
    refine ⟨[.leaf y], 0, ?_, Steady.zero ?_⟩
    · have hu := seen_unwanted (A := A) (eof := eof) ctx k (s.look 1)
      rw [show reportAt eof 0 (s.seen k) = _ from hu]
      have h1 : (reportUnwanted A eof ctx (s.look 1)).rest = x :: y :: ts := (same_unwanted ctx _).rest.trans hxy
      have h2 : (reportUnwanted A eof ctx (s.look 1)).log = s.log := log_unwanted ctx (s.look 1)
      have h3 : (s.look 1).rest.drop 2 = ts := by rw [show (s.look 1).rest = _ from hxy]; rfl
      rw [h3]
      generalize reportUnwanted A eof ctx (s.look 1) = u at *
      simp [EState.seen, RState.to, EState.skip, EState.look, EState.endError, EState.note, EState.matched, h1, h2, skipTo_one]
      omega
    · exact (same_unwanted (A := A) (eof := eof) ctx (s.look 1)).state ▸ hs.1
  · rename_i hd
    rw [if_neg hd]
    split at hT
    · rename_i hi
      rw [if_pos hi]
      have hm := hT' (.inline .insert) (by simpa [EStep.state, log_note] using hT)
      have hon : (A.replay T).onMismatch (s.seen k).mem s.state ctx (s.seen k).rest = (.insert, s.log.length + 1) := by
        simp only [Atn.replay, hm]; rfl
      rw [hon]
      refine ⟨[], k, ?_, Same.steady (s := s) ?_ hs⟩
      · have hu := seen_missing (A := A) (eof := eof) ctx k (s.look 1)
        rw [show reportAt eof 0 (s.seen k) = _ from hu]
        simp [EState.seen, EState.note]
      · have h := same_missing (A := A) (eof := eof) ctx (s.look 1)
        exact ⟨h.1, h.2, h.3, h.4⟩
    · rename_i hi
      rw [if_neg hi]
      have hm := hT' (.inline .raise) (by simpa [EStep.state, log_note] using hT)
      have hon : (A.replay T).onMismatch (s.seen k).mem s.state ctx (s.seen k).rest = (.raise, s.log.length + 1) := by
        simp only [Atn.replay, hm]; rfl
      rw [hon]
      refine ⟨k, ?_, Same.steady (s := s) ⟨rfl, rfl, rfl, rfl⟩ hs⟩
      simp [EState.seen, EState.look, EState.note, Failure.offset]

theorem sim_match {T : Nat → Choice} {k : Nat} {ctx : List Nat} {s : EState} {ok : Int → Bool} (hs : Steady A k s)
    (hat : A.Only s.state ok) (hT : Records T (matchE A eof ctx ok s).state.log) (heof : s.rest = [] → ok (-1) = false) :
    StepSeen A (matchE A eof ctx ok s) (matchStep (A.replay T) eof s.state ctx ok (s.seen k)) := by
  unfold matchStep
  unfold matchE at hT ⊢
  match hrest : s.rest with
  | [] =>
    rw [hrest] at hT
    simp only [show (s.seen k).rest = [] from hrest]
    exact sim_inline hs hat (by rw [hrest]; exact heof hrest) hT
  | x :: xs =>
    rw [hrest] at hT
    simp only [show (s.seen k).rest = x :: xs from hrest]
    dsimp only at hT
    split at hT
    · rename_i hx
      simp only [hx, if_true]
      refine ⟨[.leaf x], 0, ?_, Steady.zero hs.1⟩
      simp [EState.seen, RState.to, EState.matched, EState.look, EState.endError, hrest]
    · rename_i hx
      simp only [hx, if_false]
      exact sim_inline hs hat (by rw [hrest]; simpa [la] using hx) hT


theorem nodup_lt {L : List Nat} {N : Nat} (hn : L.Nodup) (h : ∀ i ∈ L, i < N) : L.length ≤ N := by
  have := (List.subperm_of_subset hn (l₂ := List.range N) fun i hi => List.mem_range.2 (h i hi)).length_le
  simpa using this

theorem skipTo_short {ts : List Tok} (h : ts.length ≤ 1) (k : Nat) : skipTo k ts = ts := by
  unfold skipTo
  rw [show min k (ts.length - 1) = 0 by omega]
  rfl

theorem sim_recover {T : Nat → Choice} {k : Nat} {ctx : List Nat} {s : EState} (hs : Steady A k s)
    (hT : Records T (recover A ctx s).log) :
    ∃ k', (let r := (A.replay T).onRecover (s.seen k).mem ctx (s.seen k).rest
      let j := if (A.replay T).patience ≤ (s.seen k).stuck then max 1 r.1 else r.1
      RState.to { s.seen k with stuck := (s.seen k).stuck + 1, mem := r.2 } (skipTo j (s.seen k).rest)) = (recover A ctx s).seen k' ∧
      Steady A k' (recover A ctx s) := by
  obtain ⟨hst, hp⟩ := hs
  unfold recover at hT ⊢
  dsimp only at hT ⊢
  generalize hk0 : (if s.lastIndex = some s.rest.length ∧ s.state ∈ s.lastStates then 1 else 0) = k0 at hT ⊢
  generalize hj : untilTok (fun t => A.recoveryTok t ctx) (s.skip k0).rest = j at hT ⊢
  have hm : T (s.seen k).mem = .skipped (k0 + j) := Records.last (by simpa [log_note] using hT)
  have hon : (A.replay T).onRecover (s.seen k).mem ctx (s.seen k).rest = (k0 + j, s.log.length + 1) := by
    simp only [Atn.replay, hm]; rfl
  rw [hon]
  have hJ : skipTo (if (A.replay T).patience ≤ (s.seen k).stuck then max 1 (k0 + j) else k0 + j) s.rest = skipTo (k0 + j) s.rest := by
    split
    · rename_i hle
      have hle : A.states.length ≤ k := hle
      rcases hp with h | h | ⟨hi, L, hL1, hL2, hL3⟩
      · rw [skipTo_short h, skipTo_short h]
      · omega
      · have hmem : s.state ∈ L := by
          refine Classical.byContradiction fun hno => ?_
          have := nodup_lt (L := s.state :: L) (N := A.states.length) (List.nodup_cons.2 ⟨hno, hL1⟩) (by
            intro i hi
            rcases List.mem_cons.1 hi with rfl | hi
            · exact hst
            · exact (hL2 i hi).1)
          simp only [List.length_cons] at this
          omega
        rw [if_pos ⟨hi, (hL2 _ hmem).2⟩] at hk0
        rw [show max 1 (k0 + j) = k0 + j by omega]
    · rfl
  refine ⟨if (skipTo (k0 + j) s.rest).length < s.rest.length then 0 else k + 1, ?_, hst, ?_⟩
  · dsimp only
    rw [show (s.seen k).rest = s.rest from rfl, hJ]
    simp [RState.to, EState.seen, EState.note, EState.skip, EState.look, skipTo_skipTo]
  · unfold Patient
    have hl := length_skipTo (k0 + j) s.rest
    split
    · exact .inr (.inl rfl)
    · rename_i hlt
      rcases Nat.lt_or_ge 1 s.rest.length with h1 | h1
      · have hz : k0 = 0 ∧ j = 0 := by omega
        obtain ⟨rfl, rfl⟩ := hz
        right; right
        refine ⟨?_, ?_⟩
        · simp [EState.note, EState.skip, EState.look, skipTo_none]
        · have hno : ¬ (s.lastIndex = some s.rest.length ∧ s.state ∈ s.lastStates) := by
            intro h
            rw [if_pos h] at hk0
            cases hk0
          have one : ∃ L : List Nat, L.Nodup ∧ (∀ i ∈ L, i < A.states.length ∧ i ∈ s.lastStates ++ [s.state]) ∧ 1 ≤ L.length :=
            ⟨[s.state], by simp, by simpa using hst, by simp⟩
          rcases hp with h | rfl | ⟨hi, L, hL1, hL2, hL3⟩
          · omega
          · exact one
          · refine ⟨s.state :: L, List.nodup_cons.2 ⟨fun h => hno ⟨hi, (hL2 _ h).2⟩, hL1⟩, ?_, by simp; omega⟩
            intro i hi
            rcases List.mem_cons.1 hi with rfl | hi
            · exact ⟨hst, by simp [EState.note, EState.skip, EState.look]⟩
            · exact ⟨(hL2 i hi).1, List.mem_append_left _ (hL2 i hi).2⟩
      · left
        change (skipTo j (skipTo k0 s.rest)).length ≤ 1
        rw [skipTo_skipTo, skipTo_short h1]
        exact h1

theorem sim_caught {T : Nat → Choice} {k : Nat} {ctx : List Nat} {f : Failure} {s : EState} (hs : Steady A k s)
    (hT : Records T (caughtE A eof ctx f s).log) :
    ∃ k', caught (A.replay T) eof ctx f.offset (s.seen k) = (caughtE A eof ctx f s).seen k' ∧ Steady A k' (caughtE A eof ctx f s) := by
  have h := sim_recover (ctx := ctx) ((same_failure (A := A) (eof := eof) ctx f s).steady hs) hT
  unfold caught
  rw [seen_failure (A := A) (eof := eof) ctx f k s]
  exact h

/-! ### Runs -/

/-- The end of a run as seen. -/
def OutSeen (A : Atn) : EOut → ROut Nat → Prop
  | .ok s, r => ∃ f k, r = .ok f (s.seen k) ∧ Steady A k s
  | .raised f s, r => ∃ k, r = .raised f.offset (s.seen k) ∧ Steady A k s
  | .timeout _, r => r = .timeout

theorem OutSeen.prepend {o : EOut} {r : ROut Nat} (h : OutSeen A o r) (f : List PTree) : OutSeen A o (r.prepend f) := by
  cases o with
  | ok s => obtain ⟨g, k, rfl, hk⟩ := h; exact ⟨f ++ g, k, rfl, hk⟩
  | raised fl s => obtain ⟨k, rfl, hk⟩ := h; exact ⟨k, rfl, hk⟩
  | timeout s => rw [show r = .timeout from h]; exact (rfl : _ = _)

theorem Steady.at {k : Nat} {s : EState} (h : Steady A k s) {st : Nat} (hst : st < A.states.length) : Steady A k (s.at st) := ⟨hst, h.2⟩

theorem agreeR_refl {σ : Type} (S : Strategy σ) : AgreeR A S S :=
  ⟨⟨fun _ _ _ _ _ _ _ => rfl, fun _ _ _ => rfl⟩, fun _ _ _ _ _ _ _ _ => rfl, rfl, rfl, rfl, rfl⟩

theorem sim_then {T : Nat → Choice} {n : Nat} {ctx : List Nat} {ss : List Stmt} {e : EStep} {r : Step Nat} (h : StepSeen A e r)
    (hT : Records T (e.andThen (execE A eof prog n ctx ss)).state.log) (hsees : r.Sees)
    (hn : ∀ s k, Steady A k s → EndsEof s.rest → Records T (execE A eof prog n ctx ss s).state.log →
      OutSeen A (execE A eof prog n ctx ss s) (execR (A.replay T) eof prog n ctx ss (s.seen k))) :
    OutSeen A (e.andThen (execE A eof prog n ctx ss)) (r.andThen (execR (A.replay T) eof prog n ctx ss)) := by
  cases e with
  | go s =>
    obtain ⟨f, k, rfl, hk⟩ := h
    exact (hn s k hk hsees hT).prepend f
  | stop fl s =>
    obtain ⟨k, rfl, hk⟩ := h
    exact ⟨k, rfl, hk⟩

theorem sim_then_end {T : Nat → Choice} {n : Nat} {ctx : List Nat} {e : EStep} {r : Step Nat} (h : StepSeen A e r) :
    OutSeen A (e.andThen (execE A eof prog n ctx [])) (r.andThen (execR (A.replay T) eof prog n ctx [])) := by
  cases e with
  | go s =>
    obtain ⟨f, k, rfl, hk⟩ := h
    cases n with
    | zero => exact (rfl : _ = _)
    | succ n => exact ⟨_, k, rfl, hk⟩
  | stop fl s =>
    obtain ⟨k, rfl, hk⟩ := h
    exact ⟨k, rfl, hk⟩

theorem step_log {e : EStep} {n : Nat} {ctx : List Nat} {ss : List Stmt} :
    e.state.log <+: (e.andThen (execE A eof prog n ctx ss)).state.log := by
  cases e with
  | go s => exact grows n ctx ss s
  | stop f s => exact List.prefix_refl _

theorem sim {T : Nat → Choice} (hprog : ∀ r, r ≠ .query → Placed A r.num false (prog r)) (hat : ∀ r, AtStates A (prog r)) :
    ∀ (n : Nat) (ctx : List Nat) (e : Bool) (i : Int) (ss : List Stmt) (s : EState) (k : Nat), Placed A i e ss → AtStates A ss → Calls A i ctx →
      EndsEof s.rest → Steady A k s → Records T (execE A eof prog n ctx ss s).state.log →
      OutSeen A (execE A eof prog n ctx ss s) (execR (A.replay T) eof prog n ctx ss (s.seen k)) := by
  intro n
  induction n with
  | zero => intro ctx e i ss s k _ _ _ _ _ _; exact (rfl : _ = _)
  | succ n ih =>
    intro ctx e i ss s k hss has hc hE hs hT
    have hne := endsEof_ne hE
    cases hss with
    | nil => exact ⟨[], k, rfl, hs⟩
    | @eof st =>
      cases has with
      | matchTok h1 h2 _ =>
        rw [execE] at hT ⊢
        rw [execR]
        exact sim_then_end (sim_match (hs.at h1) h2 (hT.prefix step_log) fun h => absurd h hne)
    | @sync _ st ss h =>
      cases has with
      | sync h1 h2 h3 =>
        rw [execE] at hT ⊢
        rw [execR]
        exact sim_then (sim_sync (hs.at h1) h2 (hT.prefix step_log)) hT (syncStep_sees _ _ _ hE)
          fun s' k' hs' hE' hT' => ih ctx e i ss s' k' h h3 hc hE' hs' hT'
    | @matchTok _ st k' ss hk h =>
      cases has with
      | matchTok h1 h2 h3 =>
        rw [execE] at hT ⊢
        rw [execR]
        exact sim_then (sim_match (hs.at h1) h2 (hT.prefix step_log) fun h => absurd h hne) hT
          (matchStep_sees _ _ (by simpa using fun h => hk h.symm) _ hE)
          fun s' k' hs' hE' hT' => ih ctx e i ss s' k' h h3 hc hE' hs' hT'
    | @matchSet _ st t ss hk h =>
      cases has with
      | matchSet h1 h2 h3 =>
        rw [execE] at hT ⊢
        rw [execR]
        exact sim_then (sim_match (hs.at h1) h2 (hT.prefix step_log) fun h => absurd h hne) hT (matchStep_sees _ _ hk _ hE)
          fun s' k' hs' hE' hT' => ih ctx e i ss s' k' h h3 hc hE' hs' hT'
    | @call _ st start t r ss ho hr hq h =>
      cases has with
      | call h1 h3 =>
        rw [execE] at hT ⊢
        rw [execR]
        have hcalls : Calls A r.num (st :: ctx) := .call ho (hr ▸ hc)
        have hin := ih (st :: ctx) false r.num (prog r) (s.at st) k (hprog r hq) (hat r) hcalls hE (hs.at h1)
        have hsees := (execR_agree (A := A) (eof := eof) (agreeR_refl (A.replay T)) hprog n (st :: ctx) false r.num (prog r)
          ((s.at st).seen k) (hprog r hq) hcalls hE).2 rfl
        rw [show s.seen k = (s.at st).seen k from rfl]
        cases hres : execE A eof prog n (st :: ctx) (prog r) (s.at st) with
        | ok s' =>
          rw [hres] at hT hin
          obtain ⟨f, k', e1, hs'⟩ := hin (hT.prefix (grows n ctx ss (s'.at st)))
          rw [e1] at hsees ⊢
          exact (ih ctx e i ss (s'.at st) k' h h3 hc hsees (hs'.at h1) hT).prepend _
        | raised f s' =>
          rw [hres] at hT hin
          have hT1 : Records T (caughtE A eof (st :: ctx) f s').log := hT.prefix (grows n ctx ss ((caughtE A eof (st :: ctx) f s').at st))
          obtain ⟨k', e1, hs'⟩ := hin (hT1.prefix (grows_caught _ _ _))
          rw [e1] at hsees ⊢
          obtain ⟨k2, e2, hs2⟩ := sim_caught (eof := eof) (ctx := st :: ctx) (f := f) hs' hT1
          have hE2 := caught_sees (S := A.replay T) (eof := eof) (st :: ctx) f.offset _ hsees
          dsimp only
          rw [e2] at hE2 ⊢
          exact (ih ctx e i ss ((caughtE A eof (st :: ctx) f s').at st) k2 h h3 hc hE2 (hs2.at h1) hT).prepend _
        | timeout s' =>
          rw [hres] at hT hin
          rw [show execR (A.replay T) eof prog n (st :: ctx) (prog r) _ = .timeout from hin hT]
          exact (rfl : _ = _)
    | @predict _ d sd bs ss hd hsd hb h =>
      cases has with
      | predict h1 h3 =>
        rw [execE] at hT ⊢
        rw [execR]
        rw [show (A.replay T).predict d ctx (s.seen k).rest = A.simulator.predictor.predict d ctx s.rest from rfl]
        cases hpr : A.simulator.predictor.predict d ctx s.rest with
        | none => exact ⟨k, rfl, Same.steady (s := s) ⟨rfl, rfl, rfl, rfl⟩ hs⟩
        | some a =>
          rw [hpr] at hT
          exact ih ctx e i _ (s.look _) k ((branch_placed hb a).append h) ((branch_atStates h1 a).append h3) hc hE
            (Same.steady (s := s) ⟨rfl, rfl, rfl, rfl⟩ hs) hT
    | @switchLA _ cs ss hb h =>
      cases has with
      | switchLA h1 h3 =>
        rw [execE] at hT ⊢
        rw [execR]
        rw [show (s.seen k).rest = s.rest from rfl]
        cases hsw : switchCase (la s.rest) cs with
        | none => exact ⟨k, rfl, hs⟩
        | some b =>
          rw [hsw] at hT
          obtain ⟨c, hcm, rfl⟩ := switchCase_mem hsw
          exact ih ctx e i _ s k ((hb c hcm).append h) ((h1 c hcm).append h3) hc hE hs hT
    | @ifLA _ t b ss hb h =>
      cases has with
      | ifLA h1 h3 =>
        rw [execE] at hT ⊢
        rw [execR]
        refine ih ctx e i _ s k (Placed.append ?_ h) (AtStates.append ?_ h3) hc hE hs hT
        · split
          · exact hb
          · exact .nil
        · split
          · exact h1
          · exact .nil
    | @whileLA _ b st t ss hb h =>
      cases has with
      | whileLA h1 h2 h4 h3 =>
        rw [execE] at hT ⊢
        rw [execR]
        exact ih ctx e i _ s k (hb.append (.sync (.ifLA (.whileLA hb .nil) h)))
          (h4.append (.sync h1 h2 (.ifLA (.whileLA h1 h2 h4 .nil) h3))) hc hE hs hT
    | @whilePredict _ b st d sd ss hd hsd hb h =>
      cases has with
      | whilePredict h1 h2 h4 h3 =>
        rw [execE] at hT ⊢
        rw [execR]
        exact ih ctx e i _ s k (hb.append (.sync (.loopPredict hd hsd hb h)))
          (h4.append (.sync h1 h2 (.loopPredict h1 h2 h4 h3))) hc hE hs hT
    | @loopPredict _ b st d sd ss hd hsd hb h =>
      cases has with
      | loopPredict h1 h2 h4 h3 =>
        rw [execE] at hT ⊢
        rw [execR]
        rw [show (A.replay T).predict d ctx (s.seen k).rest = A.simulator.predictor.predict d ctx s.rest from rfl]
        have hsl : Steady A k (s.look (A.looksAt d ctx s.rest)) := Same.steady (s := s) ⟨rfl, rfl, rfl, rfl⟩ hs
        cases hpr : A.simulator.predictor.predict d ctx s.rest with
        | none => exact ⟨k, rfl, hsl⟩
        | some a =>
          rw [hpr] at hT
          dsimp only at hT ⊢
          split at hT
          · rename_i ha
            rw [if_pos ha, if_pos ha]
            exact ih ctx e i _ (s.look _) k h h3 hc hE hsl hT
          · rename_i ha
            rw [if_neg ha, if_neg ha]
            split at hT
            · rename_i ha
              rw [if_pos ha, if_pos ha]
              exact ih ctx e i _ (s.look _) k (.whilePredict hd hsd hb h) (.whilePredict h1 h2 h4 h3) hc hE hsl hT
            · rename_i ha
              rw [if_neg ha, if_neg ha]
              exact ⟨k, rfl, hsl⟩

end Fcsql
