/-
How many calls of rule functions are pending: what the scan says about the parser with all tokens known beforehand.
-/
import Verif.Proofs.PendingScan

set_option autoImplicit false
set_option linter.unusedSimpArgs false

namespace Fcsql

attribute [local irreducible] parserAtn

/-! ### The prediction -/

theorem predict_nil (A : Atn) (d : Nat) (ctx : List Nat) : A.simulator.predictor.predict d ctx [] = none := rfl

theorem dkey_bad {ts : List Tok} (h : (dkey ts).2 = true) (hc : Capped ts) : ∃ x y xs, ts = x :: y :: xs ∧ x.type = .WITHIN ∧
    ¬ (y.type = .OPERATOR_EQ ∨ y.type = .OPERATOR_NE ∨ y.type = .COLON) := by
  simp only [dkey, Bool.and_eq_true, decide_eq_true_eq, Bool.not_eq_true', Bool.or_eq_false_iff, decide_eq_false_iff_not] at h
  obtain ⟨h1, ⟨h2, h3⟩, h4⟩ := h
  cases ts with
  | nil => simp [nextType] at h1
  | cons x ts =>
    simp only [nextType, List.head?_cons, Option.map_some, Option.some.injEq] at h1
    cases ts with
    | nil => have := hc x rfl; rw [h1] at this; cases this
    | cons y xs =>
      refine ⟨x, y, xs, rfl, h1, ?_⟩
      simp only [la2] at h2 h3 h4
      rintro (h | h | h) <;> simp [h, TokType.num] at h2 h3 h4

theorem dkey_good {ts : List Tok} (h : dkey ts = (some .WITHIN, false)) (hc : Capped ts) : ∃ x y xs, ts = x :: y :: xs ∧ x.type = .WITHIN ∧
    (y.type = .OPERATOR_EQ ∨ y.type = .OPERATOR_NE ∨ y.type = .COLON) := by
  simp only [dkey, Prod.mk.injEq] at h
  obtain ⟨h1, h2⟩ := h
  rw [h1] at h2
  cases ts with
  | nil => simp [nextType] at h1
  | cons x ts =>
    simp only [nextType, List.head?_cons, Option.map_some, Option.some.injEq] at h1
    cases ts with
    | nil => have := hc x rfl; rw [h1] at this; cases this
    | cons y xs =>
      refine ⟨x, y, xs, rfl, h1, ?_⟩
      simp only [la2, decide_true, Bool.true_and, Bool.not_eq_false', Bool.or_eq_true] at h2
      have h2 := h2.imp (fun h => h.imp of_decide_eq_true of_decide_eq_true) of_decide_eq_true
      have key : ∀ t : TokType, (t.num = 15 ∨ t.num = 16) ∨ t.num = 17 → t = .OPERATOR_EQ ∨ t = .OPERATOR_NE ∨ t = .COLON := by
        intro t; cases t <;> simp [TokType.num]
      exact key _ h2

/-- What is predicted is open. -/
theorem predict_open {d : Nat} {ctx : List Nat} {ts : List Tok} {a : Nat} (hc : Capped ts)
    (h : parserAtn.simulator.predictor.predict d ctx ts = some a) : 1 ≤ a ∧ altOpen d a (dkey ts) = true := by
  cases ts with
  | nil => rw [predict_nil] at h; cases h
  | cons x xs =>
    have h0 : 1 ≤ a ∧ altTable d a (nextType (x :: xs)) = true := by
      unfold altTable
      cases hd : parserAtn.decisions[d]? with
      | none =>
        exfalso
        have hs : parserAtn.startConfigs false d [] = [] := by unfold Atn.startConfigs; rw [hd]
        change parserAtn.simulator.walk d ctx (x :: xs) (x :: xs) (parserAtn.startConfigs false d []) = some a at h
        rw [hs] at h
        simp [Simulator.walk, Atn.simulator, Atn.reachSet, Atn.consumed, AConfigSet.ofList, AConfigSet.uniqueAlt, Atn.sllVerdict,
          Atn.finishedAlt] at h
      | some s =>
        obtain ⟨t, h4, h5, h6⟩ := predict_goes parserTab_ok parserNear_ok parserNear_length hd h
        refine ⟨h4, ?_⟩
        dsimp only
        rw [h5]
        dsimp only
        rw [show keyNum (nextType (x :: xs)) = x.type.num from rfl, expects_of_expected h6]
        simpa using h4
    refine ⟨h0.1, ?_⟩
    unfold altOpen
    rw [show (dkey (x :: xs)).1 = nextType (x :: xs) from rfl, h0.2]
    cases hb : (dkey (x :: xs)).2 with
    | false => simp
    | true =>
      cases hd : [16, 17, 18, 21, 23, 24].contains d with
      | false => simp
      | true =>
        exfalso
        obtain ⟨x', y, ys, e, h1, h2⟩ := dkey_bad hb hc
        cases e
        have hw := List.all_eq_true.1 within_bad d (List.contains_iff_mem.1 hd)
        simp only [Bool.and_eq_true, decide_eq_true_eq] at hw
        obtain ⟨⟨w1, w2⟩, w3⟩ := hw
        have w3 := List.all_eq_true.1 w3 y.type (Atn.mem_allTypes y.type)
        have h2' : (y.type == TokType.OPERATOR_EQ || y.type == .OPERATOR_NE || y.type == .COLON) = false := by
          simp only [not_or] at h2
          simp [h2.1, h2.2.1, h2.2.2]
        rw [h2', Bool.false_or, decide_eq_true_eq] at w3
        change parserAtn.simulator.walk d ctx (x :: y :: ys) (x :: y :: ys) (parserAtn.startConfigs false d []) = some a at h
        simp only [Simulator.walk, Atn.simulator, h1, show TokType.WITHIN.num = 18 from rfl] at h
        rw [w1] at h
        simp only at h
        rw [w3] at h
        simp only at h
        rw [w2] at h
        cases h

theorem predict_sure {d : Nat} {ctx : List Nat} {ts : List Tok} (hc : Capped ts) (hs : altSure d (dkey ts) = true) :
    parserAtn.simulator.predictor.predict d ctx ts ≠ none := by
  simp only [altSure, Bool.and_eq_true, beq_iff_eq] at hs
  obtain ⟨rfl, hk⟩ := hs
  obtain ⟨x, y, ys, rfl, h1, h2⟩ := dkey_good hk hc
  have hw := within_good
  simp only [Bool.and_eq_true, decide_eq_true_eq] at hw
  obtain ⟨w1, w2⟩ := hw
  have w2 := List.all_eq_true.1 w2 y.type (by rcases h2 with h | h | h <;> simp [h])
  change parserAtn.simulator.walk 25 ctx (x :: y :: ys) (x :: y :: ys) (parserAtn.startConfigs false 25 []) ≠ none
  simp only [Simulator.walk, Atn.simulator, h1, show TokType.WITHIN.num = 18 from rfl]
  rw [w1]
  simp only
  split
  · simp
  · rename_i h; rw [h] at w2; cases w2
  · rename_i h; rw [h] at w2; cases w2
  · rename_i h; rw [h] at w2; cases w2

/-! ### Steps -/

variable {A : Atn} {eof : Tok}

theorem EState.report_rest (t : Tok) (msg : PyStr) (s : EState) : (s.report t msg).rest = s.rest := by
  unfold EState.report; split <;> rfl

theorem reportUnwanted_rest (ctx : List Nat) (s : EState) : (reportUnwanted A eof ctx s).rest = s.rest := EState.report_rest ..

theorem reportMissing_rest (ctx : List Nat) (s : EState) : (reportMissing A eof ctx s).rest = s.rest := EState.report_rest ..

theorem reportFailure_rest (ctx : List Nat) (f : Failure) (s : EState) : (reportFailure A eof ctx f s).rest = s.rest := by
  unfold reportFailure
  split
  · rfl
  · cases f <;> exact EState.report_rest ..

/-- What the scan says about a step from the tokens `ts`. -/
def EStep.Now (ts : List Tok) (c : Zero) : EStep → Prop
  | .go s' => s'.rest <:+ ts ∧ (s'.rest = ts → c.fin = true)
  | .stop _ s' => s'.rest <:+ ts ∧ (s'.rest = ts → c.raise = true)

/-- And about a run. -/
def EOut.Now (ts : List Tok) (c : Zero) : EOut → Prop
  | .ok s' => s'.rest <:+ ts ∧ (s'.rest = ts → c.fin = true)
  | .raised _ s' => s'.rest <:+ ts ∧ (s'.rest = ts → c.raise = true)
  | .timeout _ => True

theorem sync_now (st : Nat) (ctx : List Nat) (s : EState) :
    (syncE parserAtn eof ctx (s.at st)).Now s.rest (nowS (dkey s.rest) (.sync st)) := by
  have hsk : ∀ (k : Nat) (s' : EState), s'.rest = s.rest → (s'.skip k).rest <:+ s.rest := by
    intro k s' h; rw [← h]; exact skipTo_suffix k s'.rest
  unfold syncE
  split
  · exact ⟨List.suffix_rfl, fun _ => rfl⟩
  · dsimp only
    split
    · exact ⟨List.suffix_rfl, fun _ => rfl⟩
    · rename_i hn
      split
      · split
        · exact ⟨hsk 1 _ (reportUnwanted_rest _ _), fun _ => rfl⟩
        · refine ⟨List.suffix_rfl, fun _ => ?_⟩
          have : Atn.hasTok (parserAtn.nextTokens st) (la s.rest) = false := by
            cases h : Atn.hasTok (parserAtn.nextTokens st) (la s.rest) with
            | false => rfl
            | true => exact absurd (by change (Atn.hasTok (parserAtn.nextTokens st) (la s.rest) || _) = true; rw [h]; rfl) hn
          rw [la_keyNum] at this
          simp only [nowS, syncOpen, dkey, this, Bool.not_false]
      · split
        · exact ⟨hsk _ _ (reportUnwanted_rest _ _), fun _ => rfl⟩
        · exact ⟨List.suffix_rfl, fun _ => rfl⟩

theorem inline_now (ctx : List Nat) (s : EState) : (inlineE A eof ctx s).Now s.rest ⟨[], true, true⟩ := by
  unfold inlineE
  dsimp only
  split
  · exact ⟨List.drop_suffix _ _, fun _ => rfl⟩
  · split
    · exact ⟨by change (reportMissing A eof ctx (s.look 1)).rest <:+ _; rw [reportMissing_rest]; exact List.suffix_rfl, fun _ => rfl⟩
    · exact ⟨List.suffix_rfl, fun _ => rfl⟩

theorem match_now (st : Nat) (ctx : List Nat) (ok : Int → Bool) (s : EState) :
    (matchE A eof ctx ok (s.at st)).Now s.rest
      (if (dkey s.rest).1.any (fun t => ok t.num) then ⟨[], false, false⟩ else ⟨[], true, true⟩) := by
  unfold matchE
  cases h : s.rest with
  | nil =>
    have h' : (s.at st).rest = [] := h
    rw [h']
    rw [if_neg (by simp [dkey, nextType])]
    dsimp only
    rw [← h]
    exact inline_now ctx (s.at st)
  | cons x xs =>
    have h' : (s.at st).rest = x :: xs := h
    rw [h']
    have hany : (dkey (x :: xs)).1.any (fun t => ok t.num) = ok x.type.num := rfl
    dsimp only
    by_cases hx : ok x.type.num = true
    · rw [if_pos (hany.trans hx), if_pos hx]
      refine ⟨List.suffix_cons x xs, fun e => ?_⟩
      have e : xs = x :: xs := e
      have := congrArg List.length e
      simp at this
    · rw [if_neg (fun h => hx (hany.symm.trans h)), if_neg hx, ← h]
      exact inline_now ctx (s.at st)

theorem recovery_soft {t : TokType} {ctx : List Nat} (h : parserAtn.recoveryTok t.num ctx = true) : softKey (some t) = true := by
  simp only [Atn.recoveryTok, List.any_eq_true] at h
  obtain ⟨i, -, h⟩ := h
  simp only [softKey, Bool.or_eq_true, List.any_eq_true]
  refine .inr ⟨i, ?_, ?_⟩
  · rw [List.mem_range]
    rcases Nat.lt_or_ge i parserAtn.states.length with hi | hi
    · exact hi
    · exfalso
      have : parserAtn.out i = [] := by unfold Atn.out; rw [List.getElem?_eq_none hi]
      unfold Atn.followState at h
      rw [this] at h
      simp at h
  · simp only [Atn.recoveryTok, List.any_cons, List.any_nil, Bool.or_false]
    exact h

theorem caught_now {ctx : List Nat} {f : Failure} {s : EState} (hc : Capped s.rest) :
    (caughtE parserAtn eof ctx f s).rest <:+ s.rest ∧ ((caughtE parserAtn eof ctx f s).rest = s.rest → softKey (nextType s.rest) = true) := by
  unfold caughtE
  have hr := reportFailure_rest (A := parserAtn) (eof := eof) ctx f s
  generalize reportFailure parserAtn eof ctx f s = s' at hr
  rw [← hr]
  rw [← hr] at hc
  clear hr
  unfold recover
  dsimp only
  generalize (if s'.lastIndex = some s'.rest.length ∧ s'.state ∈ s'.lastStates then 1 else 0) = k
  change skipTo _ (skipTo k s'.rest) <:+ _ ∧ (skipTo (untilTok (fun t => parserAtn.recoveryTok t ctx) (skipTo k s'.rest)) (skipTo k s'.rest) = _ → _)
  refine ⟨(skipTo_suffix _ _).trans (skipTo_suffix _ _), fun e => ?_⟩
  have e1 : skipTo k s'.rest = s'.rest := by
    have h1 := (skipTo_suffix k s'.rest)
    have h2 := (skipTo_suffix (untilTok (fun t => parserAtn.recoveryTok t ctx) (skipTo k s'.rest)) (skipTo k s'.rest)).length_le
    rw [e] at h2
    exact h1.eq_of_length_le h2
  rw [e1] at e
  cases hts : s'.rest with
  | nil => rfl
  | cons x xs =>
    rw [hts] at e hc
    simp only [nextType, List.head?_cons, Option.map_some]
    by_cases hx : x.type = .EOF
    · simp [softKey, hx]
    · cases hrec : parserAtn.recoveryTok x.type.num ctx with
      | true => exact recovery_soft hrec
      | false =>
        exfalso
        have hl : 1 ≤ untilTok (fun t => parserAtn.recoveryTok t ctx) (x :: xs) := by
          simp [untilTok, List.takeWhile_cons, hx, hrec]
        have hxs : 1 ≤ xs.length := by
          cases xs with
          | nil => exact absurd (hc x rfl) hx
          | cons y ys => simp
        have := congrArg List.length e
        simp only [skipTo, List.length_drop, List.length_cons] at this
        omega

/-! ### Runs -/

theorem now_of_step {ts : List Tok} {c : Zero} {ss : List Stmt} {step : EStep} {next : EState → EOut} (hc : Capped ts)
    (h : step.Now ts c) (hn : ∀ s', step = .go s' → Capped s'.rest → (next s').Now s'.rest (nowL (dkey s'.rest) ss)) :
    (step.andThen next).Now ts (c.andThen (nowL (dkey ts) ss)) := by
  cases step with
  | stop f s' => exact ⟨h.1, fun e => by rw [Zero.andThen_raise, h.2 e]; rfl⟩
  | go s' =>
    have h2 := hn s' rfl (hc.suffix h.1)
    simp only [EStep.andThen]
    cases hr : next s' with
    | timeout s'' => trivial
    | ok s'' =>
      rw [hr] at h2
      refine ⟨h2.1.trans h.1, fun e => ?_⟩
      have e1 : s'.rest = ts := h.1.eq_of_length_le (by rw [← e]; exact h2.1.length_le)
      rw [Zero.andThen_fin, h.2 e1, Bool.true_and, ← e1]
      exact h2.2 (by rw [e, e1])
    | raised f s'' =>
      rw [hr] at h2
      refine ⟨h2.1.trans h.1, fun e => ?_⟩
      have e1 : s'.rest = ts := h.1.eq_of_length_le (by rw [← e]; exact h2.1.length_le)
      rw [Zero.andThen_raise, h.2 e1, Bool.true_and, ← e1, h2.2 (by rw [e, e1]), Bool.or_true]

theorem EOut.Now.mono {ts : List Tok} {c c' : Zero} {r : EOut} (h : r.Now ts c) (h1 : c.fin = true → c'.fin = true)
    (h2 : c.raise = true → c'.raise = true) : r.Now ts c' := by
  cases r with
  | ok s => exact ⟨h.1, fun e => h1 (h.2 e)⟩
  | raised f s => exact ⟨h.1, fun e => h2 (h.2 e)⟩
  | timeout s => trivial

theorem sure_code {r : Rule} {ts : List Tok} (h : sureNow r (dkey ts) = true) :
    (nowL (dkey ts) (code r)).fin = false ∧ ((nowL (dkey ts) (code r)).raise = false ∨ softKey (nextType ts) = false) := by
  have := List.all_eq_true.1 (List.all_eq_true.1 now_sure r (mem_allRules r)) _ (mem_nowKeys ts)
  rw [h] at this
  have e : (dkey ts).1 = nextType ts := rfl
  rw [e] at this
  simpa using this

theorem execE_now (n : Nat) : ∀ ctx ss (s : EState), Capped s.rest →
    (execE parserAtn eof code n ctx ss s).Now s.rest (nowL (dkey s.rest) ss) := by
  induction n with
  | zero => intro ctx ss s _; trivial
  | succ n ih =>
    intro ctx ss s hc
    have hl : ∀ k ss, (execE parserAtn eof code n ctx ss (s.look k)).Now s.rest (nowL (dkey s.rest) ss) := fun k ss => ih ctx ss (s.look k) hc
    cases ss with
    | nil => exact ⟨List.suffix_rfl, fun _ => rfl⟩
    | cons c ss =>
      cases c with
      | sync st =>
        rw [execE, nowL]
        exact now_of_step hc (sync_now st ctx s) fun s' _ h => ih ctx ss s' h
      | matchTok st j =>
        rw [execE, nowL, nowS]
        exact now_of_step hc (by simpa using match_now st ctx (fun i => decide (i = j)) s) fun s' _ h => ih ctx ss s' h
      | matchSet st t =>
        rw [execE, nowL, nowS]
        exact now_of_step hc (match_now st ctx t.eval s) fun s' _ h => ih ctx ss s' h
      | call st r =>
        rw [execE, nowL, nowS]
        have h := ih (st :: ctx) (code r) (s.at st) hc
        have key : ∀ s' : EState, s'.rest <:+ s.rest → (s'.rest = s.rest → sureNow r (dkey s.rest) = false) →
            (execE parserAtn eof code n ctx ss (s'.at st)).Now s.rest (Zero.andThen ⟨[r], !sureNow r (dkey s.rest), false⟩ (nowL (dkey s.rest) ss)) := by
          intro s' h1 h2
          exact now_of_step (step := .go (s'.at st)) (next := execE parserAtn eof code n ctx ss) hc ⟨h1, fun e => by rw [h2 e]; rfl⟩
            (fun s'' e h => by cases e; exact ih ctx ss _ h)
        cases hr : execE parserAtn eof code n (st :: ctx) (code r) (s.at st) with
        | timeout s' => trivial
        | ok s' =>
          rw [hr] at h
          refine key s' h.1 fun e => ?_
          cases hq : sureNow r (dkey s.rest) with
          | false => rfl
          | true => have := (sure_code hq).1; rw [show (nowL (dkey s.rest) (code r)).fin = true from h.2 e] at this; cases this
        | raised f s' =>
          rw [hr] at h
          have hcs : Capped s'.rest := hc.suffix h.1
          obtain ⟨c1, c2⟩ := caught_now (eof := eof) (ctx := st :: ctx) (f := f) hcs
          refine key _ (c1.trans h.1) fun e => ?_
          have e1 : s'.rest = s.rest := h.1.eq_of_length_le (by change s.rest.length ≤ _; rw [← e]; exact c1.length_le)
          cases hq : sureNow r (dkey s.rest) with
          | false => rfl
          | true =>
            rcases (sure_code hq).2 with h3 | h3
            · rw [show (nowL (dkey s.rest) (code r)).raise = true from h.2 e1] at h3; cases h3
            · rw [← e1, c2 (by rw [e, e1])] at h3; cases h3
      | predict d bs =>
        rw [execE, nowL, nowS]
        cases hp : parserAtn.simulator.predictor.predict d ctx s.rest with
        | none =>
          refine ⟨List.suffix_rfl, fun _ => ?_⟩
          have : altSure d (dkey s.rest) = false := by
            cases h : altSure d (dkey s.rest) with
            | false => rfl
            | true => exact absurd hp (predict_sure hc h)
          rw [Zero.andThen_raise, this]; simp
        | some a =>
          obtain ⟨h1, h2⟩ := predict_open hc hp
          have hb := (nowBs_branch bs 1 a h1 (by rwa [show 1 + a - 1 = a by omega])).2
          refine (hl _ (branch bs a ++ ss)).mono ?_ ?_
          · rw [nowL_append_fin, Zero.andThen_fin, Bool.and_eq_true]; exact fun h => by simpa using h.2
          · rw [nowL_append_raise, Zero.andThen_raise]
            simp only [Bool.or_eq_true, Bool.and_eq_true, Bool.true_and]
            rintro (h | h)
            · exact .inl (.inl (hb h))
            · exact .inr h.2
      | switchLA cs =>
        rw [execE, nowL, nowS, nowCs_case, show keyNum (dkey s.rest).1 = la s.rest from (la_keyNum s.rest).symm]
        cases hp : switchCase (la s.rest) cs with
        | none => exact ⟨List.suffix_rfl, fun _ => rfl⟩
        | some b =>
          refine (ih ctx (b ++ ss) s hc).mono ?_ ?_
          · rw [nowL_append_fin, Zero.andThen_fin]; exact id
          · rw [nowL_append_raise, Zero.andThen_raise]; exact id
      | ifLA t b =>
        rw [execE, nowL, nowS, show keyNum (dkey s.rest).1 = la s.rest from (la_keyNum s.rest).symm]
        refine (ih ctx _ s hc).mono ?_ ?_
        · rw [nowL_append_fin, Zero.andThen_fin]; split <;> simp [nowL]
        · rw [nowL_append_raise, Zero.andThen_raise]; split <;> simp [nowL]
      | whileLA b st t =>
        rw [execE, nowL, nowS]
        refine (ih ctx _ s hc).mono ?_ ?_
        · rw [nowL_append_fin, Zero.andThen_fin, nowL, nowL, Zero.andThen_fin, Zero.andThen_fin]
          simp only [Bool.and_eq_true]
          exact fun h => ⟨h.1, h.2.2.2⟩
        · rw [Zero.andThen_raise]; simp
      | whilePredict b st d =>
        rw [execE, nowL, nowS]
        refine (ih ctx _ s hc).mono ?_ ?_
        · rw [nowL_append_fin, Zero.andThen_fin, nowL, nowL, Zero.andThen_fin, Zero.andThen_fin]
          simp only [Bool.and_eq_true]
          exact fun h => ⟨h.1, h.2.2.2⟩
        · rw [Zero.andThen_raise]; simp
      | loopPredict b st d =>
        rw [execE, nowL, nowS]
        cases hp : parserAtn.simulator.predictor.predict d ctx s.rest with
        | none => exact ⟨List.suffix_rfl, fun _ => by simp [Zero.andThen]⟩
        | some a =>
          dsimp only
          by_cases h2 : a = 2 ∨ a = 0
          · rw [if_pos h2]
            refine (hl _ ss).mono ?_ ?_
            · rw [Zero.andThen_fin]; exact fun h => by simpa using h
            · rw [Zero.andThen_raise]; simp
          · rw [if_neg h2]
            by_cases h1 : a = 1
            · rw [if_pos h1]
              refine (hl _ _).mono ?_ ?_
              · rw [nowL, nowS, Zero.andThen_fin, Zero.andThen_fin]; intro h; simp only [Bool.and_eq_true] at h; simpa using h.2
              · rw [Zero.andThen_raise]; simp
            · rw [if_neg h1]
              exact ⟨List.suffix_rfl, fun _ => by rw [Zero.andThen_raise]; simp⟩

end Fcsql
