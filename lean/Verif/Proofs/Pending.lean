/-
How many calls of rule functions are pending, for all queries.
-/
import Verif.Proofs.PendingStep
import Verif.Proofs.ProgramRun
import Verif.Proofs.Faults
import Verif.Props.Recovery

set_option autoImplicit false
set_option linter.unusedSimpArgs false

namespace Fcsql

attribute [local irreducible] parserAtn parseQuery lexerAtn lexPieces

/-- What the tokens count. -/
def toksCost (ts : List Tok) : Nat := (ts.map fun t => tokCost (some t.type)).sum

theorem toksCost_cons (x : Tok) (xs : List Tok) : toksCost (x :: xs) = tokCost (some x.type) + toksCost xs := by
  simp [toksCost]

theorem toksCost_append (a b : List Tok) : toksCost (a ++ b) = toksCost a + toksCost b := by
  simp [toksCost]

theorem toksCost_suffix {ts us : List Tok} (h : us <:+ ts) : toksCost us ≤ toksCost ts := by
  obtain ⟨vs, rfl⟩ := h
  rw [toksCost_append]; omega

theorem toksCost_next (ts : List Tok) : toksCost ts = tokCost (nextType ts) + toksCost ts.tail := by
  cases ts with
  | nil => rfl
  | cons x xs => exact toksCost_cons x xs

theorem suffix_tail {ts us : List Tok} (h : us <:+ ts) (hne : us ≠ ts) : us <:+ ts.tail := by
  cases ts with
  | nil => exact absurd (List.suffix_nil.1 h) hne
  | cons x xs =>
    rcases List.suffix_cons_iff.1 h with h | h
    · exact absurd h hne
    · exact h

/-- There is room for all that the statements call. -/
structure Roomy (room : Nat) (ctx : List Nat) (ss : List Stmt) (ts : List Tok) : Prop where
  now : ∀ r ∈ (nowL (dkey ts) ss).calls, calledAt r (nextType ts) = true ∧ ctx.length + ruleCost r + toksCost ts ≤ room
  late : ∀ k ∈ nowKeys, ∀ r ∈ lateL k ss, calledAt r k.1 = true ∧ ctx.length + ruleCost r + toksCost ts.tail ≤ room

variable {room : Nat} {ctx : List Nat} {ss ss' : List Stmt} {c : Stmt} {ts ts' : List Tok}

theorem Roomy.step (h : Roomy room ctx (c :: ss) ts) (hs : ts' <:+ ts) (hf : ts' = ts → (nowS (dkey ts) c).fin = true) :
    Roomy room ctx ss ts' := by
  have hlate : ∀ k ∈ nowKeys, ∀ r ∈ nearL k ss, calledAt r k.1 = true ∧ ctx.length + ruleCost r + toksCost ts.tail ≤ room := by
    intro k hk r hr
    exact h.late k hk r (by rw [lateL]; exact List.mem_append_right _ hr)
  by_cases e : ts' = ts
  · subst e
    exact ⟨fun r hr => h.now r (by rw [nowL, Zero.andThen_calls]; exact .inr ⟨hf rfl, hr⟩),
      fun k hk r hr => hlate k hk r (lateL_near k ss r hr)⟩
  · have ht := suffix_tail hs e
    have h1 := toksCost_suffix ht
    have h2 := toksCost_suffix (List.tail_suffix ts')
    constructor
    · intro r hr
      obtain ⟨h3, h4⟩ := hlate _ (mem_nowKeys ts') r (nowL_near _ ss r hr)
      exact ⟨h3, by omega⟩
    · intro k hk r hr
      obtain ⟨h3, h4⟩ := hlate k hk r (lateL_near k ss r hr)
      exact ⟨h3, by omega⟩

theorem Roomy.swap (h : Roomy room ctx ss ts) (h1 : ∀ r ∈ (nowL (dkey ts) ss').calls, r ∈ (nowL (dkey ts) ss).calls)
    (h2 : ∀ k, ∀ r ∈ lateL k ss', r ∈ lateL k ss) : Roomy room ctx ss' ts :=
  ⟨fun r hr => h.now r (h1 r hr), fun k hk r hr => h.late k hk r (h2 k r hr)⟩

theorem Roomy.body {r : Rule} {st : Nat} (h : Roomy room ctx (.call st r :: ss) ts) :
    (st :: ctx).length ≤ room ∧ Roomy room (st :: ctx) (code r) ts := by
  obtain ⟨h1, h2⟩ := h.now r (by rw [nowL, Zero.andThen_calls, nowS]; exact .inl List.mem_cons_self)
  have h3 := cost_pos r
  refine ⟨by simp only [List.length_cons]; omega, ?_, ?_⟩
  · intro r' hr'
    have := List.all_eq_true.1 (List.all_eq_true.1 now_calls r (mem_allRules r)) _ (mem_nowKeys ts)
    rw [show (dkey ts).1 = nextType ts from rfl, h1, Bool.not_true, Bool.false_or] at this
    have := List.all_eq_true.1 this r' hr'
    simp only [Bool.and_eq_true, decide_eq_true_eq] at this
    exact ⟨this.1, by simp only [List.length_cons]; omega⟩
  · intro k hk r' hr'
    have := List.all_eq_true.1 (List.all_eq_true.1 late_calls r (mem_allRules r)) _ (mem_allKeys (nextType ts))
    rw [h1, Bool.not_true, Bool.false_or] at this
    have := List.all_eq_true.1 (List.all_eq_true.1 this k hk) r' hr'
    simp only [Bool.and_eq_true, decide_eq_true_eq] at this
    have hn := toksCost_next ts
    exact ⟨this.1, by simp only [List.length_cons]; omega⟩

theorem Roomy.start (r : Rule) (ts : List Tok) (hr : calledAt r (nextType ts) = true) (h : ruleCost r + toksCost ts ≤ room + 1) :
    Roomy room [] (code r) ts := by
  refine ⟨?_, ?_⟩
  · intro r' hr'
    have := List.all_eq_true.1 (List.all_eq_true.1 now_calls r (mem_allRules r)) _ (mem_nowKeys ts)
    rw [show (dkey ts).1 = nextType ts from rfl, hr, Bool.not_true, Bool.false_or] at this
    have := List.all_eq_true.1 this r' hr'
    simp only [Bool.and_eq_true, decide_eq_true_eq] at this
    exact ⟨this.1, by simp only [List.length_nil]; omega⟩
  · intro k hk r' hr'
    have := List.all_eq_true.1 (List.all_eq_true.1 late_calls r (mem_allRules r)) _ (mem_allKeys (nextType ts))
    rw [hr, Bool.not_true, Bool.false_or] at this
    have := List.all_eq_true.1 (List.all_eq_true.1 this k hk) r' hr'
    simp only [Bool.and_eq_true, decide_eq_true_eq] at this
    have hn := toksCost_next ts
    exact ⟨this.1, by simp only [List.length_nil]; omega⟩

/-- Statements replaced by their parts. -/
theorem Roomy.branch {d a : Nat} {bs : List (List Stmt)} (h : Roomy room ctx (.predict d bs :: ss) ts) (ha : 1 ≤ a)
    (ho : altOpen d a (dkey ts) = true) : Roomy room ctx (branch bs a ++ ss) ts := by
  refine h.swap ?_ ?_
  · intro r hr
    rw [nowL, Zero.andThen_calls, nowS]
    rw [nowL_append_calls] at hr
    rcases hr with hr | hr
    · exact .inl ((nowBs_branch bs 1 a ha (by rwa [show 1 + a - 1 = a by omega])).1 r hr)
    · exact .inr ⟨rfl, hr.2⟩
  · intro k r hr
    rw [lateL, lateS, List.mem_append]
    exact (lateL_append k _ _ r hr).imp (lateBs_branch k bs a r) id

theorem Roomy.case {b : List Stmt} {cs : List (List Int × List Stmt)} (h : Roomy room ctx (.switchLA cs :: ss) ts)
    (hs : switchCase (la ts) cs = some b) : Roomy room ctx (b ++ ss) ts := by
  refine h.swap ?_ ?_
  · intro r hr
    rw [nowL, Zero.andThen_calls, nowS, nowCs_case, show keyNum (dkey ts).1 = la ts from (la_keyNum ts).symm, hs]
    rwa [nowL_append_calls] at hr
  · intro k r hr
    rw [lateL, lateS, List.mem_append]
    exact (lateL_append k _ _ r hr).imp (lateCs_case k cs hs r) id

theorem Roomy.guard {t : LaTest} {b : List Stmt} (h : Roomy room ctx (.ifLA t b :: ss) ts) :
    Roomy room ctx ((if t.eval (la ts) then b else []) ++ ss) ts := by
  refine h.swap ?_ ?_
  · intro r hr
    rw [nowL, Zero.andThen_calls, nowS, show keyNum (dkey ts).1 = la ts from (la_keyNum ts).symm]
    rw [nowL_append_calls] at hr
    split at hr <;> rename_i ht
    · rw [if_pos ht]; exact hr
    · rw [if_neg ht]; exact hr
  · intro k r hr
    rw [lateL, lateS, List.mem_append]
    split at hr
    · exact lateL_append k _ _ r hr
    · exact .inr (lateL_near k ss r hr)

theorem Roomy.whileLA {b : List Stmt} {st : Nat} {t : LaTest} (h : Roomy room ctx (.whileLA b st t :: ss) ts) :
    Roomy room ctx (b ++ (.sync st :: .ifLA t [.whileLA b st t] :: ss)) ts := by
  refine h.swap ?_ ?_
  · intro r hr
    rw [nowL, Zero.andThen_calls, nowS]
    rw [nowL_append_calls, nowL, nowL, Zero.andThen_calls, Zero.andThen_calls] at hr
    rcases hr with hr | ⟨hf, hr | ⟨-, hr | hr⟩⟩
    · exact .inl hr
    · simp [nowS] at hr
    · left
      simp only [nowS, nowL] at hr
      split at hr
      · rw [Zero.andThen_calls] at hr; simpa using hr
      · simp at hr
    · exact .inr ⟨hf, hr.2⟩
  · intro k r hr
    rw [lateL, lateS, List.mem_append]
    rcases lateL_append k _ _ r hr with hr | hr
    · exact .inl (lateL_near k b r hr)
    · simpa [nearL, nearS] using hr

theorem Roomy.whilePredict {b : List Stmt} {st d : Nat} (h : Roomy room ctx (.whilePredict b st d :: ss) ts) :
    Roomy room ctx (b ++ (.sync st :: .loopPredict b st d :: ss)) ts := by
  refine h.swap ?_ ?_
  · intro r hr
    rw [nowL, Zero.andThen_calls, nowS]
    rw [nowL_append_calls, nowL, nowL, Zero.andThen_calls, Zero.andThen_calls] at hr
    rcases hr with hr | ⟨hf, hr | ⟨-, hr | hr⟩⟩
    · exact .inl hr
    · simp [nowS] at hr
    · exact .inl (by simpa only [nowS] using hr)
    · exact .inr ⟨hf, hr.2⟩
  · intro k r hr
    rw [lateL, lateS, List.mem_append]
    rcases lateL_append k _ _ r hr with hr | hr
    · exact .inl (lateL_near k b r hr)
    · simpa [nearL, nearS] using hr

theorem Roomy.leave {b : List Stmt} {st d : Nat} (h : Roomy room ctx (.loopPredict b st d :: ss) ts) : Roomy room ctx ss ts :=
  h.step List.suffix_rfl fun _ => rfl

theorem Roomy.again {b : List Stmt} {st d : Nat} (h : Roomy room ctx (.loopPredict b st d :: ss) ts) :
    Roomy room ctx (.whilePredict b st d :: ss) ts := by
  refine h.swap ?_ ?_
  · intro r hr
    simp only [nowL, Zero.andThen_calls, nowS] at hr ⊢
    exact hr.imp id fun h => ⟨trivial, h.2⟩
  · intro k r hr
    simp only [lateL, lateS] at hr ⊢
    exact hr

/-! ### Nothing arrives -/

/-- A run with exceptions from outside is as the run without. -/
def FExact : Option POut → Option FOut → Prop
  | none, none => True
  | some (.ok f s), some (.ok f' s' _) => f' = f ∧ s' = s
  | some (.raised f s), some (.raised f' s' _) => f' = f ∧ s' = s
  | _, _ => False

theorem FExact.prepend {o : Option POut} {r : Option FOut} (h : FExact o r) (f : List PTree) :
    FExact (o.map (.prepend f)) (r.map (.prepend f)) := by
  match o, r, h with
  | none, none, _ => trivial
  | some (.ok f' s), some (.ok f'' s' _), h => exact ⟨by rw [h.1], h.2⟩
  | some (.raised f' s), some (.raised f'' s' _), h => exact h

theorem during_quiet {O : Strikes} {α : Type} {t : Nat} {ctx : List Nat} {b : List ListenerCall} {a : α} {calls : α → List ListenerCall}
    {f : α → Option FOut} (h : O t ctx = none) : during O t ctx b (some a) calls f = f a := by
  unfold during; simp only [h]

variable {m : Nat} {q : PyStr} {O : Strikes}

theorem Sim1.capped {s : PState} {e : EState} (h : Sim1 q s e) : Capped e.rest := (capped_stream q).suffix h.sim.rest

theorem execF_quiet (hm : 28 ≤ m) (hO : ∀ t ctx, ctx.length ≤ room → O t ctx = none) :
    ∀ (n : Nat) (ctx : List Nat) (ss : List Stmt) (s : PState) (e : EState) (t : Nat), Sim1 q s e → ctx.length ≤ room →
      Roomy room ctx ss e.rest →
      FExact (execP lexerAtn m q parserAtn code n ctx ss s) (execF lexerAtn m q parserAtn O code n ctx ss s t) := by
  intro n
  induction n with
  | zero => intro ctx ss s e t h hl hr; exact trivial
  | succ n ih =>
    intro ctx ss s e t h hl hr
    have hun : e.rest.length ≤ q.length + 1 := by have := h.sim.rest_length; omega
    have hq := hO t ctx hl
    have hstep : ∀ {c : Stmt} {ss : List Stmt} (x : PStep) (y : EStep), StepSim q x y → y.Now e.rest (nowS (dkey e.rest) c) →
        Roomy room ctx (c :: ss) e.rest →
        FExact (x.andThen (execP lexerAtn m q parserAtn code n ctx ss)) (x.andThenF (t + 1) (execF lexerAtn m q parserAtn O code n ctx ss)) := by
      intro c ss x y h1 h2 h3
      match x, y, h1, h2 with
      | .go f s', .go e', h1, h2 => exact (ih ctx ss s' e' (t + 1) h1 hl (h3.step h2.1 h2.2)).prepend f
      | .stop f s', .stop f' e', h1, h2 => exact ⟨rfl, rfl⟩
    cases ss with
    | nil => rw [execP, execF, during_quiet hq]; exact ⟨rfl, rfl⟩
    | cons c ss =>
      cases c with
      | sync st =>
        obtain ⟨r, h1, h2, -⟩ := simP_sync (A := parserAtn) hm (h.at st) ctx
        rw [execP, execF, h1, during_quiet hq]
        exact hstep r _ h2 (sync_now st ctx e) hr
      | matchTok st k =>
        obtain ⟨r, h1, h2, -⟩ := simP_match (A := parserAtn) hm (h.at st) ctx (fun j => j = k)
        rw [execP, execF, h1, during_quiet hq]
        exact hstep r _ h2 (by rw [nowS]; simpa using match_now st ctx (fun j => decide (j = k)) e) hr
      | matchSet st b =>
        obtain ⟨r, h1, h2, -⟩ := simP_match (A := parserAtn) hm (h.at st) ctx b.eval
        rw [execP, execF, h1, during_quiet hq]
        exact hstep r _ h2 (by rw [nowS]; exact match_now st ctx b.eval e) hr
      | call st r =>
        obtain ⟨hl', hb⟩ := hr.body
        rw [execP, execF, during_quiet (hO t _ hl')]
        have hin := ih (st :: ctx) (code r) (s.at st) (e.at st) (t + 1) (h.at st) hl' hb
        have hsim := exec_sim (A := parserAtn) (prog := code) hm n (st :: ctx) (code r) (s.at st) (e.at st) (h.at st)
        have hnow := execE_now (eof := eofTok q) n (st :: ctx) (code r) (e.at st) h.capped
        -- what the call amounts to
        have hfin : ∀ e' : EState, e'.rest <:+ e.rest → (e'.rest = e.rest → sureNow r (dkey e.rest) = false) → Roomy room ctx ss (e'.at st).rest := by
          intro e' g1 g2
          exact hr.step g1 fun g => by rw [nowS]; simp [g2 g]
        revert hin hsim
        cases execP lexerAtn m q parserAtn code n (st :: ctx) (code r) (s.at st) with
        | none =>
          cases execF lexerAtn m q parserAtn O code n (st :: ctx) (code r) (s.at st) (t + 1) with
          | none => intro _ _; exact trivial
          | some o => intro g _; cases o <;> exact g.elim
        | some o =>
          cases o with
          | ok f s' =>
            cases execF lexerAtn m q parserAtn O code n (st :: ctx) (code r) (s.at st) (t + 1) with
            | none => intro g _; exact g.elim
            | some o =>
              cases o with
              | raised f' s'' t' => intro g _; exact g.elim
              | struck k cs => intro g _; exact g.elim
              | ok f' s'' t' =>
                rintro ⟨rfl, rfl⟩ g
                revert hnow g
                cases execE parserAtn (eofTok q) code n (st :: ctx) (code r) (e.at st) with
                | timeout e' => intro _ g; exact g.elim
                | raised f e' => intro _ g; exact g.elim
                | ok e' =>
                  intro hnow g
                  refine FExact.prepend (ih ctx ss _ (e'.at st) _ (Sim1.at g st) hl (hfin e' hnow.1 fun e2 => ?_)) _
                  cases hq : sureNow r (dkey e.rest) with
                  | false => rfl
                  | true => have := (sure_code hq).1; rw [show (nowL (dkey e.rest) (code r)).fin = true from hnow.2 e2] at this; cases this
          | raised f s' =>
            cases execF lexerAtn m q parserAtn O code n (st :: ctx) (code r) (s.at st) (t + 1) with
            | none => intro g _; exact g.elim
            | some o =>
              cases o with
              | ok f' s'' t' => intro g _; exact g.elim
              | struck k cs => intro g _; exact g.elim
              | raised f' s'' t' =>
                rintro ⟨rfl, rfl⟩ g
                revert hnow g
                cases execE parserAtn (eofTok q) code n (st :: ctx) (code r) (e.at st) with
                | timeout e' => intro _ g; exact g.elim
                | ok e' => intro _ g; exact g.elim
                | raised f e' =>
                  rintro hnow ⟨rfl, g⟩
                  obtain ⟨s2, h1, h2⟩ := g.caught (A := parserAtn) hm (st :: ctx) f'
                  dsimp only
                  rw [h1, during_quiet (hO t' _ hl')]
                  obtain ⟨c1, c2⟩ := caught_now (eof := eofTok q) (ctx := st :: ctx) (f := f') g.capped
                  refine FExact.prepend (ih ctx ss _ _ _ (h2.at st) hl (hfin _ (c1.trans hnow.1) fun e2 => ?_)) _
                  have e1 : e'.rest = e.rest := hnow.1.eq_of_length_le (by change e.rest.length ≤ _; rw [← e2]; exact c1.length_le)
                  cases hq : sureNow r (dkey e.rest) with
                  | false => rfl
                  | true =>
                    rcases (sure_code hq).2 with h3 | h3
                    · rw [show (nowL (dkey e.rest) (code r)).raise = true from hnow.2 e1] at h3; cases h3
                    · rw [← e1, c2 (by rw [e2, e1])] at h3; cases h3
      | predict d bs =>
        obtain ⟨k, s1, h1, h2, h4⟩ := h.predict (A := parserAtn) hm d ctx hun
        rw [execP, execF, h1, during_quiet hq]
        cases hp : parserAtn.simulator.predictor.predict d ctx e.rest with
        | none => exact ⟨rfl, rfl⟩
        | some a =>
          obtain ⟨g1, g2⟩ := predict_open h.capped hp
          exact ih ctx _ _ _ _ h2 hl (hr.branch g1 g2)
      | switchLA cs =>
        rw [execP, execF, during_quiet hq, h.la]
        cases hs : switchCase (la e.rest) cs with
        | none => exact ⟨rfl, rfl⟩
        | some b => exact ih ctx _ _ _ _ h hl (hr.case hs)
      | ifLA b body => rw [execP, execF, during_quiet hq, h.la]; exact ih ctx _ _ _ _ h hl hr.guard
      | whileLA b st c => rw [execP, execF, during_quiet hq]; exact ih ctx _ _ _ _ h hl hr.whileLA
      | whilePredict b st d => rw [execP, execF, during_quiet hq]; exact ih ctx _ _ _ _ h hl hr.whilePredict
      | loopPredict b st d =>
        obtain ⟨k, s1, h1, h2, h4⟩ := h.predict (A := parserAtn) hm d ctx hun
        rw [execP, execF, h1, during_quiet hq]
        cases hp : parserAtn.simulator.predictor.predict d ctx e.rest with
        | none => exact ⟨rfl, rfl⟩
        | some a =>
          dsimp only
          split
          · exact ih ctx _ _ _ _ h2 hl hr.leave
          · split
            · exact ih ctx _ _ _ _ h2 hl hr.again
            · exact ⟨rfl, rfl⟩

/-- A whole call. -/
theorem callF_quiet (hm : 28 ≤ m) (hO : ∀ t ctx, ctx.length ≤ room → O t ctx = none) (n : Nat)
    (hr : 11 + toksCost (tokenStream q) ≤ room) :
    callF lexerAtn m q parserAtn O code n .query =
      (callP lexerAtn m q parserAtn code n .query).map fun r => (.ok r.1, r.2) := by
  obtain ⟨s, h1, h2⟩ := sim_first hm q
  have h := execF_quiet hm hO n [] (code .query) s _ 1 h2 (Nat.zero_le _)
    (Roomy.start .query _ rfl (by change 12 + toksCost (tokenStream q) ≤ _; omega))
  unfold callF callP
  rw [h1, during_quiet (hO 0 [] (Nat.zero_le _))]
  revert h
  have hsim := exec_sim (A := parserAtn) (prog := code) hm n [] (code .query) s _ h2
  revert hsim
  dsimp only
  cases execP lexerAtn m q parserAtn code n [] (code .query) s with
  | none =>
    cases execF lexerAtn m q parserAtn O code n [] (code .query) s 1 with
    | none => intro _ _; rfl
    | some o => intro _ g; cases o <;> exact g.elim
  | some o =>
    cases o with
    | ok f s' =>
      cases execF lexerAtn m q parserAtn O code n [] (code .query) s 1 with
      | none => intro _ g; exact g.elim
      | some o =>
        cases o with
        | raised f' s'' t' => intro _ g; exact g.elim
        | struck k cs => intro _ g; exact g.elim
        | ok f' s'' t' => rintro - ⟨rfl, rfl⟩; rfl
    | raised f s' =>
      cases execF lexerAtn m q parserAtn O code n [] (code .query) s 1 with
      | none => intro _ g; exact g.elim
      | some o =>
        cases o with
        | ok f' s'' t' => intro _ g; exact g.elim
        | struck k cs => intro _ g; exact g.elim
        | raised f' s'' t' =>
          rintro g ⟨rfl, rfl⟩
          revert g
          cases execE parserAtn (eofTok q) code n [] (code .query) (EState.new (tokenStream q)) with
          | timeout e' => intro g; exact g.elim
          | ok e' => intro g; exact g.elim
          | raised f e' =>
            rintro ⟨rfl, g⟩
            obtain ⟨s2, g1, -⟩ := g.caught (A := parserAtn) hm [] f'
            dsimp only
            rw [g1, during_quiet (hO t' [] (Nat.zero_le _))]
            rfl

end Fcsql
