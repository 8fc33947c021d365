/-
Runs of the generated functions with error recovery: their statements, counted.
-/
import Verif.Proofs.ErrorWork
import Verif.Proofs.ErrorWorkTables
import Verif.Proofs.ErrorStrategySeen
import Verif.Proofs.Predictions

set_option autoImplicit false
set_option linter.unusedSimpArgs false

namespace Fcsql

attribute [local irreducible] parserAtn parseQuery lexerAtn lexPieces

variable {A : Atn} {eof : Tok} {prog : Rule → List Stmt}

theorem asked_length (l : List Executed) : (l.filterMap Executed.asked).length = workOf predRates l := by
  induction l with
  | nil => rfl
  | cons d l ih =>
    rw [workOf_cons, ← ih, List.filterMap_cons]
    obtain ⟨c, ctx, ts⟩ := d
    cases c <;> simp [Executed.asked, predRates, ratesOf, predWeight] <;> omega

theorem called_length (l : List Executed) : (l.filterMap Executed.called).length = workOf callRates l := by
  induction l with
  | nil => rfl
  | cons d l ih =>
    rw [workOf_cons, ← ih, List.filterMap_cons]
    obtain ⟨c, ctx, ts⟩ := d
    cases c <;> simp [Executed.called, callRates, ratesOf, callWeight] <;> omega

theorem steps_length (l : List Executed) : l.length = workOf stepRates l := by
  induction l with
  | nil => rfl
  | cons d l ih =>
    rw [workOf_cons, ← ih, List.length_cons, show stepRates.w d.stmt = 1 from rfl]
    omega

/-- A run that is cut off has executed as many statements as it was allowed to. -/
theorem timeout_acts : ∀ (n : Nat) (ctx : List Nat) (ss : List Stmt) (s s' : EState), execE A eof prog n ctx ss s = .timeout s' →
    n ≤ (execActs A eof prog n ctx ss s).length := by
  intro n
  induction n with
  | zero => intros; exact Nat.zero_le _
  | succ n ih =>
    intro ctx ss s s' h
    have hstep : ∀ (step : EStep) (ss : List Stmt), step.andThen (execE A eof prog n ctx ss) = .timeout s' →
        n ≤ (step.acts (execActs A eof prog n ctx ss)).length := by
      intro step ss h
      cases step with
      | go s1 => exact ih ctx ss s1 s' h
      | stop f s1 => cases h
    cases ss with
    | nil => cases h
    | cons c ss =>
      cases c with
      | sync st => rw [execE] at h; rw [execActs, List.length_cons]; have := hstep _ _ h; omega
      | matchTok st k => rw [execE] at h; rw [execActs, List.length_cons]; have := hstep _ _ h; omega
      | matchSet st t => rw [execE] at h; rw [execActs, List.length_cons]; have := hstep _ _ h; omega
      | call st r =>
        rw [execE] at h
        rw [execActs, List.length_cons, List.length_append]
        cases hx : execE A eof prog n (st :: ctx) (prog r) (s.at st) with
        | timeout s1 => have := ih _ _ _ _ hx; dsimp only; omega
        | ok s1 => rw [hx] at h; dsimp only at h ⊢; have := ih _ _ _ _ h; omega
        | raised f s1 => rw [hx] at h; dsimp only at h ⊢; have := ih _ _ _ _ h; omega
      | predict d bs =>
        rw [execE] at h
        rw [execActs, List.length_cons]
        cases hp : A.simulator.predictor.predict d ctx s.rest with
        | none => rw [hp] at h; cases h
        | some a => rw [hp] at h; dsimp only at h ⊢; have := ih _ _ _ _ h; omega
      | switchLA cs =>
        rw [execE] at h
        rw [execActs, List.length_cons]
        cases hp : switchCase (la s.rest) cs with
        | none => rw [hp] at h; cases h
        | some a => rw [hp] at h; dsimp only at h ⊢; have := ih _ _ _ _ h; omega
      | ifLA t b => rw [execE] at h; rw [execActs, List.length_cons]; have := ih _ _ _ _ h; omega
      | whileLA b st t => rw [execE] at h; rw [execActs, List.length_cons]; have := ih _ _ _ _ h; omega
      | whilePredict b st d => rw [execE] at h; rw [execActs, List.length_cons]; have := ih _ _ _ _ h; omega
      | loopPredict b st d =>
        rw [execE] at h
        rw [execActs, List.length_cons]
        cases hp : A.simulator.predictor.predict d ctx s.rest with
        | none => rw [hp] at h; cases h
        | some a =>
          rw [hp] at h
          dsimp only at h ⊢
          split at h
          · rename_i h1; rw [if_pos h1]; have := ih _ _ _ _ h; omega
          · rename_i h1
            rw [if_neg h1]
            split at h
            · rename_i h2; rw [if_pos h2]; have := ih _ _ _ _ h; omega
            · cases h

/-- The tokens that are left at a statement are the last ones. -/
theorem acts_rest : ∀ (n : Nat) (ctx : List Nat) (ss : List Stmt) (s : EState), Capped s.rest →
    ∀ d ∈ execActs parserAtn eof code n ctx ss s, d.rest <:+ s.rest := by
  intro n
  induction n with
  | zero => intro ctx ss s _ d hd; simp [execActs] at hd
  | succ n ih =>
    intro ctx ss s hc
    have hsub : ∀ (l : List Executed) (c : Stmt), (∀ d ∈ l, d.rest <:+ s.rest) → ∀ d ∈ (⟨c, ctx, s.rest⟩ :: l : List Executed), d.rest <:+ s.rest := by
      intro l c h d hd
      rcases List.mem_cons.1 hd with rfl | hd
      · exact List.suffix_rfl
      · exact h d hd
    have hstep : ∀ (step : EStep) (z : Zero) (ss : List Stmt), step.Now s.rest z → ∀ d ∈ step.acts (execActs parserAtn eof code n ctx ss), d.rest <:+ s.rest := by
      intro step z ss h d hd
      cases step with
      | go s1 => exact (ih ctx ss s1 (hc.suffix h.1) d hd).trans h.1
      | stop f s1 => simp [EStep.acts] at hd
    cases ss with
    | nil => intro d hd; simp [execActs] at hd
    | cons c ss =>
      cases c with
      | sync st => rw [execActs]; exact hsub _ _ (hstep _ _ _ (sync_now st ctx s))
      | matchTok st k => rw [execActs]; exact hsub _ _ (hstep _ _ _ (match_now st ctx (fun j => decide (j = k)) s))
      | matchSet st t => rw [execActs]; exact hsub _ _ (hstep _ _ _ (match_now st ctx t.eval s))
      | call st r =>
        rw [execActs]
        refine hsub _ _ fun d hd => ?_
        rcases List.mem_append.1 hd with hd | hd
        · exact ih _ _ (s.at st) hc d hd
        · have hnow := execE_now (eof := eof) n (st :: ctx) (code r) (s.at st) hc
          revert hd hnow
          cases execE parserAtn eof code n (st :: ctx) (code r) (s.at st) with
          | timeout s1 => intro hd; simp at hd
          | ok s1 => intro hd hnow; exact (ih _ _ (s1.at st) (hc.suffix hnow.1) d hd).trans hnow.1
          | raised f s1 =>
            intro hd hnow
            have hs := (caught_now (eof := eof) (ctx := st :: ctx) (f := f) (hc.suffix hnow.1)).1.trans hnow.1
            exact (ih _ _ ((caughtE parserAtn eof (st :: ctx) f s1).at st) (hc.suffix hs) d hd).trans hs
      | predict d bs =>
        rw [execActs]
        refine hsub _ _ ?_
        cases parserAtn.simulator.predictor.predict d ctx s.rest with
        | none => simp
        | some a => exact ih _ _ (s.look _) hc
      | switchLA cs =>
        rw [execActs]
        refine hsub _ _ ?_
        cases switchCase (la s.rest) cs with
        | none => simp
        | some a => exact ih _ _ s hc
      | ifLA t b => rw [execActs]; exact hsub _ _ (ih _ _ s hc)
      | whileLA b st t => rw [execActs]; exact hsub _ _ (ih _ _ s hc)
      | whilePredict b st d => rw [execActs]; exact hsub _ _ (ih _ _ s hc)
      | loopPredict b st d =>
        rw [execActs]
        refine hsub _ _ ?_
        cases parserAtn.simulator.predictor.predict d ctx s.rest with
        | none => simp
        | some a =>
          dsimp only
          split
          · exact ih _ _ (s.look _) hc
          · split
            · exact ih _ _ (s.look _) hc
            · simp

/-- Without an error the predictions are those of the run without an error strategy. -/
theorem acts_accepted : ∀ (n : Nat) (ctx : List Nat) (ss : List Stmt) (s : EState) (f : List PTree) (vs : List Tok), s.recovering = false →
    exec A.simulator.predictor prog n ctx ss s.rest = .ok f vs →
    (∃ s', execE A eof prog n ctx ss s = .ok s' ∧ s'.rest = vs ∧ s'.recovering = false) ∧
      (execActs A eof prog n ctx ss s).filterMap Executed.asked = execAsked A.simulator.predictor prog n ctx ss s.rest := by
  intro n
  induction n with
  | zero => intro ctx ss s f vs _ h; cases h
  | succ n ih =>
    intro ctx ss s f vs hr h
    have hmatch : ∀ (st : Nat) (ok : Int → Bool) (ss : List Stmt) (x : Tok) (xs : List Tok), s.rest = x :: xs → ok x.type.num = true →
        (exec A.simulator.predictor prog n ctx ss xs).prepend [.leaf x] = .ok f vs →
        (∃ s', (matchE A eof ctx ok (s.at st)).andThen (execE A eof prog n ctx ss) = .ok s' ∧ s'.rest = vs ∧ s'.recovering = false) ∧
        ((matchE A eof ctx ok (s.at st)).acts (execActs A eof prog n ctx ss)).filterMap Executed.asked = execAsked A.simulator.predictor prog n ctx ss xs := by
      intro st ok ss x xs hrest hok hres
      have hE : matchE A eof ctx ok (s.at st) = .go ((s.at st).matched xs) := by
        unfold matchE
        rw [show (s.at st).rest = x :: xs from hrest]
        simp only [hok, if_true]
      rw [hE]
      obtain ⟨g, h3, -⟩ := Res.prepend_ok_inv hres
      exact ih ctx ss ((s.at st).matched xs) g vs rfl h3
    cases ss with
    | nil =>
      rw [exec] at h
      cases h
      exact ⟨⟨s, rfl, rfl, hr⟩, rfl⟩
    | cons c ss =>
      cases c with
      | sync st =>
        rw [exec] at h
        rw [execE, execActs, execAsked]
        split at h
        · rename_i hs
          rw [if_pos hs]
          have : syncE A eof ctx (s.at st) = .go (s.at st) := by
            unfold syncE
            rw [if_neg (by rw [show (s.at st).recovering = s.recovering from rfl, hr]; simp)]
            have hs' : A.syncOk st s.rest = true := hs
            rw [syncOk_eq] at hs'
            exact if_pos hs'
          rw [this]
          exact ih ctx ss (s.at st) f vs hr h
        · cases h
      | matchTok st k =>
        cases hrest : s.rest with
        | nil => rw [hrest, exec] at h; cases h
        | cons x xs =>
          rw [hrest, exec] at h
          rw [execE, execActs, execAsked]
          split at h
          · rename_i hk
            rw [if_pos hk]
            exact hmatch st (fun j => j = k) ss x xs hrest (by simp [hk]) h
          · cases h
      | matchSet st t =>
        cases hrest : s.rest with
        | nil => rw [hrest, exec] at h; cases h
        | cons x xs =>
          rw [hrest, exec] at h
          rw [execE, execActs, execAsked]
          split at h
          · rename_i hk
            rw [if_pos hk]
            exact hmatch st t.eval ss x xs hrest hk h
          · cases h
      | call st r =>
        rw [exec] at h
        rw [execE, execActs, execAsked]
        cases hin : exec A.simulator.predictor prog n (st :: ctx) (prog r) s.rest with
        | error => rw [hin] at h; cases h
        | timeout => rw [hin] at h; cases h
        | ok f1 ts1 =>
          rw [hin] at h
          dsimp only at h ⊢
          obtain ⟨⟨s1, k1, k2, k3⟩, k4⟩ := ih (st :: ctx) (prog r) (s.at st) f1 ts1 hr hin
          obtain ⟨g, h3, -⟩ := Res.prepend_ok_inv h
          obtain ⟨j1, j2⟩ := ih ctx ss (s1.at st) g vs k3 (by rw [show (s1.at st).rest = ts1 from k2]; exact h3)
          rw [k1]
          refine ⟨j1, ?_⟩
          dsimp only
          rw [List.filterMap_cons, List.filterMap_append, k4, j2, show (s1.at st).rest = ts1 from k2]
          rfl
      | predict d bs =>
        rw [exec] at h
        rw [execE, execActs, execAsked]
        cases hp : A.simulator.predictor.predict d ctx s.rest with
        | none => rw [hp] at h; cases h
        | some a =>
          rw [hp] at h
          obtain ⟨j1, j2⟩ := ih ctx _ (s.look (A.looksAt d ctx s.rest)) f vs hr h
          refine ⟨j1, ?_⟩
          dsimp only
          rw [List.filterMap_cons, j2]
          rfl
      | switchLA cs =>
        rw [exec] at h
        rw [execE, execActs, execAsked]
        cases hp : switchCase (la s.rest) cs with
        | none => rw [hp] at h; cases h
        | some b => rw [hp] at h; exact ih ctx _ s f vs hr h
      | ifLA t b => rw [exec] at h; rw [execE, execActs, execAsked]; exact ih ctx _ s f vs hr h
      | whileLA b st t => rw [exec] at h; rw [execE, execActs, execAsked]; exact ih ctx _ s f vs hr h
      | whilePredict b st d => rw [exec] at h; rw [execE, execActs, execAsked]; exact ih ctx _ s f vs hr h
      | loopPredict b st d =>
        rw [exec] at h
        rw [execE, execActs, execAsked]
        cases hp : A.simulator.predictor.predict d ctx s.rest with
        | none => rw [hp] at h; cases h
        | some a =>
          rw [hp] at h
          dsimp only at h ⊢
          split at h
          · rename_i h1
            rw [if_pos h1, if_pos h1, if_pos h1]
            obtain ⟨j1, j2⟩ := ih ctx ss (s.look (A.looksAt d ctx s.rest)) f vs hr h
            refine ⟨j1, ?_⟩
            rw [List.filterMap_cons, j2]
            rfl
          · rename_i h1
            rw [if_neg h1, if_neg h1, if_neg h1]
            split at h
            · rename_i h2
              rw [if_pos h2, if_pos h2, if_pos h2]
              obtain ⟨j1, j2⟩ := ih ctx _ (s.look (A.looksAt d ctx s.rest)) f vs hr h
              refine ⟨j1, ?_⟩
              rw [List.filterMap_cons, j2]
              rfl
            · cases h

end Fcsql
