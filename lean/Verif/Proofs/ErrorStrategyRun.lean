/-
Runs with the error strategy as a program, and runs with a strategy that reads its choices from a list.
-/
import Verif.Proofs.ErrorStrategy

set_option autoImplicit false
set_option linter.unusedSimpArgs false

namespace Fcsql

variable {A : Atn} {eof : Tok} {prog : Rule → List Stmt}

/-! ### What was done is not forgotten -/

/-- The state at the end. -/
def EOut.state : EOut → EState
  | .ok s => s
  | .raised _ s => s
  | .timeout s => s

/-- The state after a statement. -/
def EStep.state : EStep → EState
  | .go s => s
  | .stop _ s => s

@[simp] theorem log_look (k : Nat) (s : EState) : (s.look k).log = s.log := rfl
@[simp] theorem log_skip (k : Nat) (s : EState) : (s.skip k).log = s.log := rfl
@[simp] theorem log_at (k : Nat) (s : EState) : (s.at k).log = s.log := rfl
@[simp] theorem log_endError (s : EState) : s.endError.log = s.log := rfl
@[simp] theorem log_matched (xs : List Tok) (s : EState) : (s.matched xs).log = s.log := rfl
@[simp] theorem log_report (t : Tok) (m : PyStr) (s : EState) : (s.report t m).log = s.log := by unfold EState.report; split <;> rfl
@[simp] theorem log_unwanted (ctx : List Nat) (s : EState) : (reportUnwanted A eof ctx s).log = s.log := by simp [reportUnwanted]
@[simp] theorem log_missing (ctx : List Nat) (s : EState) : (reportMissing A eof ctx s).log = s.log := by simp [reportMissing]
@[simp] theorem log_failure (ctx : List Nat) (f : Failure) (s : EState) : (reportFailure A eof ctx f s).log = s.log := by
  unfold reportFailure
  split
  · rfl
  · cases f <;> simp
theorem log_note (d : Choice) (s : EState) : (s.note d).log = s.log ++ [d] := rfl

theorem grows_sync (ctx : List Nat) (s : EState) : s.log <+: (syncE A eof ctx s).state.log := by
  unfold syncE
  split
  · exact List.prefix_refl _
  · dsimp only
    split
    · exact List.prefix_refl _
    · split
      · split <;> simp [EStep.state, log_note]
      · split <;> simp [EStep.state, log_note]

theorem grows_inline (ctx : List Nat) (s : EState) : s.log <+: (inlineE A eof ctx s).state.log := by
  unfold inlineE
  dsimp only
  split
  · simp [EStep.state, log_note]
  · split <;> simp [EStep.state, log_note]

theorem grows_match (ctx : List Nat) (ok : Int → Bool) (s : EState) : s.log <+: (matchE A eof ctx ok s).state.log := by
  unfold matchE
  split
  · exact grows_inline ctx s
  · split
    · simp [EStep.state]
    · exact grows_inline ctx s

theorem grows_caught (ctx : List Nat) (f : Failure) (s : EState) : s.log <+: (caughtE A eof ctx f s).log := by
  simp [caughtE, recover, log_note]

theorem grows : ∀ (n : Nat) (ctx : List Nat) (ss : List Stmt) (s : EState), s.log <+: (execE A eof prog n ctx ss s).state.log := by
  intro n
  induction n with
  | zero => intro ctx ss s; exact List.prefix_refl _
  | succ n ih =>
    intro ctx ss s
    cases ss with
    | nil => exact List.prefix_refl _
    | cons c ss =>
      cases c with
      | sync st => 
        rw [execE]
        have h := grows_sync (A := A) (eof := eof) ctx (s.at st)
        cases hs : syncE A eof ctx (s.at st) with
        | go s1 => rw [hs] at h; exact h.trans (ih ctx ss s1)
        | stop f s1 => rw [hs] at h; exact h
      | matchTok st k =>
        rw [execE]
        have h := grows_match (A := A) (eof := eof) ctx (fun j => decide (j = k)) (s.at st)
        cases hs : matchE A eof ctx (fun j => decide (j = k)) (s.at st) with
        | go s1 => rw [hs] at h; exact h.trans (ih ctx ss s1)
        | stop f s1 => rw [hs] at h; exact h
      | matchSet st t =>
        rw [execE]
        have h := grows_match (A := A) (eof := eof) ctx t.eval (s.at st)
        cases hs : matchE A eof ctx t.eval (s.at st) with
        | go s1 => rw [hs] at h; exact h.trans (ih ctx ss s1)
        | stop f s1 => rw [hs] at h; exact h
      | call st r =>
        rw [execE]
        have h := ih (st :: ctx) (prog r) (s.at st)
        cases hs : execE A eof prog n (st :: ctx) (prog r) (s.at st) with
        | ok s1 => rw [hs] at h; exact h.trans (ih ctx ss (s1.at st))
        | raised f s1 => rw [hs] at h; exact (h.trans (grows_caught (A := A) (eof := eof) (st :: ctx) f s1)).trans (ih ctx ss ((caughtE A eof (st :: ctx) f s1).at st))
        | timeout s1 => rw [hs] at h; exact h
      | predict d bs =>
        rw [execE]
        cases A.simulator.predictor.predict d ctx s.rest with
        | none => exact List.prefix_refl _
        | some a => exact ih _ _ (s.look _)
      | switchLA cs =>
        rw [execE]
        cases switchCase (la s.rest) cs with
        | none => exact List.prefix_refl _
        | some b => exact ih _ _ s
      | ifLA t b => rw [execE]; exact ih _ _ s
      | whileLA b st t => rw [execE]; exact ih _ _ s
      | whilePredict b st d => rw [execE]; exact ih _ _ s
      | loopPredict b st d =>
        rw [execE]
        cases A.simulator.predictor.predict d ctx s.rest with
        | none => exact List.prefix_refl _
        | some a =>
          dsimp only
          split
          · exact ih _ _ (s.look _)
          · split
            · exact ih _ _ (s.look _)
            · exact List.prefix_refl _

/-! ### More steps -/

/-- The same, or gone on. -/
def EOut.Le : EOut → EOut → Prop
  | .timeout s, o => s.log <+: o.state.log
  | o, o' => o' = o

theorem EOut.Le.refl (o : EOut) : o.Le o := by cases o <;> first | rfl | exact List.prefix_refl _

theorem execE_succ : ∀ (n : Nat) (ctx : List Nat) (ss : List Stmt) (s : EState),
    (execE A eof prog n ctx ss s).Le (execE A eof prog (n + 1) ctx ss s) := by
  intro n
  induction n with
  | zero => intro ctx ss s; exact grows _ _ _ _
  | succ n ih =>
    intro ctx ss s
    cases ss with
    | nil => exact EOut.Le.refl _
    | cons c ss =>
      cases c with
      | sync st =>
        rw [execE, execE]
        cases hs : syncE A eof ctx (s.at st) with
        | go s1 => exact ih ctx ss s1
        | stop f s1 => exact EOut.Le.refl _
      | matchTok st k =>
        rw [execE, execE]
        cases hs : matchE A eof ctx (fun j => decide (j = k)) (s.at st) with
        | go s1 => exact ih ctx ss s1
        | stop f s1 => exact EOut.Le.refl _
      | matchSet st t =>
        rw [execE, execE]
        cases hs : matchE A eof ctx t.eval (s.at st) with
        | go s1 => exact ih ctx ss s1
        | stop f s1 => exact EOut.Le.refl _
      | call st r =>
        rw [execE, execE]
        have h := ih (st :: ctx) (prog r) (s.at st)
        cases hs : execE A eof prog n (st :: ctx) (prog r) (s.at st) with
        | ok s1 =>
          rw [hs] at h
          rw [show execE A eof prog (n + 1) (st :: ctx) (prog r) (s.at st) = .ok s1 from h]
          exact ih ctx ss _
        | raised f s1 =>
          rw [hs] at h
          rw [show execE A eof prog (n + 1) (st :: ctx) (prog r) (s.at st) = .raised f s1 from h]
          exact ih ctx ss _
        | timeout s1 =>
          rw [hs] at h
          cases hs' : execE A eof prog (n + 1) (st :: ctx) (prog r) (s.at st) with
          | ok s2 => rw [hs'] at h; exact List.IsPrefix.trans h (grows _ _ _ (s2.at st))
          | raised f s2 => rw [hs'] at h; exact (List.IsPrefix.trans h (grows_caught (A := A) (eof := eof) (st :: ctx) f s2)).trans (grows _ _ _ ((caughtE A eof (st :: ctx) f s2).at st))
          | timeout s2 => rw [hs'] at h; exact h
      | predict d bs =>
        rw [execE, execE]
        cases A.simulator.predictor.predict d ctx s.rest with
        | none => exact EOut.Le.refl _
        | some a => exact ih _ _ (s.look _)
      | switchLA cs =>
        rw [execE, execE]
        cases switchCase (la s.rest) cs with
        | none => exact EOut.Le.refl _
        | some b => exact ih _ _ s
      | ifLA t b => rw [execE, execE]; exact ih _ _ s
      | whileLA b st t => rw [execE, execE]; exact ih _ _ s
      | whilePredict b st d => rw [execE, execE]; exact ih _ _ s
      | loopPredict b st d =>
        rw [execE, execE]
        cases A.simulator.predictor.predict d ctx s.rest with
        | none => exact EOut.Le.refl _
        | some a =>
          dsimp only
          split
          · exact ih _ _ (s.look _)
          · split
            · exact ih _ _ (s.look _)
            · exact EOut.Le.refl _

theorem EOut.Le.trans {a b c : EOut} (h : a.Le b) (h' : b.Le c) : a.Le c := by
  cases a with
  | ok s => cases h; exact h'
  | raised f s => cases h; exact h'
  | timeout s =>
    cases b with
    | ok s' => cases h'; exact h
    | raised f s' => cases h'; exact h
    | timeout s' => exact List.IsPrefix.trans h h'

theorem execE_mono {n m : Nat} (h : n ≤ m) (ctx : List Nat) (ss : List Stmt) (s : EState) :
    (execE A eof prog n ctx ss s).Le (execE A eof prog m ctx ss s) := by
  induction h with
  | refl => exact EOut.Le.refl _
  | step _ ih => exact ih.trans (execE_succ _ _ _ _)

end Fcsql
