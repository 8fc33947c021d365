/-
The parse tree built for any query: it holds all tokens, and it is the tree of the grammar if nothing was reported.
-/
import Verif.Proofs.ErrorStrategyRun
import Verif.Proofs.AdaptiveRecovery
import Verif.Proofs.ErrorWorkRun
import Verif.Spec.ErrorTree
import Verif.Spec.Adaptive

set_option autoImplicit false
set_option linter.unusedSimpArgs false

namespace Fcsql

variable {A : Atn} {eof : Tok} {prog : Rule → List Stmt}

/-! ### The run without the tree -/

/-- The tree forgotten. -/
def NOut.out : NOut → EOut
  | .ok _ s => .ok s
  | .raised _ k s => .raised k s
  | .timeout s => .timeout s

@[simp] theorem out_prepend (f : List ETree) (o : NOut) : (o.prepend f).out = o.out := by cases o <;> rfl

theorem out_thenN {step : EStep} {f : List ETree} {next : EState → NOut} {next' : EState → EOut} (h : ∀ s, (next s).out = next' s) :
    (step.thenN f next).out = step.andThen next' := by
  cases step with
  | go s => simp [EStep.thenN, EStep.andThen, h]
  | stop k s => rfl

theorem execN_out : ∀ (n : Nat) (ctx : List Nat) (ss : List Stmt) (s : EState),
    (execN A eof prog n ctx ss s).out = execE A eof prog n ctx ss s := by
  intro n
  induction n with
  | zero => intros; rfl
  | succ n ih =>
    intro ctx ss s
    cases ss with
    | nil => rfl
    | cons c ss =>
      cases c with
      | sync st => rw [execN, execE]; exact out_thenN (ih ctx ss)
      | matchTok st k => rw [execN, execE]; exact out_thenN (ih ctx ss)
      | matchSet st t => rw [execN, execE]; exact out_thenN (ih ctx ss)
      | call st r =>
        rw [execN, execE, ← ih]
        cases execN A eof prog n (st :: ctx) (prog r) (s.at st) with
        | ok f s' => exact (out_prepend _ _).trans (ih _ _ _)
        | raised f k s' => exact (out_prepend _ _).trans (ih _ _ _)
        | timeout s' => rfl
      | predict d bs =>
        rw [execN, execE]
        cases A.simulator.predictor.predict d ctx s.rest with
        | none => rfl
        | some a => exact ih _ _ _
      | switchLA cs =>
        rw [execN, execE]
        cases switchCase (la s.rest) cs with
        | none => rfl
        | some b => exact ih _ _ _
      | ifLA t b => rw [execN, execE]; exact ih _ _ _
      | whileLA b st t => rw [execN, execE]; exact ih _ _ _
      | whilePredict b st d => rw [execN, execE]; exact ih _ _ _
      | loopPredict b st d =>
        rw [execN, execE]
        cases A.simulator.predictor.predict d ctx s.rest with
        | none => rfl
        | some a =>
          dsimp only
          split
          · exact ih _ _ _
          · split
            · exact ih _ _ _
            · rfl

/-! ### More steps -/

/-- The same, or cut off. -/
def NOut.Le : NOut → NOut → Prop
  | .timeout _, _ => True
  | o, o' => o' = o

theorem NOut.Le.refl (o : NOut) : o.Le o := by cases o <;> first | rfl | trivial

theorem NOut.Le.prepend {o o' : NOut} (f : List ETree) (h : o.Le o') : (o.prepend f).Le (o'.prepend f) := by
  cases o with
  | ok f' s => cases h; exact NOut.Le.refl _
  | raised f' k s => cases h; exact NOut.Le.refl _
  | timeout s => trivial

theorem NOut.Le.trans {a b c : NOut} (h : a.Le b) (h' : b.Le c) : a.Le c := by
  cases a with
  | ok f s => cases h; exact h'
  | raised f k s => cases h; exact h'
  | timeout s => trivial

theorem le_thenN {step : EStep} {f : List ETree} {next next' : EState → NOut} (h : ∀ s, (next s).Le (next' s)) :
    (step.thenN f next).Le (step.thenN f next') := by
  cases step with
  | go s => exact (h s).prepend f
  | stop k s => exact NOut.Le.refl _

theorem execN_succ : ∀ (n : Nat) (ctx : List Nat) (ss : List Stmt) (s : EState),
    (execN A eof prog n ctx ss s).Le (execN A eof prog (n + 1) ctx ss s) := by
  intro n
  induction n with
  | zero => intro ctx ss s; trivial
  | succ n ih =>
    intro ctx ss s
    cases ss with
    | nil => exact NOut.Le.refl _
    | cons c ss =>
      cases c with
      | sync st => rw [execN, execN]; exact le_thenN (ih ctx ss)
      | matchTok st k => rw [execN, execN]; exact le_thenN (ih ctx ss)
      | matchSet st t => rw [execN, execN]; exact le_thenN (ih ctx ss)
      | call st r =>
        rw [execN, execN]
        have h := ih (st :: ctx) (prog r) (s.at st)
        cases hs : execN A eof prog n (st :: ctx) (prog r) (s.at st) with
        | ok f s1 =>
          rw [hs] at h
          rw [show execN A eof prog (n + 1) (st :: ctx) (prog r) (s.at st) = .ok f s1 from h]
          exact (ih ctx ss _).prepend _
        | raised f k s1 =>
          rw [hs] at h
          rw [show execN A eof prog (n + 1) (st :: ctx) (prog r) (s.at st) = .raised f k s1 from h]
          exact (ih ctx ss _).prepend _
        | timeout s1 => trivial
      | predict d bs =>
        rw [execN, execN]
        cases A.simulator.predictor.predict d ctx s.rest with
        | none => exact NOut.Le.refl _
        | some a => exact ih _ _ (s.look _)
      | switchLA cs =>
        rw [execN, execN]
        cases switchCase (la s.rest) cs with
        | none => exact NOut.Le.refl _
        | some b => exact ih _ _ s
      | ifLA t b => rw [execN, execN]; exact ih _ _ s
      | whileLA b st t => rw [execN, execN]; exact ih _ _ s
      | whilePredict b st d => rw [execN, execN]; exact ih _ _ s
      | loopPredict b st d =>
        rw [execN, execN]
        cases A.simulator.predictor.predict d ctx s.rest with
        | none => exact NOut.Le.refl _
        | some a =>
          dsimp only
          split
          · exact ih _ _ (s.look _)
          · split
            · exact ih _ _ (s.look _)
            · exact NOut.Le.refl _

theorem execN_mono {n m : Nat} (h : n ≤ m) (ctx : List Nat) (ss : List Stmt) (s : EState) :
    (execN A eof prog n ctx ss s).Le (execN A eof prog m ctx ss s) := by
  induction h with
  | refl => exact NOut.Le.refl _
  | step _ ih => exact ih.trans (execN_succ _ _ _ _)

/-! ### No token is lost, and none appears twice -/

/-- All but `EOF`. -/
def realToks (ts : List Tok) : List Tok := ts.filter fun t => t.type ≠ .EOF

/-- What is left of a token stream. -/
def Line (ts : List Tok) : Prop := ts = [] ∨ EndsEof ts

theorem realToks_append (a b : List Tok) : realToks (a ++ b) = realToks a ++ realToks b := List.filter_append ..

theorem realToks_eof {e : Tok} (h : e.type = .EOF) : realToks [e] = [] := by simp [realToks, h]

theorem Line.tail {x : Tok} {xs : List Tok} (h : Line (x :: xs)) : Line xs := by
  rcases h with h | h
  · cases h
  · rcases endsEof_cons h with ⟨-, rfl⟩ | ⟨-, h⟩
    · exact .inl rfl
    · exact .inr h

theorem Line.skipTo (k : Nat) {ts : List Tok} (h : Line ts) : Line (skipTo k ts) := by
  rcases h with rfl | h
  · exact .inl (by simp [Fcsql.skipTo])
  · exact .inr (endsEof_skipTo k h)

theorem Line.take_skip {ts : List Tok} (h : Line ts) (j : Nat) : realToks (ts.take j) ++ realToks (Fcsql.skipTo j ts) = realToks ts := by
  rcases h with rfl | ⟨us, e, rfl, he, -⟩
  · simp [Fcsql.skipTo, realToks]
  · unfold Fcsql.skipTo
    rcases Nat.lt_or_ge us.length j with hj | hj
    · have h1 : min j ((us ++ [e]).length - 1) = us.length := by simp; omega
      rw [h1, List.take_of_length_le (by simp; omega), List.drop_left, realToks_eof he, List.append_nil]
    · have h1 : min j ((us ++ [e]).length - 1) = j := by simp; omega
      rw [h1, ← realToks_append, List.take_append_drop]

@[simp] theorem tokensL_append (a b : List ETree) : ETree.tokensL (a ++ b) = ETree.tokensL a ++ ETree.tokensL b := by
  induction a with
  | nil => rfl
  | cons x xs ih => simp [ETree.tokensL, ih]

theorem tokens_nodeFor (s : EState) (t : Tok) : (s.nodeFor t).tokens = realToks [t] := by
  unfold EState.nodeFor
  by_cases h : t.type = .EOF <;> split <;> simp [ETree.tokens, realToks, h]

theorem tokens_skipped (s : EState) (j : Nat) : ETree.tokensL (s.skipped j) = realToks (s.rest.take j) := by
  unfold EState.skipped
  induction s.rest.take j with
  | nil => rfl
  | cons x xs ih =>
    rw [List.map_cons, ETree.tokensL, tokens_nodeFor, ih, ← realToks_append]; rfl

theorem rest_report' (t : Tok) (m : PyStr) (s : EState) : (s.report t m).rest = s.rest := by unfold EState.report; split <;> rfl
theorem rest_unwanted' (ctx : List Nat) (s : EState) : (reportUnwanted A eof ctx s).rest = s.rest := rest_report' ..
theorem rest_missing' (ctx : List Nat) (s : EState) : (reportMissing A eof ctx s).rest = s.rest := rest_report' ..
theorem rest_failure' (ctx : List Nat) (f : Failure) (s : EState) : (reportFailure A eof ctx f s).rest = s.rest := by
  unfold reportFailure
  split
  · rfl
  · cases f <;> exact rest_report' ..

/-- The nodes `f` are what has been consumed between two token lists. -/
def Spends (ts : List Tok) (f : List ETree) (ts' : List Tok) : Prop := ETree.tokensL f ++ realToks ts' = realToks ts ∧ Line ts'

theorem Spends.refl {ts : List Tok} (h : Line ts) : Spends ts [] ts := ⟨rfl, h⟩

theorem Spends.trans {a b c : List Tok} {f g : List ETree} (h : Spends a f b) (h' : Spends b g c) : Spends a (f ++ g) c :=
  ⟨by rw [tokensL_append, List.append_assoc, h'.1, h.1], h'.2⟩

theorem keeps_one (he : eof.type = .EOF) (s s' : EState) (h : Line s.rest) :
    Spends s.rest [s'.nodeFor (s.current eof)] (skipTo 1 s.rest) := by
  refine ⟨?_, h.skipTo 1⟩
  rw [ETree.tokensL, ETree.tokensL, List.append_nil, tokens_nodeFor, ← h.take_skip 1]
  congr 1
  unfold EState.current
  cases s.rest with
  | nil => exact realToks_eof he
  | cons x xs => simp

theorem keeps_skipped (s : EState) (h : Line s.rest) (j : Nat) : Spends s.rest (s.skipped j) (skipTo j s.rest) :=
  ⟨by rw [tokens_skipped, h.take_skip j], h.skipTo j⟩

theorem keeps_recover (he : eof.type = .EOF) (ctx : List Nat) (s : EState) (h : Line s.rest) :
    Spends s.rest (recoverTrees A eof ctx s) (recover A ctx s).rest := by
  unfold recoverTrees recover
  dsimp only
  have h1 : ∀ k, k = 0 ∨ k = 1 → Spends s.rest (if k = 1 then [s.nodeFor (s.current eof)] else []) (s.skip k).rest := by
    rintro k (rfl | rfl)
    · rw [if_neg (by decide)]
      change Spends s.rest [] (skipTo 0 s.rest)
      rw [show skipTo 0 s.rest = s.rest by simp [skipTo]]
      exact .refl h
    · rw [if_pos rfl]
      exact keeps_one he s s h
  refine (h1 _ (by split <;> simp)).trans ?_
  exact keeps_skipped _ (h1 _ (by split <;> simp)).2 _

theorem keeps_caught (he : eof.type = .EOF) (ctx : List Nat) (f : Failure) (s : EState) (h : Line s.rest) :
    Spends s.rest (caughtTrees A eof ctx f s) (caughtE A eof ctx f s).rest := by
  have h1 := rest_failure' (A := A) (eof := eof) ctx f s
  have := keeps_recover (A := A) he ctx (reportFailure A eof ctx f s) (by rw [h1]; exact h)
  rw [h1] at this
  exact this

theorem keeps_sync (he : eof.type = .EOF) (ctx : List Nat) (s : EState) (h : Line s.rest) :
    Spends s.rest (syncTrees A eof ctx s) (syncE A eof ctx s).state.rest := by
  unfold syncTrees syncE
  split
  · exact .refl h
  · dsimp only
    split
    · exact .refl h
    · split
      · split
        · have h1 := rest_unwanted' (A := A) (eof := eof) ctx (s.look 1)
          have := keeps_one he (s.look 1) (reportUnwanted A eof ctx (s.look 1)) h
          change Spends s.rest _ (skipTo 1 (reportUnwanted A eof ctx (s.look 1)).rest)
          rw [h1]
          exact this
        · exact .refl h
      · split
        · have h1 := rest_unwanted' (A := A) (eof := eof) ctx s
          have := keeps_skipped (reportUnwanted A eof ctx s) (by rw [h1]; exact h)
            (untilTok (fun t => A.expectedTok t (reportUnwanted A eof ctx s).state ctx || A.recoveryTok t ctx) (reportUnwanted A eof ctx s).rest)
          have h2 := this.2
          refine ⟨?_, h2⟩
          rw [← congrArg realToks h1]
          exact this.1
        · exact .refl h

theorem keeps_inline (he : eof.type = .EOF) (keep : Bool) (ctx : List Nat) (s : EState) (h : Line s.rest) :
    Spends s.rest (inlineTrees A eof keep ctx s) (inlineE A eof ctx s).state.rest := by
  unfold inlineTrees inlineE
  dsimp only
  split
  · have h1 := rest_unwanted' (A := A) (eof := eof) ctx (s.look 1)
    have h2 := keeps_one he (s.look 1) (reportUnwanted A eof ctx (s.look 1)) h
    refine Spends.trans (f := [_]) (g := [_]) h2 ?_
    change Spends (skipTo 1 s.rest) [_] (s.rest.drop 2)
    have h3 : ((reportUnwanted A eof ctx (s.look 1)).skip 1).rest = skipTo 1 s.rest := by
      change skipTo 1 (reportUnwanted A eof ctx (s.look 1)).rest = _
      rw [h1]; rfl
    unfold EState.current
    rw [h3]
    cases hr : s.rest with
    | nil => exact ⟨by simp [ETree.tokensL, tokens_nodeFor, skipTo, realToks, he], .inl rfl⟩
    | cons x xs =>
      rw [hr] at h
      cases xs with
      | nil =>
        have hx : x.type = .EOF := by
          rcases h with h | ⟨us, e, h4, h5, -⟩
          · cases h
          · cases us with
            | nil => cases h4; exact h5
            | cons y us => cases us <;> cases h4
        exact ⟨by simp [ETree.tokensL, tokens_nodeFor, skipTo, realToks, hx], .inl rfl⟩
      | cons y ys =>
        rw [show skipTo 1 (x :: y :: ys) = y :: ys by simp [skipTo]]
        refine ⟨?_, h.tail.tail⟩
        rw [ETree.tokensL, ETree.tokensL, List.append_nil, tokens_nodeFor, ← realToks_append]
        rfl
  · split
    · have h1 := rest_missing' (A := A) (eof := eof) ctx (s.look 1)
      change Spends s.rest _ (reportMissing A eof ctx (s.look 1)).rest
      rw [h1]
      split
      · exact ⟨rfl, h⟩
      · exact .refl h
    · exact .refl h

theorem keeps_match (he : eof.type = .EOF) (keep : Bool) (ctx : List Nat) (ok : Int → Bool) (s : EState) (h : Line s.rest) :
    Spends s.rest (matchTrees A eof keep ctx ok s) (matchE A eof ctx ok s).state.rest := by
  unfold matchTrees matchE
  cases hr : s.rest with
  | nil => simpa only [hr] using keeps_inline he keep ctx s h
  | cons x xs =>
    dsimp only
    split
    · rw [hr] at h
      refine ⟨?_, h.tail⟩
      rw [ETree.tokensL, ETree.tokensL, List.append_nil, tokens_nodeFor]
      exact (realToks_append [x] xs).symm
    · simpa only [hr] using keeps_inline he keep ctx s h

/-- What a run has consumed is in the tree. -/
def NOut.Spends (ts : List Tok) : NOut → Prop
  | .ok f s => Fcsql.Spends ts f s.rest
  | .raised f _ s => Fcsql.Spends ts f s.rest
  | .timeout _ => True

theorem NOut.Spends.prepend {ts ts' : List Tok} {f : List ETree} {o : NOut} (h : Fcsql.Spends ts f ts') (ho : o.Spends ts') : (o.prepend f).Spends ts := by
  cases o with
  | ok f' s => exact h.trans ho
  | raised f' k s => exact h.trans ho
  | timeout s => trivial

theorem keeps_thenN {step : EStep} {f : List ETree} {ts : List Tok} {next : EState → NOut} (h : Spends ts f step.state.rest)
    (hn : ∀ s, Line s.rest → (next s).Spends s.rest) : (step.thenN f next).Spends ts := by
  cases step with
  | go s => exact NOut.Spends.prepend h (hn s h.2)
  | stop k s => exact h

theorem execN_keeps (he : eof.type = .EOF) : ∀ (n : Nat) (ctx : List Nat) (ss : List Stmt) (s : EState), Line s.rest →
    (execN A eof prog n ctx ss s).Spends s.rest := by
  intro n
  induction n with
  | zero => intros; trivial
  | succ n ih =>
    intro ctx ss s h
    cases ss with
    | nil => exact Spends.refl h
    | cons c ss =>
      cases c with
      | sync st => rw [execN]; exact keeps_thenN (keeps_sync he ctx (s.at st) h) (ih ctx ss)
      | matchTok st k => rw [execN]; exact keeps_thenN (keeps_match he true ctx _ (s.at st) h) (ih ctx ss)
      | matchSet st t => rw [execN]; exact keeps_thenN (keeps_match he false ctx _ (s.at st) h) (ih ctx ss)
      | call st r =>
        rw [execN]
        have h1 := ih (st :: ctx) (prog r) (s.at st) h
        cases hs : execN A eof prog n (st :: ctx) (prog r) (s.at st) with
        | ok f s1 =>
          rw [hs] at h1
          refine NOut.Spends.prepend (ts' := s1.rest) ⟨?_, h1.2⟩ (ih ctx ss (s1.at st) h1.2)
          rw [ETree.tokensL, ETree.tokensL, List.append_nil, ETree.tokens]
          exact h1.1
        | raised f k s1 =>
          rw [hs] at h1
          have h2 := Spends.trans h1 (keeps_caught (A := A) he (st :: ctx) k s1 h1.2)
          refine NOut.Spends.prepend (ts' := (caughtE A eof (st :: ctx) k s1).rest) ⟨?_, h2.2⟩ (ih ctx ss ((caughtE A eof (st :: ctx) k s1).at st) h2.2)
          rw [ETree.tokensL, ETree.tokensL, List.append_nil, ETree.tokens]
          exact h2.1
        | timeout s1 => trivial
      | predict d bs =>
        rw [execN]
        cases A.simulator.predictor.predict d ctx s.rest with
        | none => exact Spends.refl h
        | some a => exact ih _ _ (s.look _) h
      | switchLA cs =>
        rw [execN]
        cases switchCase (la s.rest) cs with
        | none => exact Spends.refl h
        | some b => exact ih _ _ s h
      | ifLA t b => rw [execN]; exact ih _ _ s h
      | whileLA b st t => rw [execN]; exact ih _ _ s h
      | whilePredict b st d => rw [execN]; exact ih _ _ s h
      | loopPredict b st d =>
        rw [execN]
        cases A.simulator.predictor.predict d ctx s.rest with
        | none => exact Spends.refl h
        | some a =>
          dsimp only
          split
          · exact ih _ _ (s.look _) h
          · split
            · exact ih _ _ (s.look _) h
            · exact Spends.refl h

/-! ### Queries without errors -/

theorem ptree_plainL_append (a b : List PTree) : PTree.plainL (a ++ b) = PTree.plainL a ++ PTree.plainL b := by
  induction a with
  | nil => rfl
  | cons x xs ih => simp [PTree.plainL, ih]

/-- A run without errors ends with this tree and these tokens left, nothing having been reported. -/
def NOut.Calm (s : EState) (f : List PTree) (ts : List Tok) (o : NOut) : Prop :=
  ∃ s', o = .ok (PTree.plainL f) s' ∧ s'.rest = ts ∧ s'.recovering = false ∧ s'.reports = s.reports

theorem NOut.Calm.prepend {s s1 : EState} {f f' : List PTree} {ts : List Tok} {o : NOut} (h : o.Calm s1 f' ts) (hr : s1.reports = s.reports) :
    (o.prepend (PTree.plainL f)).Calm s (f ++ f') ts := by
  obtain ⟨s', rfl, h1, h2, h3⟩ := h
  exact ⟨s', by rw [NOut.prepend, ptree_plainL_append], h1, h2, h3.trans hr⟩

theorem prepend_ok {f g : List PTree} {r : Res} {ts : List Tok} (h : r.prepend f = .ok g ts) : ∃ f', r = .ok f' ts ∧ g = f ++ f' := by
  cases r with
  | ok f' ts' => cases h; exact ⟨f', rfl, rfl⟩
  | error => cases h
  | timeout => cases h

theorem exec_calm : ∀ (n : Nat) (ctx : List Nat) (ss : List Stmt) (s : EState) (f : List PTree) (ts : List Tok), s.recovering = false →
    exec A.simulator.predictor prog n ctx ss s.rest = .ok f ts → (execN A eof prog n ctx ss s).Calm s f ts := by
  intro n
  induction n with
  | zero => intro ctx ss s f ts _ h; cases h
  | succ n ih =>
    intro ctx ss s f ts hr h
    have nil : ∀ {o : NOut}, o.prepend [] = o := by intro o; cases o <;> rfl
    cases ss with
    | nil => cases h; exact ⟨s, rfl, rfl, hr, rfl⟩
    | cons c ss =>
      cases c with
      | sync st =>
        rw [exec] at h
        rw [execN]
        split at h
        · rename_i hs
          have e : syncE A eof ctx (s.at st) = .go (s.at st) := by
            unfold syncE
            split
            · rfl
            · dsimp only
              rw [if_pos]
              change A.syncOk st s.rest = true at hs
              unfold Atn.syncOk at hs
              obtain ⟨x, hx, hx'⟩ := List.any_eq_true.1 hs
              rw [Bool.or_eq_true]
              cases x with
              | none => exact .inr (List.any_eq_true.2 ⟨none, hx, rfl⟩)
              | some l => exact .inl (List.any_eq_true.2 ⟨some l, hx, hx'⟩)
          have e' : syncTrees A eof ctx (s.at st) = [] := by
            have hrec : (s.at st).recovering = false := hr
            unfold syncE at e
            unfold syncTrees
            rw [if_neg (by rw [hrec]; decide)] at e ⊢
            dsimp only
            rw [if_pos]
            change A.syncOk st s.rest = true at hs
            unfold Atn.syncOk at hs
            obtain ⟨x, hx, hx'⟩ := List.any_eq_true.1 hs
            rw [Bool.or_eq_true]
            cases x with
            | none => exact .inr (List.any_eq_true.2 ⟨none, hx, rfl⟩)
            | some l => exact .inl (List.any_eq_true.2 ⟨some l, hx, hx'⟩)
          rw [e, e']
          change (NOut.prepend [] _).Calm s f ts
          rw [nil]
          exact ih ctx ss (s.at st) f ts hr h
        · cases h
      | matchTok st k =>
        rw [execN]
        cases hx : s.rest with
        | nil => rw [hx, exec] at h; cases h
        | cons x xs =>
          rw [hx, exec] at h
          split at h
          · rename_i hk
            obtain ⟨f', h1, rfl⟩ := prepend_ok h
            have e1 : matchE A eof ctx (fun j => decide (j = k)) (s.at st) = .go ((s.at st).matched xs) := by
              unfold matchE; rw [show (s.at st).rest = _ from hx]; simp [hk]
            have e2 : matchTrees A eof true ctx (fun j => decide (j = k)) (s.at st) = PTree.plainL [.leaf x] := by
              unfold matchTrees; rw [show (s.at st).rest = _ from hx]; simp [hk, EState.nodeFor, EState.endError, PTree.plainL, PTree.plain]
            rw [e1, e2]
            exact NOut.Calm.prepend (ih ctx ss ((s.at st).matched xs) f' ts rfl h1) rfl
          · cases h
      | matchSet st t =>
        rw [execN]
        cases hx : s.rest with
        | nil => rw [hx, exec] at h; cases h
        | cons x xs =>
          rw [hx, exec] at h
          split at h
          · rename_i hk
            obtain ⟨f', h1, rfl⟩ := prepend_ok h
            have e1 : matchE A eof ctx t.eval (s.at st) = .go ((s.at st).matched xs) := by
              unfold matchE; rw [show (s.at st).rest = _ from hx]; simp [hk]
            have e2 : matchTrees A eof false ctx t.eval (s.at st) = PTree.plainL [.leaf x] := by
              unfold matchTrees; rw [show (s.at st).rest = _ from hx]; simp [hk, EState.nodeFor, EState.endError, PTree.plainL, PTree.plain]
            rw [e1, e2]
            exact NOut.Calm.prepend (ih ctx ss ((s.at st).matched xs) f' ts rfl h1) rfl
          · cases h
      | call st r =>
        rw [exec] at h
        rw [execN]
        cases he : exec A.simulator.predictor prog n (st :: ctx) (prog r) s.rest with
        | error => rw [he] at h; cases h
        | timeout => rw [he] at h; cases h
        | ok g ts' =>
          rw [he] at h
          obtain ⟨f', h1, rfl⟩ := prepend_ok h
          obtain ⟨s1, e1, h2, h3, h4⟩ := ih (st :: ctx) (prog r) (s.at st) g ts' hr he
          rw [e1]
          dsimp only
          have := NOut.Calm.prepend (s := s) (f := [PTree.node r g]) (ih ctx ss (s1.at st) f' ts h3 (by rw [show (s1.at st).rest = s1.rest from rfl, h2]; exact h1)) h4
          simpa [PTree.plainL, PTree.plain] using this
      | predict d bs =>
        rw [exec] at h
        rw [execN]
        cases hp : A.simulator.predictor.predict d ctx s.rest with
        | none => rw [hp] at h; cases h
        | some a => rw [hp] at h; exact ih _ _ (s.look _) f ts hr h
      | switchLA cs =>
        rw [exec] at h
        rw [execN]
        cases hc : switchCase (la s.rest) cs with
        | none => rw [hc] at h; cases h
        | some b => rw [hc] at h; exact ih _ _ s f ts hr h
      | ifLA t b => rw [exec] at h; rw [execN]; exact ih _ _ s f ts hr h
      | whileLA b st t => rw [exec] at h; rw [execN]; exact ih _ _ s f ts hr h
      | whilePredict b st d => rw [exec] at h; rw [execN]; exact ih _ _ s f ts hr h
      | loopPredict b st d =>
        rw [exec] at h
        rw [execN]
        cases hp : A.simulator.predictor.predict d ctx s.rest with
        | none => rw [hp] at h; cases h
        | some a =>
          rw [hp] at h
          dsimp only at h ⊢
          split at h
          · rename_i hc
            rw [if_pos hc]
            exact ih _ _ (s.look _) f ts hr h
          · rename_i hc
            rw [if_neg hc]
            split at h
            · rename_i hc'
              rw [if_pos hc']
              exact ih _ _ (s.look _) f ts hr h
            · cases h

/-! ### How large the tree is -/

@[simp] theorem eContextsL_append (a b : List ETree) : ETree.contextsL (a ++ b) = ETree.contextsL a + ETree.contextsL b := by
  induction a with
  | nil => simp [ETree.contextsL]
  | cons x xs ih => simp [ETree.contextsL, ih]; omega

@[simp] theorem eNodesL_append (a b : List ETree) : ETree.nodesL (a ++ b) = ETree.nodesL a + ETree.nodesL b := by
  induction a with
  | nil => simp [ETree.nodesL]
  | cons x xs ih => simp [ETree.nodesL, ih]; omega

theorem contexts_nodeFor (s : EState) (t : Tok) : (s.nodeFor t).contexts = 0 := by unfold EState.nodeFor; split <;> rfl
theorem nodes_nodeFor (s : EState) (t : Tok) : (s.nodeFor t).nodes = 1 := by unfold EState.nodeFor; split <;> rfl

theorem contexts_skipped (s : EState) (j : Nat) : ETree.contextsL (s.skipped j) = 0 := by
  unfold EState.skipped
  induction s.rest.take j with
  | nil => rfl
  | cons x xs ih => rw [List.map_cons, ETree.contextsL, contexts_nodeFor, ih]

theorem nodes_skipped (s : EState) (j : Nat) : ETree.nodesL (s.skipped j) = min j s.rest.length := by
  unfold EState.skipped
  rw [← List.length_take]
  induction s.rest.take j with
  | nil => rfl
  | cons x xs ih => rw [List.map_cons, ETree.nodesL, nodes_nodeFor, ih, List.length_cons]; omega

/-- `f` has no contexts, and not many more nodes than tokens were consumed. -/
def Few (c : Nat) (ts : List Tok) (f : List ETree) (ts' : List Tok) : Prop :=
  ETree.contextsL f = 0 ∧ ETree.nodesL f + ts'.length ≤ ts.length + c

theorem length_skipTo_le (j : Nat) (ts : List Tok) : (skipTo j ts).length = ts.length - min j (ts.length - 1) := by simp [skipTo]

theorem few_caught (ctx : List Nat) (f : Failure) (s : EState) : Few 2 s.rest (caughtTrees A eof ctx f s) (caughtE A eof ctx f s).rest := by
  have h1 := rest_failure' (A := A) (eof := eof) ctx f s
  unfold caughtTrees caughtE
  generalize reportFailure A eof ctx f s = u at h1
  rw [← h1]
  clear h1
  unfold recoverTrees recover
  dsimp only
  have key : ∀ (k j : Nat) (s2 : EState), s2.rest = (u.skip k).rest → Few 2 u.rest
      ((if k = 1 then [u.nodeFor (u.current eof)] else []) ++ (u.skip k).skipped j) (s2.skip j).rest := by
    intro k j s2 h2
    constructor
    · rw [eContextsL_append, contexts_skipped]
      split <;> simp [ETree.contextsL, contexts_nodeFor]
    · rw [eNodesL_append, nodes_skipped]
      change _ + (skipTo j s2.rest).length ≤ _
      rw [h2]
      change _ + min j (skipTo k u.rest).length + (skipTo j (skipTo k u.rest)).length ≤ _
      rw [length_skipTo_le j, length_skipTo_le k]
      split
      · rename_i hk
        subst hk
        simp only [ETree.nodesL, nodes_nodeFor]
        omega
      · simp only [ETree.nodesL]
        omega
  exact key _ _ _ rfl

theorem few_sync (ctx : List Nat) (s : EState) : Few 1 s.rest (syncTrees A eof ctx s) (syncE A eof ctx s).state.rest := by
  have nil : Few 1 s.rest [] s.rest := ⟨rfl, by simp [ETree.nodesL]⟩
  unfold syncTrees syncE
  split
  · exact nil
  · dsimp only
    split
    · exact nil
    · split
      · split
        · have h1 := rest_unwanted' (A := A) (eof := eof) ctx (s.look 1)
          change Few 1 s.rest _ (skipTo 1 (reportUnwanted A eof ctx (s.look 1)).rest)
          rw [h1]
          change Few 1 s.rest _ (skipTo 1 s.rest)
          refine ⟨by simp [ETree.contextsL, contexts_nodeFor], ?_⟩
          rw [length_skipTo_le]
          simp only [ETree.nodesL, nodes_nodeFor]
          omega
        · exact nil
      · split
        · have h1 := rest_unwanted' (A := A) (eof := eof) ctx s
          generalize reportUnwanted A eof ctx s = u at h1
          rw [← h1]
          refine ⟨contexts_skipped _ _, ?_⟩
          rw [nodes_skipped]
          change _ + (skipTo _ u.rest).length ≤ _
          rw [length_skipTo_le]
          omega
        · exact nil

theorem few_inline (keep : Bool) (ctx : List Nat) (s : EState) : Few 2 s.rest (inlineTrees A eof keep ctx s) (inlineE A eof ctx s).state.rest := by
  unfold inlineTrees inlineE
  dsimp only
  split
  · refine ⟨by simp [ETree.contextsL, contexts_nodeFor], ?_⟩
    change _ + (s.rest.drop 2).length ≤ _
    simp only [ETree.nodesL, nodes_nodeFor, List.length_drop]
    omega
  · split
    · have h1 := rest_missing' (A := A) (eof := eof) ctx (s.look 1)
      change Few 2 s.rest _ (reportMissing A eof ctx (s.look 1)).rest
      rw [h1]
      change Few 2 s.rest _ s.rest
      split
      · exact ⟨rfl, by simp [ETree.nodesL, ETree.nodes]; omega⟩
      · exact ⟨rfl, by simp [ETree.nodesL]⟩
    · exact ⟨rfl, by simp [ETree.nodesL, EStep.state, EState.note, EState.look]⟩

theorem few_match (keep : Bool) (ctx : List Nat) (ok : Int → Bool) (s : EState) :
    Few 2 s.rest (matchTrees A eof keep ctx ok s) (matchE A eof ctx ok s).state.rest := by
  unfold matchTrees matchE
  cases hr : s.rest with
  | nil => simpa only [hr] using few_inline keep ctx s
  | cons x xs =>
    dsimp only
    split
    · refine ⟨by simp [ETree.contextsL, contexts_nodeFor], ?_⟩
      change _ + xs.length ≤ _
      simp only [ETree.nodesL, nodes_nodeFor, List.length_cons]
      omega
    · simpa only [hr] using few_inline keep ctx s

/-- The contexts are the calls executed (if the run is not cut off), and the nodes are not many more than tokens and statements. -/
def NOut.Sized (ts : List Tok) (acts : List Executed) : NOut → Prop
  | .ok f s => ETree.contextsL f = (acts.filterMap Executed.called).length ∧ ETree.nodesL f + s.rest.length ≤ ts.length + 3 * acts.length
  | .raised f _ s => ETree.contextsL f = (acts.filterMap Executed.called).length ∧ ETree.nodesL f + s.rest.length ≤ ts.length + 3 * acts.length
  | .timeout _ => True

theorem sized_thenN {step : EStep} {f : List ETree} {ts : List Tok} {next : EState → NOut} {acts : EState → List Executed} {d : Executed}
    (hd : d.called = none) (h : Few 2 ts f step.state.rest)
    (hn : ∀ s, (next s).Sized s.rest (acts s)) : (step.thenN f next).Sized ts (d :: step.acts acts) := by
  have hc : ∀ l : List Executed, (List.filterMap Executed.called (d :: l)).length = (List.filterMap Executed.called l).length := by
    intro l; rw [List.filterMap_cons, hd]
  obtain ⟨h1, h2⟩ := h
  cases step with
  | go s =>
    have h3 := hn s
    change ((next s).prepend f).Sized ts (d :: acts s)
    cases hx : next s with
    | ok f' s' =>
      rw [hx] at h3
      refine ⟨by rw [hc, eContextsL_append, h1, h3.1]; omega, ?_⟩
      have := h3.2
      simp only [EStep.state] at h2
      rw [eNodesL_append, List.length_cons]; omega
    | raised f' k s' =>
      rw [hx] at h3
      refine ⟨by rw [hc, eContextsL_append, h1, h3.1]; omega, ?_⟩
      have := h3.2
      simp only [EStep.state] at h2
      rw [eNodesL_append, List.length_cons]; omega
    | timeout s' => trivial
  | stop k s =>
    refine ⟨by rw [hc, h1]; rfl, ?_⟩
    simp only [EStep.state] at h2
    simp only [EStep.acts, List.length_cons, List.length_nil]
    omega

theorem NOut.Sized.cons {o : NOut} {ts : List Tok} {acts : List Executed} {d : Executed} (hd : d.called = none) (h : o.Sized ts acts) :
    o.Sized ts (d :: acts) := by
  have hc : (List.filterMap Executed.called (d :: acts)).length = (List.filterMap Executed.called acts).length := by
    rw [List.filterMap_cons, hd]
  cases o with
  | ok f s => exact ⟨by rw [hc]; exact h.1, by have := h.2; rw [List.length_cons]; omega⟩
  | raised f k s => exact ⟨by rw [hc]; exact h.1, by have := h.2; rw [List.length_cons]; omega⟩
  | timeout s => trivial

theorem execN_sized : ∀ (n : Nat) (ctx : List Nat) (ss : List Stmt) (s : EState),
    (execN A eof prog n ctx ss s).Sized s.rest (execActs A eof prog n ctx ss s) := by
  intro n
  induction n with
  | zero => intros; trivial
  | succ n ih =>
    intro ctx ss s
    have stop : ∀ (k : Failure) (d : Executed) (u : EState), d.called = none → u.rest = s.rest → NOut.Sized s.rest [d] (.raised [] k u) := by
      intro k d u hd hu
      exact ⟨by rw [List.filterMap_cons, hd]; rfl, by simp [ETree.nodesL, hu]⟩
    cases ss with
    | nil => exact ⟨rfl, by simp [ETree.nodesL]⟩
    | cons c ss =>
      cases c with
      | sync st =>
        rw [execN, execActs]
        have h := few_sync (A := A) (eof := eof) ctx (s.at st)
        exact sized_thenN rfl ⟨h.1, by have := h.2; change _ ≤ (s.at st).rest.length + 2; omega⟩ (ih ctx ss)
      | matchTok st k => rw [execN, execActs]; exact sized_thenN rfl (few_match true ctx _ (s.at st)) (ih ctx ss)
      | matchSet st t => rw [execN, execActs]; exact sized_thenN rfl (few_match false ctx _ (s.at st)) (ih ctx ss)
      | call st r =>
        rw [execN, execActs]
        have h1 := ih (st :: ctx) (prog r) (s.at st)
        have ho := execN_out (A := A) (eof := eof) (prog := prog) n (st :: ctx) (prog r) (s.at st)
        have hc : ∀ (a b : List Executed), (List.filterMap Executed.called ((⟨.call st r, ctx, s.rest⟩ : Executed) :: (a ++ b))).length =
            1 + (List.filterMap Executed.called a).length + (List.filterMap Executed.called b).length := by
          intro a b
          rw [List.filterMap_cons]
          simp only [Executed.called, List.filterMap_append, List.length_cons, List.length_append]
          omega
        cases hs : execN A eof prog n (st :: ctx) (prog r) (s.at st) with
        | ok f s1 =>
          rw [hs] at h1 ho
          rw [← ho]
          dsimp only [NOut.out]
          have h2 := ih ctx ss (s1.at st)
          cases hx : execN A eof prog n ctx ss (s1.at st) with
          | ok f' s' =>
            rw [hx] at h2
            refine ⟨by rw [hc, eContextsL_append, ← h1.1, ← h2.1]; simp [ETree.contextsL, ETree.contexts], ?_⟩
            have a1 := h1.2
            have a2 := h2.2
            simp only [EState.at] at a1 a2
            simp only [eNodesL_append, ETree.nodesL, ETree.nodes, List.length_cons, List.length_append]
            simp only [EState.at]
            omega
          | raised f' k s' =>
            rw [hx] at h2
            refine ⟨by rw [hc, eContextsL_append, ← h1.1, ← h2.1]; simp [ETree.contextsL, ETree.contexts], ?_⟩
            have a1 := h1.2
            have a2 := h2.2
            simp only [EState.at] at a1 a2
            simp only [eNodesL_append, ETree.nodesL, ETree.nodes, List.length_cons, List.length_append]
            simp only [EState.at]
            omega
          | timeout s' => trivial
        | raised f k s1 =>
          rw [hs] at h1 ho
          rw [← ho]
          dsimp only [NOut.out]
          have h3 := few_caught (A := A) (eof := eof) (st :: ctx) k s1
          have h2 := ih ctx ss ((caughtE A eof (st :: ctx) k s1).at st)
          cases hx : execN A eof prog n ctx ss ((caughtE A eof (st :: ctx) k s1).at st) with
          | ok f' s' =>
            rw [hx] at h2
            refine ⟨by rw [hc, eContextsL_append, ← h1.1, ← h2.1]; simp [ETree.contextsL, ETree.contexts, h3.1], ?_⟩
            have a1 := h1.2
            have a2 := h2.2
            have a3 := h3.2
            simp only [EState.at] at a1 a2
            simp only [eNodesL_append, ETree.nodesL, ETree.nodes, List.length_cons, List.length_append]
            simp only [EState.at]
            omega
          | raised f' k' s' =>
            rw [hx] at h2
            refine ⟨by rw [hc, eContextsL_append, ← h1.1, ← h2.1]; simp [ETree.contextsL, ETree.contexts, h3.1], ?_⟩
            have a1 := h1.2
            have a2 := h2.2
            have a3 := h3.2
            simp only [EState.at] at a1 a2
            simp only [eNodesL_append, ETree.nodesL, ETree.nodes, List.length_cons, List.length_append]
            simp only [EState.at]
            omega
          | timeout s' => trivial
        | timeout s1 => trivial
      | predict d bs =>
        rw [execN, execActs]
        cases A.simulator.predictor.predict d ctx s.rest with
        | none => exact stop _ _ _ rfl rfl
        | some a => exact (ih _ _ (s.look _)).cons rfl
      | switchLA cs =>
        rw [execN, execActs]
        cases switchCase (la s.rest) cs with
        | none => exact stop _ _ _ rfl rfl
        | some b => exact (ih _ _ s).cons rfl
      | ifLA t b => rw [execN, execActs]; exact (ih _ _ s).cons rfl
      | whileLA b st t => rw [execN, execActs]; exact (ih _ _ s).cons rfl
      | whilePredict b st d => rw [execN, execActs]; exact (ih _ _ s).cons rfl
      | loopPredict b st d =>
        rw [execN, execActs]
        cases A.simulator.predictor.predict d ctx s.rest with
        | none => exact stop _ _ _ rfl rfl
        | some a =>
          dsimp only
          split
          · exact (ih _ _ (s.look _)).cons rfl
          · split
            · exact (ih _ _ (s.look _)).cons rfl
            · exact stop _ _ _ rfl rfl

/-! ### Nothing is left -/

theorem eof_next : parserAtn.nextTokens 51 = [some [(-1, -1)]] ∧
    parserAtn.lookSet ((parserAtn.states.length + 1) * 1) (parserAtn.firstTarget 51) [] [] = [none] := by decide +kernel

attribute [local irreducible] parserAtn

theorem num_eof {t : Tok} (h : t.type.num = -1) : t.type = .EOF := by cases hx : t.type <;> simp_all [TokType.num]

/-- After `self.match(FCSParser.EOF)` in the function of the first rule everything has been consumed. -/
theorem match_eof {eof : Tok} {s s' : EState} (h : Line s.rest)
    (hm : matchE parserAtn eof [] (fun j => decide (j = -1)) (s.at 51) = .go s') : s'.rest = [] := by
  have inline : (∀ x ∈ s.rest.head?, x.type.num ≠ -1) → inlineE parserAtn eof [] (s.at 51) = .go s' → s'.rest = [] := by
    intro hx hi
    unfold inlineE at hi
    dsimp only at hi
    split at hi
    · rename_i hd
      cases hi
      change s.rest.drop 2 = []
      have hd' : parserAtn.expectedTok (la2 s.rest) 51 [] = true := hd
      rw [Atn.expectedTok, eof_next.1] at hd'
      have h2 : la2 s.rest = -1 := by
        simp [Atn.hasTok, Atn.hasEps] at hd'
        omega
      cases hr : s.rest with
      | nil => rfl
      | cons x xs =>
        cases xs with
        | nil => rfl
        | cons y ys =>
          rw [hr] at h h2
          have := h.tail
          rcases this with h' | h'
          · cases h'
          · rcases endsEof_cons h' with ⟨-, rfl⟩ | ⟨h4, -⟩
            · rfl
            · exact absurd h2 h4
    · split at hi
      · rename_i hc
        cases hi
        have hr : ((reportMissing parserAtn eof [] ((s.at 51).look 1)).note (.inline .insert)).rest = s.rest := rest_missing' ..
        rw [hr]
        have hc' : parserAtn.nextInContext (la s.rest) (parserAtn.firstTarget 51) [] = true := hc
        unfold Atn.nextInContext at hc'
        rw [show parserAtn.returnStates [] = [] from rfl, show ([] : List Nat).length + 1 = 1 from rfl, eof_next.2] at hc'
        have h2 : la s.rest = -1 := by simpa [Atn.hasTok, Atn.hasEps] using hc'
        cases hr2 : s.rest with
        | nil => rfl
        | cons x xs => rw [hr2] at h2 hx; exact absurd h2 (hx x rfl)
      · cases hi
  unfold matchE at hm
  cases hr : s.rest with
  | nil =>
    rw [show (s.at 51).rest = [] from hr] at hm
    exact inline (by rw [hr]; intro x hx; cases hx) hm
  | cons x xs =>
    rw [show (s.at 51).rest = x :: xs from hr] at hm
    dsimp only at hm
    split at hm
    · rename_i hk
      cases hm
      rw [hr] at h
      rcases h with h | h
      · cases h
      · rcases endsEof_cons h with ⟨-, rfl⟩ | ⟨h4, -⟩
        · rfl
        · exact absurd (by simpa using hk) h4
    · rename_i hk
      exact inline (by rw [hr]; intro y hy; cases hy; simpa using hk) hm

theorem prepend_ok' {f g : List ETree} {o : NOut} {s : EState} (h : o.prepend f = .ok g s) : ∃ f', o = .ok f' s := by
  cases o with
  | ok f' s' => cases h; exact ⟨f', rfl⟩
  | raised f' k s' => cases h
  | timeout s' => cases h

theorem ok_empty {eof : Tok} (he : eof.type = .EOF) : ∀ (n : Nat) (ss : List Stmt) (s s' : EState) (f : List ETree), Line s.rest →
    ss.getLast? = some (.matchTok 51 (-1)) → execN parserAtn eof prog n [] ss s = .ok f s' → s'.rest = [] := by
  intro n
  induction n with
  | zero => intro ss s s' f _ _ h; cases h
  | succ n ih =>
    intro ss s s' f hl hss h
    cases ss with
    | nil => cases hss
    | cons c ss =>
      have last : ∀ (b : List Stmt), ss ≠ [] → (b ++ ss).getLast? = some (.matchTok 51 (-1)) := by
        intro b hne
        cases ss with
        | nil => exact absurd rfl hne
        | cons y ys =>
          rw [List.getLast?_append, ← hss]
          rw [List.getLast?_cons_cons]
          cases hg : (y :: ys).getLast? with
          | none => simp at hg
          | some v => rfl
      have ne : c ≠ .matchTok 51 (-1) → ss ≠ [] := by
        rintro hc rfl
        simp at hss
        exact hc hss
      cases c with
      | sync st =>
        rw [execN] at h
        have hk := keeps_sync (A := parserAtn) he [] (s.at st) hl
        cases hs : syncE parserAtn eof [] (s.at st) with
        | stop k s1 => rw [hs] at h; cases h
        | go s1 =>
          rw [hs] at h hk
          obtain ⟨f', h1⟩ := prepend_ok' h
          exact ih ss s1 s' f' hk.2 (last [] (ne (by simp))) h1
      | matchTok st k =>
        rw [execN] at h
        have hk := keeps_match (A := parserAtn) he true [] (fun j => decide (j = k)) (s.at st) hl
        cases hs : matchE parserAtn eof [] (fun j => decide (j = k)) (s.at st) with
        | stop k s1 => rw [hs] at h; cases h
        | go s1 =>
          rw [hs] at h hk
          obtain ⟨f', h1⟩ := prepend_ok' h
          cases ss with
          | nil =>
            simp at hss
            obtain ⟨rfl, rfl⟩ := hss
            have h2 := match_eof hl hs
            cases n with
            | zero => cases h1
            | succ n => cases h1; exact h2
          | cons y ys => exact ih (y :: ys) s1 s' f' hk.2 (last [] (by simp)) h1
      | matchSet st t =>
        rw [execN] at h
        have hk := keeps_match (A := parserAtn) he false [] t.eval (s.at st) hl
        cases hs : matchE parserAtn eof [] t.eval (s.at st) with
        | stop k s1 => rw [hs] at h; cases h
        | go s1 =>
          rw [hs] at h hk
          obtain ⟨f', h1⟩ := prepend_ok' h
          exact ih ss s1 s' f' hk.2 (last [] (ne (by simp))) h1
      | call st r =>
        rw [execN] at h
        have hk := execN_keeps (A := parserAtn) (prog := prog) he n [st] (prog r) (s.at st) hl
        cases hs : execN parserAtn eof prog n [st] (prog r) (s.at st) with
        | ok f1 s1 =>
          rw [hs] at h hk
          obtain ⟨f', h1⟩ := prepend_ok' h
          exact ih ss (s1.at st) s' f' hk.2 (last [] (ne (by simp))) h1
        | raised f1 k s1 =>
          rw [hs] at h hk
          obtain ⟨f', h1⟩ := prepend_ok' h
          exact ih ss ((caughtE parserAtn eof [st] k s1).at st) s' f' (keeps_caught (A := parserAtn) he [st] k s1 hk.2).2 (last [] (ne (by simp))) h1
        | timeout s1 => rw [hs] at h; cases h
      | predict d bs =>
        rw [execN] at h
        cases hp : parserAtn.simulator.predictor.predict d [] s.rest with
        | none => rw [hp] at h; cases h
        | some a => rw [hp] at h; exact ih _ (s.look _) s' f hl (last _ (ne (by simp))) h
      | switchLA cs =>
        rw [execN] at h
        cases hc : switchCase (la s.rest) cs with
        | none => rw [hc] at h; cases h
        | some b => rw [hc] at h; exact ih _ s s' f hl (last _ (ne (by simp))) h
      | ifLA t b => rw [execN] at h; exact ih _ s s' f hl (last _ (ne (by simp))) h
      | whileLA b st t =>
        rw [execN] at h
        refine ih _ s s' f hl ?_ h
        have := last (b ++ [.sync st, .ifLA t [.whileLA b st t]]) (ne (by simp))
        simpa using this
      | whilePredict b st d =>
        rw [execN] at h
        refine ih _ s s' f hl ?_ h
        have := last (b ++ [.sync st, .loopPredict b st d]) (ne (by simp))
        simpa using this
      | loopPredict b st d =>
        rw [execN] at h
        cases hp : parserAtn.simulator.predictor.predict d [] s.rest with
        | none => rw [hp] at h; cases h
        | some a =>
          rw [hp] at h
          dsimp only at h
          split at h
          · exact ih _ (s.look _) s' f hl (last [] (ne (by simp))) h
          · split at h
            · refine ih _ (s.look _) s' f hl ?_ h
              have := last [.whilePredict b st d] (ne (by simp))
              simpa using this
            · cases h

/-- At the end of the function of the first rule everything but `EOF` has been consumed, by `recover` if need be. -/
theorem caught_empty {eof : Tok} (f : Failure) (s : EState) (h : Line s.rest) : realToks (caughtE A eof [] f s).rest = [] := by
  unfold caughtE recover
  have h1 := rest_failure' (A := A) (eof := eof) [] f s
  generalize reportFailure A eof [] f s = u at h1
  dsimp only
  have key : ∀ (u2 : EState), Line u2.rest → realToks (u2.skip (untilTok (fun t => A.recoveryTok t []) u2.rest)).rest = [] := by
    intro u2 hu
    change realToks (skipTo (untilTok (fun t => A.recoveryTok t []) u2.rest) u2.rest) = []
    rcases hu with hu | ⟨us, e, hu, he, hn⟩
    · rw [hu]; simp [skipTo, realToks]
    · have e1 : untilTok (fun t => A.recoveryTok t []) u2.rest = us.length := by
        rw [hu]
        unfold untilTok
        rw [List.takeWhile_append_of_pos (by
          intro x hx
          simp [hn x hx, Atn.recoveryTok])]
        simp [he]
      rw [e1, hu]
      unfold skipTo
      rw [show min us.length ((us ++ [e]).length - 1) = us.length by simp, List.drop_left]
      exact realToks_eof he
  exact key _ (by
    change Line (skipTo _ u.rest)
    rw [h1]
    exact h.skipTo _)

end Fcsql
