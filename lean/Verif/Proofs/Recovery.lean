/-
Runs with error recovery: what they consume and report, and how they relate to runs without errors.
-/
import Verif.Model.Recovery

set_option autoImplicit false
set_option linter.unusedSimpArgs false

namespace Fcsql

section
variable {σ : Type} {S : Strategy σ} {eof : Tok} {prog : Rule → List Stmt}

/-! ### What a run may change -/

/-- Reports so far, tokens left, and one more when a report can be made at once. -/
def RState.pot (s : RState σ) : Nat := s.reports.length + s.rest.length + if s.recovering then 0 else 1

/-- Tokens are only consumed, reports only added, about tokens that were left; reports cost tokens; and the number of
recoveries only grows while nothing is consumed. -/
structure Moves (eof : Tok) (s s' : RState σ) : Prop where
  suffix : s'.rest <:+ s.rest
  reports : ∃ ys, s'.reports = s.reports ++ ys ∧ ∀ t ∈ ys, t ∈ s.rest ∨ t = eof
  pot : s'.pot ≤ s.pot
  stuck : s'.rest = s.rest → s.stuck ≤ s'.stuck

theorem Moves.refl (s : RState σ) : Moves eof s s := ⟨List.suffix_rfl, ⟨[], by simp⟩, Nat.le_refl _, fun _ => Nat.le_refl _⟩

/-- The remaining tokens are still the same, so nothing has been consumed in between. -/
theorem Moves.same {a b c : RState σ} (h : Moves eof a b) (h' : Moves eof b c) (e : c.rest = a.rest) : b.rest = a.rest := by
  have h1 := h.suffix.length_le
  have h2 := h'.suffix.length_le
  rw [e] at h2
  exact h.suffix.eq_of_length_le h2

theorem Moves.trans {a b c : RState σ} (h : Moves eof a b) (h' : Moves eof b c) : Moves eof a c := by
  obtain ⟨ys, e1, m1⟩ := h.reports
  obtain ⟨zs, e2, m2⟩ := h'.reports
  refine ⟨h'.suffix.trans h.suffix, ⟨ys ++ zs, by rw [e2, e1]; simp, ?_⟩, Nat.le_trans h'.pot h.pot, fun e => ?_⟩
  · intro t ht
    rcases List.mem_append.1 ht with ht | ht
    · exact m1 t ht
    · rcases m2 t ht with ht | ht
      · exact .inl (h.suffix.subset ht)
      · exact .inr ht
  · have eb := h.same h' e
    exact Nat.le_trans (h.stuck eb) (h'.stuck (e.trans eb.symm))

@[simp] theorem RState.to_rest (s : RState σ) (ts : List Tok) : (s.to ts).rest = ts := rfl
@[simp] theorem RState.to_reports (s : RState σ) (ts : List Tok) : (s.to ts).reports = s.reports := rfl
@[simp] theorem RState.to_recovering (s : RState σ) (ts : List Tok) : (s.to ts).recovering = s.recovering := rfl
@[simp] theorem RState.to_mem (s : RState σ) (ts : List Tok) : (s.to ts).mem = s.mem := rfl

theorem RState.to_stuck (s : RState σ) {ts : List Tok} (h : ts = s.rest) : (s.to ts).stuck = s.stuck := by
  subst h; simp [RState.to]

theorem skipTo_suffix (k : Nat) (ts : List Tok) : skipTo k ts <:+ ts := List.drop_suffix _ _

theorem headD_skipTo (k : Nat) (ts : List Tok) : (skipTo k ts).headD eof ∈ ts ∨ (skipTo k ts).headD eof = eof := by
  cases h : skipTo k ts with
  | nil => exact .inr rfl
  | cons x xs => exact .inl ((skipTo_suffix k ts).subset (by rw [h]; simp))

theorem reportAt_moves (k : Nat) (s : RState σ) : Moves eof s (reportAt eof k s) := by
  unfold reportAt
  split
  · exact .refl s
  · rename_i h
    refine ⟨List.suffix_rfl, ⟨[_], rfl, ?_⟩, ?_, fun _ => Nat.le_refl _⟩
    · intro t ht
      rw [List.mem_singleton] at ht
      subst ht
      exact headD_skipTo k s.rest
    · have h : s.recovering = false := by simpa using h
      simp [RState.pot, h]; omega

@[simp] theorem reportAt_rest (k : Nat) (s : RState σ) : (reportAt eof k s).rest = s.rest := by
  unfold reportAt; split <;> rfl

@[simp] theorem reportAt_mem (k : Nat) (s : RState σ) : (reportAt eof k s).mem = s.mem := by
  unfold reportAt; split <;> rfl

@[simp] theorem reportAt_recovering (k : Nat) (s : RState σ) : (reportAt eof k s).recovering = true := by
  unfold reportAt; split
  · assumption
  · rfl

@[simp] theorem reportAt_stuck (k : Nat) (s : RState σ) : (reportAt eof k s).stuck = s.stuck := by
  unfold reportAt; split <;> rfl

/-- After a report: other memory, fewer tokens. -/
theorem reportAt_skip (k : Nat) (s : RState σ) {ts : List Tok} (h : ts <:+ s.rest) (m : σ) :
    Moves eof s { (reportAt eof k s).to ts with mem := m } := by
  have hr := reportAt_moves (eof := eof) k s
  refine ⟨h, hr.reports, Nat.le_trans ?_ hr.pot, fun e => ?_⟩
  · have := h.length_le
    simp [RState.pot]; omega
  · dsimp only at e ⊢
    rw [RState.to_stuck _ (by simpa using e), reportAt_stuck]; exact Nat.le_refl _

/-- After a report and a deleted token. -/
theorem reportAt_delete (k : Nat) (s : RState σ) {x : Tok} {ts ts' : List Tok} (h : s.rest = x :: ts) (h' : ts' <:+ ts) (m : σ) :
    Moves eof s { (reportAt eof k s).to ts' with recovering := false, mem := m } := by
  have hr := reportAt_moves (eof := eof) k s
  refine ⟨by rw [h]; exact h'.trans (List.suffix_cons _ _), hr.reports, Nat.le_trans ?_ hr.pot, fun e => ?_⟩
  · have := h'.length_le
    simp [RState.pot, h]; omega
  · dsimp only at e ⊢
    rw [RState.to_stuck _ (by simpa using e), reportAt_stuck]; exact Nat.le_refl _

theorem mem_moves (s : RState σ) (m : σ) : Moves eof s { s with mem := m } :=
  ⟨List.suffix_rfl, ⟨[], by simp⟩, Nat.le_refl _, fun _ => Nat.le_refl _⟩

/-- What a step may do. -/
def Step.Ok (eof : Tok) (s : RState σ) : Step σ → Prop
  | .go _ s' => Moves eof s s'
  | .stop _ s' => Moves eof s s'

theorem syncStep_moves (st : Nat) (ctx : List Nat) (s : RState σ) : (syncStep S eof st ctx s).Ok eof s := by
  unfold syncStep
  split
  · exact Moves.refl s
  · split
    · rename_i e h; exact reportAt_delete 0 s h List.suffix_rfl _
    · exact mem_moves s _
    · exact reportAt_skip 0 s (skipTo_suffix _ _) _
    · exact mem_moves s _

theorem inlineStep_moves (st : Nat) (ctx : List Nat) (ok : Int → Bool) (s : RState σ) : (inlineStep S eof st ctx ok s).Ok eof s := by
  unfold inlineStep
  split
  · rename_i e h
    split
    · exact reportAt_delete 0 s h (List.suffix_cons _ _) _
    · exact mem_moves s _
  · exact mem_moves s _
  · exact Moves.trans (reportAt_moves 0 s) (mem_moves _ _)
  · exact mem_moves s _

theorem matchStep_moves (st : Nat) (ctx : List Nat) (ok : Int → Bool) (s : RState σ) :
    (matchStep S eof st ctx ok s).Ok eof s := by
  unfold matchStep
  split
  · exact inlineStep_moves st ctx ok s
  · rename_i x xs h
    split
    · refine ⟨by rw [h]; exact List.suffix_cons _ _, ⟨[], by simp⟩, ?_, fun e => ?_⟩
      · simp [RState.pot, h]; omega
      · dsimp only at e ⊢
        rw [RState.to_stuck _ (by simpa using e)]; exact Nat.le_refl _
    · exact inlineStep_moves st ctx ok s

theorem caught_moves (ctx : List Nat) (k : Nat) (s : RState σ) : Moves eof s (caught S eof ctx k s) := by
  have hr := reportAt_moves (eof := eof) k s
  refine hr.trans ⟨skipTo_suffix _ _, ⟨[], by simp [caught]⟩, ?_, fun e => ?_⟩
  · have := (skipTo_suffix (if S.patience ≤ (reportAt eof k s).stuck then
      max 1 (S.onRecover (reportAt eof k s).mem ctx (reportAt eof k s).rest).1
      else (S.onRecover (reportAt eof k s).mem ctx (reportAt eof k s).rest).1) (reportAt eof k s).rest).length_le
    simp only [RState.pot, caught, RState.to_rest, RState.to_reports, RState.to_recovering, reportAt_recovering, if_true]
    omega
  · simp only [caught, RState.to_rest] at e ⊢
    rw [RState.to_stuck _ (by simpa using e)]
    exact Nat.le_succ _

/-- What statements may do. -/
def ROut.Ok (eof : Tok) (s : RState σ) : ROut σ → Prop
  | .ok _ s' => Moves eof s s'
  | .raised _ s' => Moves eof s s'
  | .timeout => True

theorem ROut.Ok.prepend {s : RState σ} {r : ROut σ} {f : List PTree} (h : r.Ok eof s) : (r.prepend f).Ok eof s := by
  cases r <;> exact h

theorem ROut.Ok.trans {s s' : RState σ} {r : ROut σ} (h' : Moves eof s s') (h : r.Ok eof s') : r.Ok eof s := by
  cases r with
  | ok f t => exact h'.trans h
  | raised k t => exact h'.trans h
  | timeout => trivial

theorem execR_moves (n : Nat) : ∀ ctx ss (s : RState σ), (execR S eof prog n ctx ss s).Ok eof s := by
  induction n with
  | zero => intro ctx ss s; simp [execR, ROut.Ok]
  | succ n ih =>
    intro ctx ss s
    cases ss with
    | nil => simpa [execR, ROut.Ok] using Moves.refl s
    | cons c ss =>
      cases c with
      | sync st =>
        have h := syncStep_moves (S := S) (eof := eof) st ctx s
        rw [execR]
        cases hs : syncStep S eof st ctx s with
        | go f s' => rw [hs] at h; exact ((ih ctx ss s').trans h).prepend
        | stop k s' => rw [hs] at h; exact h
      | matchTok st k =>
        have h := matchStep_moves (S := S) (eof := eof) st ctx (fun j => decide (j = k)) s
        rw [execR]
        cases hs : matchStep S eof st ctx (fun j => decide (j = k)) s with
        | go f s' => rw [hs] at h; exact ((ih ctx ss s').trans h).prepend
        | stop k s' => rw [hs] at h; exact h
      | matchSet st t =>
        have h := matchStep_moves (S := S) (eof := eof) st ctx t.eval s
        rw [execR]
        cases hs : matchStep S eof st ctx t.eval s with
        | go f s' => rw [hs] at h; exact ((ih ctx ss s').trans h).prepend
        | stop k s' => rw [hs] at h; exact h
      | call st r =>
        have h := ih (st :: ctx) (prog r) s
        rw [execR]
        cases hs : execR S eof prog n (st :: ctx) (prog r) s with
        | ok f s' => rw [hs] at h; exact ((ih ctx ss s').trans h).prepend
        | raised k s' => rw [hs] at h; exact ((ih ctx ss _).trans (Moves.trans h (caught_moves _ k s'))).prepend
        | timeout => trivial
      | predict d bs =>
        rw [execR]
        cases S.predict d ctx s.rest with
        | none => exact mem_moves s _
        | some a => exact ih _ _ _
      | switchLA cs =>
        rw [execR]
        cases switchCase (la s.rest) cs with
        | none => exact Moves.refl s
        | some a => exact ih _ _ _
      | ifLA t b => rw [execR]; exact ih _ _ _
      | whileLA b st t => rw [execR]; exact ih _ _ _
      | whilePredict b st d => rw [execR]; exact ih _ _ _
      | loopPredict b st d =>
        rw [execR]
        cases S.predict d ctx s.rest with
        | none => exact mem_moves s _
        | some a =>
          dsimp only
          split
          · exact ih _ _ _
          · split
            · exact ih _ _ _
            · exact Moves.refl s

/-! ### More steps do not change a result -/

theorem ROut.prepend_timeout {r : ROut σ} {f : List PTree} : r.prepend f = .timeout ↔ r = .timeout := by
  cases r <;> simp [ROut.prepend]

theorem ROut.prepend_nil {r : ROut σ} : r.prepend [] = r := by cases r <;> rfl

theorem ROut.prepend_prepend {r : ROut σ} {f g : List PTree} : (r.prepend g).prepend f = r.prepend (f ++ g) := by
  cases r <;> simp [ROut.prepend]

theorem execR_succ (n : Nat) : ∀ ctx ss (s : RState σ), execR S eof prog n ctx ss s ≠ .timeout →
    execR S eof prog (n + 1) ctx ss s = execR S eof prog n ctx ss s := by
  induction n with
  | zero => intro ctx ss s h; simp [execR] at h
  | succ n ih =>
    intro ctx ss s h
    cases ss with
    | nil => simp [execR]
    | cons c ss =>
      cases c with
      | sync st =>
        rw [execR] at h ⊢
        conv => rhs; rw [execR]
        cases hs : syncStep S eof st ctx s with
        | go f s' =>
          rw [hs] at h
          simp only [Step.andThen] at h ⊢
          rw [ih _ _ _ fun e => h (ROut.prepend_timeout.2 e)]
        | stop k s' => rfl
      | matchTok st k =>
        rw [execR] at h ⊢
        conv => rhs; rw [execR]
        cases hs : matchStep S eof st ctx (fun j => decide (j = k)) s with
        | go f s' =>
          rw [hs] at h
          simp only [Step.andThen] at h ⊢
          rw [ih _ _ _ fun e => h (ROut.prepend_timeout.2 e)]
        | stop k s' => rfl
      | matchSet st t =>
        rw [execR] at h ⊢
        conv => rhs; rw [execR]
        cases hs : matchStep S eof st ctx t.eval s with
        | go f s' =>
          rw [hs] at h
          simp only [Step.andThen] at h ⊢
          rw [ih _ _ _ fun e => h (ROut.prepend_timeout.2 e)]
        | stop k s' => rfl
      | call st r =>
        rw [execR] at h ⊢
        conv => rhs; rw [execR]
        have hne : execR S eof prog n (st :: ctx) (prog r) s ≠ .timeout := by
          intro e; rw [e] at h; exact h rfl
        rw [ih _ _ _ hne]
        cases hs : execR S eof prog n (st :: ctx) (prog r) s with
        | ok f s' => rw [hs] at h; dsimp only; rw [ih _ _ _ fun e => h (ROut.prepend_timeout.2 e)]
        | raised k s' => rw [hs] at h; dsimp only; rw [ih _ _ _ fun e => h (ROut.prepend_timeout.2 e)]
        | timeout => rfl
      | predict d bs =>
        rw [execR] at h ⊢
        conv => rhs; rw [execR]
        cases hp : S.predict d ctx s.rest with
        | none => rfl
        | some a => rw [hp] at h; exact ih _ _ _ h
      | switchLA cs =>
        rw [execR] at h ⊢
        conv => rhs; rw [execR]
        cases hp : switchCase (la s.rest) cs with
        | none => rfl
        | some a => rw [hp] at h; exact ih _ _ _ h
      | ifLA t b => rw [execR] at h ⊢; conv => rhs; rw [execR]
                    exact ih _ _ _ h
      | whileLA b st t => rw [execR] at h ⊢; conv => rhs; rw [execR]
                          exact ih _ _ _ h
      | whilePredict b st d => rw [execR] at h ⊢; conv => rhs; rw [execR]
                               exact ih _ _ _ h
      | loopPredict b st d =>
        rw [execR] at h ⊢
        conv => rhs; rw [execR]
        cases hp : S.predict d ctx s.rest with
        | none => rfl
        | some a =>
          rw [hp] at h
          dsimp only at h ⊢
          split
          · rename_i hs; rw [if_pos hs] at h; exact ih _ _ _ h
          · rename_i hs
            rw [if_neg hs] at h
            split
            · rename_i hs; rw [if_pos hs] at h; exact ih _ _ _ h
            · rfl

theorem execR_mono {n m : Nat} (hm : n ≤ m) {ctx : List Nat} {ss : List Stmt} {s : RState σ}
    (h : execR S eof prog n ctx ss s ≠ .timeout) : execR S eof prog m ctx ss s = execR S eof prog n ctx ss s := by
  induction hm with
  | refl => rfl
  | step _ ih => rw [execR_succ _ _ _ _ (by rw [ih]; exact h), ih]

/-! ### Runs without errors -/

/-- A run that ended badly: something has been reported, or will be when the exception is caught. -/
def ROut.Bad (s : RState σ) : ROut σ → Prop
  | .ok _ s' => s.reports.length < s'.reports.length
  | .raised _ s' => s'.recovering = false ∨ s.reports.length < s'.reports.length
  | .timeout => True

theorem Moves.length_le {s s' : RState σ} (h : Moves eof s s') : s.reports.length ≤ s'.reports.length := by
  obtain ⟨ys, e, -⟩ := h.reports
  rw [e]; simp

/-- Once something has been reported, the rest does not matter. -/
theorem bad_of_reported {s s' : RState σ} {r : ROut σ} (h : s.reports.length < s'.reports.length) (hr : r.Ok eof s') :
    r.Bad s := by
  cases r with
  | ok f t => exact Nat.lt_of_lt_of_le h (Moves.length_le hr)
  | raised k t => exact .inr (Nat.lt_of_lt_of_le h (Moves.length_le hr))
  | timeout => trivial

theorem ROut.Bad.prepend {s : RState σ} {r : ROut σ} {f : List PTree} (h : r.Bad s) : (r.prepend f).Bad s := by
  cases r <;> exact h

theorem reportAt_length {k : Nat} {s : RState σ} (h : s.recovering = false) :
    (reportAt eof k s).reports.length = s.reports.length + 1 := by
  simp [reportAt, h]

theorem caught_bad {ctx : List Nat} {k : Nat} {s s' : RState σ} (h : s'.recovering = false ∨ s.reports.length < s'.reports.length)
    (hm : s.reports.length ≤ s'.reports.length) : s.reports.length < (caught S eof ctx k s').reports.length := by
  rcases h with h | h
  · have := reportAt_length (eof := eof) (k := k) h
    simp only [caught, RState.to_reports]; omega
  · exact Nat.lt_of_lt_of_le h (Moves.length_le (caught_moves ctx k s'))

/-- The result of a statement on tokens that are not as expected. -/
def Step.Bad (s : RState σ) : Step σ → Prop
  | .go _ s' => s.reports.length < s'.reports.length
  | .stop _ s' => s'.recovering = false ∨ s.reports.length < s'.reports.length

theorem syncStep_bad {st : Nat} {ctx : List Nat} {s : RState σ} (h : s.recovering = false) (h' : S.sync st ctx s.rest = false) :
    (syncStep S eof st ctx s).Bad s := by
  have hr := reportAt_length (eof := eof) (k := 0) h
  unfold syncStep
  rw [h, h']
  simp only [Bool.or_self, Bool.false_eq_true, if_false]
  split
  · simp only [Step.Bad, RState.to_reports]; omega
  · exact .inl rfl
  · simp only [Step.Bad, RState.to_reports]; omega
  · exact .inl rfl

theorem inlineStep_bad {st : Nat} {ctx : List Nat} {ok : Int → Bool} {s : RState σ} (h : s.recovering = false) :
    (inlineStep S eof st ctx ok s).Bad s := by
  have hr := reportAt_length (eof := eof) (k := 0) h
  unfold inlineStep
  split
  · split
    · simp only [Step.Bad, RState.to_reports]; omega
    · exact .inl h
  · exact .inl h
  · simp only [Step.Bad, RState.to_reports]; omega
  · exact .inl h

theorem step_bad {step : Step σ} {s : RState σ} (h : step.Bad s) (n : Nat) (ctx : List Nat) (ss : List Stmt) :
    (step.andThen (execR S eof prog n ctx ss)).Bad s := by
  cases step with
  | go f s' => exact (bad_of_reported (eof := eof) h (execR_moves n ctx ss s')).prepend
  | stop k s' => exact h

/-- Without errors, error recovery changes nothing; and an error is reported. -/
theorem execR_exec (n : Nat) : ∀ ctx ss (s : RState σ), s.recovering = false → s.stuck = 0 →
    (∀ f vs, exec S.toPredictor prog n ctx ss s.rest = .ok f vs → execR S eof prog n ctx ss s = .ok f { s with rest := vs }) ∧
    (exec S.toPredictor prog n ctx ss s.rest = .error → (execR S eof prog n ctx ss s).Bad s) := by
  induction n with
  | zero => intro ctx ss s _ _; simp [exec]
  | succ n ih =>
    intro ctx ss s hc hk
    have hself : ∀ ts, s.rest = ts → ({ s with rest := ts } : RState σ) = s := by intro ts e; subst e; rfl
    cases ss with
    | nil =>
      constructor
      · intro f vs h
        simp only [exec, Res.ok.injEq] at h
        obtain ⟨rfl, rfl⟩ := h
        rfl
      · intro h; simp [exec] at h
    | cons c ss =>
      cases c with
      | sync st =>
        by_cases hs : S.sync st ctx s.rest = true
        · have e : syncStep S eof st ctx s = .go [] s := by simp [syncStep, hs]
          simp only [exec, execR, hs, if_true, e, Step.andThen, ROut.prepend_nil]
          exact ih ctx ss s hc hk
        · simp only [Bool.not_eq_true] at hs
          refine ⟨fun f vs h => by simp [exec, hs] at h, fun _ => ?_⟩
          rw [execR]
          exact step_bad (syncStep_bad hc hs) n ctx ss
      | matchTok st k =>
        have hbad := step_bad (S := S) (eof := eof) (prog := prog) (inlineStep_bad (S := S) (eof := eof) (st := st) (ctx := ctx) (ok := fun j => decide (j = k)) hc) n ctx ss
        cases hr : s.rest with
        | nil =>
          refine ⟨fun f vs h => by simp [exec] at h, fun _ => ?_⟩
          rw [execR, matchStep, hr]
          exact hbad
        | cons x xs =>
          by_cases hx : x.type.num = k
          · have ih' := ih ctx ss { s with rest := xs, recovering := false } rfl hk
            have e : matchStep S eof st ctx (fun j => decide (j = k)) s = .go [.leaf x] { s with rest := xs, recovering := false } := by
              rw [matchStep, hr]; simp [hx, RState.to, hk]
            rw [execR, e]
            constructor
            · intro f vs h
              simp only [exec, hx, if_true] at h
              cases h2 : exec S.toPredictor prog n ctx ss xs with
              | ok f' vs' =>
                rw [h2] at h
                simp only [Res.prepend, Res.ok.injEq] at h
                obtain ⟨rfl, rfl⟩ := h
                have := ih'.1 f' vs' h2
                rw [Step.andThen, this, ROut.prepend, hc]
              | error => rw [h2] at h; cases h
              | timeout => rw [h2] at h; cases h
            · intro h
              simp only [exec, hx, if_true] at h
              cases h2 : exec S.toPredictor prog n ctx ss xs with
              | ok f' vs' => rw [h2] at h; cases h
              | timeout => rw [h2] at h; cases h
              | error => exact ROut.Bad.prepend (ih'.2 h2)
          · refine ⟨fun f vs h => by simp [exec, hx] at h, fun _ => ?_⟩
            rw [execR, matchStep, hr]
            simp only [hx, decide_false, Bool.false_eq_true, if_false]
            exact hbad
      | matchSet st t =>
        have hbad := step_bad (S := S) (eof := eof) (prog := prog) (inlineStep_bad (S := S) (eof := eof) (st := st) (ctx := ctx) (ok := t.eval) hc) n ctx ss
        cases hr : s.rest with
        | nil =>
          refine ⟨fun f vs h => by simp [exec] at h, fun _ => ?_⟩
          rw [execR, matchStep, hr]
          exact hbad
        | cons x xs =>
          by_cases hx : t.eval x.type.num = true
          · have ih' := ih ctx ss { s with rest := xs, recovering := false } rfl hk
            have e : matchStep S eof st ctx t.eval s = .go [.leaf x] { s with rest := xs, recovering := false } := by
              rw [matchStep, hr]; simp [hx, RState.to, hk]
            rw [execR, e]
            constructor
            · intro f vs h
              simp only [exec, hx, if_true] at h
              cases h2 : exec S.toPredictor prog n ctx ss xs with
              | ok f' vs' =>
                rw [h2] at h
                simp only [Res.prepend, Res.ok.injEq] at h
                obtain ⟨rfl, rfl⟩ := h
                have := ih'.1 f' vs' h2
                rw [Step.andThen, this, ROut.prepend, hc]
              | error => rw [h2] at h; cases h
              | timeout => rw [h2] at h; cases h
            · intro h
              simp only [exec, hx, if_true] at h
              cases h2 : exec S.toPredictor prog n ctx ss xs with
              | ok f' vs' => rw [h2] at h; cases h
              | timeout => rw [h2] at h; cases h
              | error => exact ROut.Bad.prepend (ih'.2 h2)
          · simp only [Bool.not_eq_true] at hx
            refine ⟨fun f vs h => by simp [exec, hx] at h, fun _ => ?_⟩
            rw [execR, matchStep, hr]
            simp only [hx, Bool.false_eq_true, if_false]
            exact hbad
      | call st r =>
        obtain ⟨i1, i2⟩ := ih (st :: ctx) (prog r) s hc hk
        rw [execR]
        cases h1 : exec S.toPredictor prog n (st :: ctx) (prog r) s.rest with
        | ok f' vs' =>
          rw [i1 f' vs' h1]
          obtain ⟨j1, j2⟩ := ih ctx ss { s with rest := vs' } hc hk
          dsimp only at j1 j2 ⊢
          constructor
          · intro f vs h
            simp only [exec, h1] at h
            cases h2 : exec S.toPredictor prog n ctx ss vs' with
            | ok f'' vs'' =>
              rw [h2] at h
              simp only [Res.prepend, Res.ok.injEq] at h
              obtain ⟨rfl, rfl⟩ := h
              rw [j1 _ _ h2, ROut.prepend]
            | error => rw [h2] at h; cases h
            | timeout => rw [h2] at h; cases h
          · intro h
            simp only [exec, h1] at h
            cases h2 : exec S.toPredictor prog n ctx ss vs' with
            | ok f'' vs'' => rw [h2] at h; cases h
            | timeout => rw [h2] at h; cases h
            | error => exact (j2 h2).prepend
        | timeout => exact ⟨fun f vs h => by simp [exec, h1] at h, fun h => by simp [exec, h1] at h⟩
        | error =>
          refine ⟨fun f vs h => by simp [exec, h1] at h, fun _ => ?_⟩
          have hb := i2 h1
          have hm := execR_moves (S := S) (eof := eof) (prog := prog) n (st :: ctx) (prog r) s
          cases h2 : execR S eof prog n (st :: ctx) (prog r) s with
          | ok f s' =>
            rw [h2] at hb
            exact (bad_of_reported (eof := eof) hb (execR_moves n ctx ss s')).prepend
          | raised k s' =>
            rw [h2] at hb hm
            exact (bad_of_reported (eof := eof) (caught_bad (S := S) hb (Moves.length_le hm)) (execR_moves n ctx ss _)).prepend
          | timeout => trivial
      | predict d bs =>
        simp only [exec, execR]
        cases hp : S.predict d ctx s.rest with
        | none => exact ⟨fun f vs h => (by cases h), fun _ => .inl hc⟩
        | some a => exact ih _ _ _ hc hk
      | switchLA cs =>
        simp only [exec, execR]
        cases hp : switchCase (la s.rest) cs with
        | none => exact ⟨fun f vs h => (by cases h), fun _ => .inl hc⟩
        | some a => exact ih _ _ _ hc hk
      | ifLA t b => simp only [exec, execR]; exact ih _ _ _ hc hk
      | whileLA b st t => simp only [exec, execR]; exact ih _ _ _ hc hk
      | whilePredict b st d => simp only [exec, execR]; exact ih _ _ _ hc hk
      | loopPredict b st d =>
        simp only [exec, execR]
        cases hp : S.predict d ctx s.rest with
        | none => exact ⟨fun f vs h => (by cases h), fun _ => .inl hc⟩
        | some a =>
          dsimp only
          split
          · exact ih _ _ _ hc hk
          · split
            · exact ih _ _ _ hc hk
            · exact ⟨fun f vs h => (by cases h), fun _ => .inl hc⟩

end

end Fcsql
