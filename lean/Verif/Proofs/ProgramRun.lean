/-
The program and the parser with all tokens known beforehand do the same: whole runs.
-/
import Verif.Proofs.ProgramSim
import Verif.Props.Messages
import Verif.Props.TreeBuilder

set_option autoImplicit false
set_option linter.unusedSimpArgs false

namespace Fcsql

attribute [local irreducible] parserAtn parseQuery lexerAtn lexPieces

variable {m : Nat} {q : PyStr} {A : Atn} {prog : Rule → List Stmt}

/-- Outcomes of both. -/
def OutSim (q : PyStr) : Option POut → EOut → Prop
  | none, .timeout _ => True
  | some (.ok _ s), .ok e => Sim1 q s e
  | some (.raised f s), .raised f' e => f = f' ∧ Sim1 q s e
  | _, _ => False

theorem OutSim.prepend {o : Option POut} {r : EOut} (h : OutSim q o r) (f : List PTree) : OutSim q (o.map (.prepend f)) r := by
  match o, r, h with
  | none, .timeout _, _ => trivial
  | some (.ok _ s), .ok e, h => exact h
  | some (.raised f s), .raised f' e, h => exact h

theorem outSim_then {r : PStep} {x : EStep} (h : StepSim q r x) {k : PState → Option POut} {k' : EState → EOut}
    (hk : ∀ s e, Sim1 q s e → OutSim q (k s) (k' e)) : OutSim q (r.andThen k) (x.andThen k') := by
  match r, x, h with
  | .go f s, .go e, h => exact (hk s e h).prepend f
  | .stop f s, .stop f' e, h => exact h

/-- **In lockstep.** -/
theorem exec_sim (hm : 28 ≤ m) : ∀ (n : Nat) (ctx : List Nat) (ss : List Stmt) (s : PState) (e : EState), Sim1 q s e →
    OutSim q (execP lexerAtn m q A prog n ctx ss s) (execE A (eofTok q) prog n ctx ss e) := by
  intro n
  induction n with
  | zero => intro ctx ss s e h; exact trivial
  | succ n ih =>
    intro ctx ss s e h
    have hun : e.rest.length ≤ q.length + 1 := by have := h.sim.rest_length; omega
    cases ss with
    | nil => exact h
    | cons c ss =>
      cases c with
      | sync st =>
        rw [execP, execE]
        obtain ⟨r, h1, h2, -⟩ := simP_sync (A := A) hm (h.at st) ctx
        rw [h1]
        exact outSim_then h2 fun s e h => ih ctx ss s e h
      | matchTok st k =>
        rw [execP, execE]
        obtain ⟨r, h1, h2, -⟩ := simP_match (A := A) hm (h.at st) ctx (fun j => j = k)
        rw [h1]
        exact outSim_then h2 fun s e h => ih ctx ss s e h
      | matchSet st t =>
        rw [execP, execE]
        obtain ⟨r, h1, h2, -⟩ := simP_match (A := A) hm (h.at st) ctx t.eval
        rw [h1]
        exact outSim_then h2 fun s e h => ih ctx ss s e h
      | call st r =>
        rw [execP, execE]
        have hin := ih (st :: ctx) (prog r) (s.at st) (e.at st) (h.at st)
        revert hin
        cases execP lexerAtn m q A prog n (st :: ctx) (prog r) (s.at st) with
        | none =>
          cases execE A (eofTok q) prog n (st :: ctx) (prog r) (e.at st) with
          | timeout e' => intro _; exact trivial
          | ok e' => intro h; exact h.elim
          | raised f e' => intro h; exact h.elim
        | some o =>
          cases o with
          | ok f s' =>
            cases execE A (eofTok q) prog n (st :: ctx) (prog r) (e.at st) with
            | timeout e' => intro h; exact h.elim
            | ok e' => intro h'; exact (ih ctx ss _ _ (Sim1.at h' st)).prepend _
            | raised f e' => intro h; exact h.elim
          | raised f s' =>
            cases execE A (eofTok q) prog n (st :: ctx) (prog r) (e.at st) with
            | timeout e' => intro h; exact h.elim
            | ok e' => intro h; exact h.elim
            | raised f' e' =>
              rintro ⟨rfl, h'⟩
              obtain ⟨s2, h1, h2⟩ := h'.caught (A := A) hm (st :: ctx) f
              simp only
              rw [h1]
              exact (ih ctx ss _ _ (h2.at st)).prepend _
      | predict d bs =>
        rw [execP, execE]
        obtain ⟨k, s1, h1, h2, h4⟩ := h.predict (A := A) hm d ctx hun
        rw [h1]
        cases hp : A.simulator.predictor.predict d ctx e.rest with
        | none => simp only; rw [h4 hp]; exact ⟨rfl, h2⟩
        | some a => exact ih ctx _ _ _ h2
      | switchLA cs =>
        rw [execP, execE, h.la]
        cases switchCase (la e.rest) cs with
        | none => exact ⟨rfl, h⟩
        | some b => exact ih ctx _ _ _ h
      | ifLA t b => rw [execP, execE, h.la]; exact ih ctx _ _ _ h
      | whileLA b st t => rw [execP, execE]; exact ih ctx _ _ _ h
      | whilePredict b st d => rw [execP, execE]; exact ih ctx _ _ _ h
      | loopPredict b st d =>
        rw [execP, execE]
        obtain ⟨k, s1, h1, h2, h4⟩ := h.predict (A := A) hm d ctx hun
        rw [h1]
        cases hp : A.simulator.predictor.predict d ctx e.rest with
        | none => simp only; rw [h4 hp]; exact ⟨rfl, h2⟩
        | some a =>
          simp only
          split
          · exact ih ctx _ _ _ h2
          · split
            · exact ih ctx _ _ _ h2
            · exact ⟨rfl, h2⟩

/-- More steps change nothing. -/
theorem execP_succ {L : Atn} : ∀ (n : Nat) (ctx : List Nat) (ss : List Stmt) (s : PState) (o : POut),
    execP L m q A prog n ctx ss s = some o → execP L m q A prog (n + 1) ctx ss s = some o := by
  intro n
  induction n with
  | zero => intro ctx ss s o h; rw [execP] at h; cases h
  | succ n ih =>
    intro ctx ss s o h
    have hthen : ∀ (x : Option PStep) (ss : List Stmt), (x.bind fun e => e.andThen (execP L m q A prog n ctx ss)) = some o →
        (x.bind fun e => e.andThen (execP L m q A prog (n + 1) ctx ss)) = some o := by
      intro x ss h
      cases x with
      | none => cases h
      | some e =>
        cases e with
        | stop f s => exact h
        | go f s =>
          simp only [Option.bind_some, PStep.andThen, Option.map_eq_some_iff] at h ⊢
          obtain ⟨a, h1, h2⟩ := h
          exact ⟨a, ih _ _ _ _ h1, h2⟩
    cases ss with
    | nil => rw [execP] at h ⊢; exact h
    | cons c ss =>
      cases c with
      | sync st => rw [execP] at h ⊢; exact hthen _ _ h
      | matchTok st k => rw [execP] at h ⊢; exact hthen _ _ h
      | matchSet st t => rw [execP] at h ⊢; exact hthen _ _ h
      | call st r =>
        rw [execP] at h ⊢
        cases hin : execP L m q A prog n (st :: ctx) (prog r) (s.at st) with
        | none => rw [hin] at h; cases h
        | some o' =>
          rw [hin] at h
          rw [ih _ _ _ _ hin]
          cases o' with
          | ok f s' =>
            simp only [Option.map_eq_some_iff] at h ⊢
            obtain ⟨a, h1, h2⟩ := h
            exact ⟨a, ih _ _ _ _ h1, h2⟩
          | raised f s' =>
            simp only at h ⊢
            cases hc : caughtP L m q A (st :: ctx) f s' with
            | none => rw [hc] at h; cases h
            | some s2 =>
              rw [hc] at h
              simp only [Option.map_eq_some_iff] at h ⊢
              obtain ⟨a, h1, h2⟩ := h
              exact ⟨a, ih _ _ _ _ h1, h2⟩
      | predict d bs =>
        rw [execP] at h ⊢
        cases hl : predictP L m q A d ctx s with
        | none => rw [hl] at h; cases h
        | some r =>
          obtain ⟨⟨a, k⟩, s1⟩ := r
          rw [hl] at h
          cases a with
          | none => exact h
          | some a => exact ih _ _ _ _ h
      | switchLA cs =>
        rw [execP] at h ⊢
        cases hp : switchCase (la (s.toks q)) cs with
        | none => rw [hp] at h; exact h
        | some b => rw [hp] at h; exact ih _ _ _ _ h
      | ifLA t b => rw [execP] at h ⊢; exact ih _ _ _ _ h
      | whileLA b st t => rw [execP] at h ⊢; exact ih _ _ _ _ h
      | whilePredict b st d => rw [execP] at h ⊢; exact ih _ _ _ _ h
      | loopPredict b st d =>
        rw [execP] at h ⊢
        cases hl : predictP L m q A d ctx s with
        | none => rw [hl] at h; cases h
        | some r =>
          obtain ⟨⟨a, k⟩, s1⟩ := r
          rw [hl] at h
          cases a with
          | none => exact h
          | some a =>
            simp only at h ⊢
            split at h
            · rw [if_pos ‹_›]; exact ih _ _ _ _ h
            · rw [if_neg ‹_›]
              split at h
              · rw [if_pos ‹_›]; exact ih _ _ _ _ h
              · rw [if_neg ‹_›]; exact h

theorem callP_mono {L : Atn} {n k : Nat} (hk : n ≤ k) {r : List PTree × List ListenerCall}
    (h : callP L m q A prog n .query = some r) : callP L m q A prog k .query = some r := by
  have hm : ∀ ctx ss s o, execP L m q A prog n ctx ss s = some o → execP L m q A prog k ctx ss s = some o := by
    intro ctx ss s o h
    induction hk with
    | refl => exact h
    | step _ ih => exact execP_succ _ _ _ _ _ ih
  unfold callP at h ⊢
  cases hl : PState.new.look L m q 0 with
  | none => rw [hl] at h; cases h
  | some s =>
    rw [hl] at h
    simp only at h ⊢
    cases hx : execP L m q A prog n [] (prog .query) s with
    | none => rw [hx] at h; cases h
    | some o => rw [hx] at h; rw [hm _ _ _ _ hx]; exact h

/-- The children: as without errors, when there is none. -/
theorem exec_forest (hm : 28 ≤ m) : ∀ (n : Nat) (ctx : List Nat) (ss : List Stmt) (s : PState) (e : EState) (f : List PTree) (ts : List Tok),
    Sim1 q s e → e.recovering = false → exec A.simulator.predictor prog n ctx ss e.rest = .ok f ts →
    ∃ s' e', execP lexerAtn m q A prog n ctx ss s = some (.ok f s') ∧ Sim1 q s' e' ∧ e'.rest = ts ∧ e'.recovering = false := by
  intro n
  induction n with
  | zero => intro ctx ss s e f ts _ _ hx; rw [exec] at hx; cases hx
  | succ n ih =>
    intro ctx ss s e f ts h hr hx
    have hun : e.rest.length ≤ q.length + 1 := by have := h.sim.rest_length; omega
    have hok : ∀ (st : Nat) (ok : Int → Bool) (ss : List Stmt) (x : Tok) (xs : List Tok), e.rest = x :: xs → ok x.type.num = true →
        (exec A.simulator.predictor prog n ctx ss xs).prepend [.leaf x] = .ok f ts →
        ∃ s' e', ((matchP lexerAtn m q A ctx ok (s.at st)).bind fun r => r.andThen (execP lexerAtn m q A prog n ctx ss)) = some (.ok f s') ∧
          Sim1 q s' e' ∧ e'.rest = ts ∧ e'.recovering = false := by
      intro st ok ss x xs hrest hok hres
      obtain ⟨r, h1, h2, h3⟩ := simP_match (A := A) hm (h.at st) ctx ok
      obtain ⟨s1, rfl⟩ := h3 x xs hrest hok
      have hE : matchE A (eofTok q) ctx ok (e.at st) = .go ((e.at st).matched xs) := by
        unfold matchE
        rw [show (e.at st).rest = x :: xs from hrest]
        simp only [hok, if_true]
      rw [hE] at h2
      have h2 : Sim1 q s1 ((e.at st).matched xs) := h2
      cases hc : exec A.simulator.predictor prog n ctx ss xs with
      | ok f' ts' =>
        rw [hc] at hres
        simp only [Res.prepend, Res.ok.injEq] at hres
        obtain ⟨s2, e2, k1, k2, k3, k4⟩ := ih ctx ss s1 ((e.at st).matched xs) f' ts' h2 rfl hc
        refine ⟨s2, e2, ?_, k2, k3.trans hres.2, k4⟩
        rw [h1]
        simp only [Option.bind_some, PStep.andThen, k1, Option.map_some, POut.prepend]
        rw [hres.1]
      | error => rw [hc] at hres; cases hres
      | timeout => rw [hc] at hres; cases hres
    cases ss with
    | nil =>
      rw [exec] at hx
      cases hx
      exact ⟨s, e, rfl, h, rfl, hr⟩
    | cons c ss =>
      cases c with
      | sync st =>
        rw [exec] at hx
        split at hx
        · rename_i hs
          obtain ⟨s1, e1, k1, k2, k3, k4⟩ := ih ctx ss (s.at st) (e.at st) f ts (h.at st) hr hx
          refine ⟨s1, e1, ?_, k2, k3, k4⟩
          rw [execP]
          have : syncP lexerAtn m q A ctx (s.at st) = some (.go [] (s.at st)) := by
            unfold syncP
            rw [(h.at st).sim.recovering, show (e.at st).recovering = false from hr, (h.at st).la, (h.at st).sim.state]
            have hs' : A.syncOk st e.rest = true := hs
            rw [syncOk_eq] at hs'
            simp only [Bool.false_eq_true, if_false]
            exact if_pos hs'
          rw [this]
          simp only [Option.bind_some, PStep.andThen, k1, Option.map_some, POut.prepend, List.nil_append]
        · cases hx
      | matchTok st k =>
        cases hrest : e.rest with
        | nil => rw [hrest, exec] at hx; cases hx
        | cons x xs =>
          rw [hrest, exec] at hx
          split at hx
          · rename_i hk
            rw [execP]
            exact hok st (fun j => j = k) ss x xs hrest (by simp [hk]) hx
          · cases hx
      | matchSet st t =>
        cases hrest : e.rest with
        | nil => rw [hrest, exec] at hx; cases hx
        | cons x xs =>
          rw [hrest, exec] at hx
          split at hx
          · rename_i hk
            rw [execP]
            exact hok st t.eval ss x xs hrest hk hx
          · cases hx
      | call st r =>
        rw [exec] at hx
        cases hin : exec A.simulator.predictor prog n (st :: ctx) (prog r) e.rest with
        | error => rw [hin] at hx; cases hx
        | timeout => rw [hin] at hx; cases hx
        | ok f1 ts1 =>
          rw [hin] at hx
          simp only at hx
          obtain ⟨s1, e1, k1, k2, k3, k4⟩ := ih (st :: ctx) (prog r) (s.at st) (e.at st) f1 ts1 (h.at st) hr hin
          cases hc : exec A.simulator.predictor prog n ctx ss ts1 with
          | error => rw [hc] at hx; cases hx
          | timeout => rw [hc] at hx; cases hx
          | ok f2 ts2 =>
            rw [hc] at hx
            simp only [Res.prepend, Res.ok.injEq] at hx
            obtain ⟨s2, e2, j1, j2, j3, j4⟩ := ih ctx ss (s1.at st) (e1.at st) f2 ts2 (k2.at st) k4 (by rw [show (e1.at st).rest = ts1 from k3]; exact hc)
            refine ⟨s2, e2, ?_, j2, j3.trans hx.2, j4⟩
            rw [execP, k1]
            simp only [j1, Option.map_some, POut.prepend]
            rw [hx.1]
      | predict d bs =>
        rw [exec] at hx
        rw [execP]
        obtain ⟨k, s1, h1, h2, h4⟩ := h.predict (A := A) hm d ctx hun
        rw [h1]
        cases hp : A.simulator.predictor.predict d ctx e.rest with
        | none => rw [hp] at hx; cases hx
        | some a => rw [hp] at hx; exact ih ctx _ _ _ _ _ h2 hr hx
      | switchLA cs =>
        rw [exec] at hx
        rw [execP, h.la]
        cases hp : switchCase (la e.rest) cs with
        | none => rw [hp] at hx; cases hx
        | some b => rw [hp] at hx; exact ih ctx _ _ _ _ _ h hr hx
      | ifLA t b => rw [exec] at hx; rw [execP, h.la]; exact ih ctx _ _ _ _ _ h hr hx
      | whileLA b st t => rw [exec] at hx; rw [execP]; exact ih ctx _ _ _ _ _ h hr hx
      | whilePredict b st d => rw [exec] at hx; rw [execP]; exact ih ctx _ _ _ _ _ h hr hx
      | loopPredict b st d =>
        rw [exec] at hx
        rw [execP]
        obtain ⟨k, s1, h1, h2, h4⟩ := h.predict (A := A) hm d ctx hun
        rw [h1]
        cases hp : A.simulator.predictor.predict d ctx e.rest with
        | none => rw [hp] at hx; cases hx
        | some a =>
          rw [hp] at hx
          simp only at hx ⊢
          split at hx
          · rw [if_pos ‹_›]; exact ih ctx _ _ _ _ _ h2 hr hx
          · rw [if_neg ‹_›]
            split at hx
            · rw [if_pos ‹_›]; exact ih ctx _ _ _ _ _ h2 hr hx
            · cases hx

theorem sim_new (q : PyStr) : Sim q PState.new { EState.new (tokenStream q) with unread := (tokenStream q).length } := by
  have hpos : (tokenStream q).length ≠ 0 := by simp [tokenStream]
  refine ⟨rfl, rfl, rfl, ?_, .inl ⟨rfl, rfl⟩, List.suffix_refl _, Nat.le_refl _, ?_, ?_, ?_, ?_, ?_, ?_⟩
  · simp [PState.new, EState.new]
  · simp [PState.new, EState.new]
  · simp [PState.new, hpos]
  · intro h; exact absurd h hpos
  · intro _
    refine ⟨[], lexPieces q, ⟨⟨Nat.zero_le _, rfl, rfl⟩, (by intro h; cases h), ?_⟩, rfl, .inl rfl, ?_⟩
    · exact lexPieces_splits q
    · simp
  · simp only [PState.new, EState.new, listenerErrors, List.drop_zero, lexErrorsBy, Nat.sub_self]
    have : lexErrorsBy.go 0 (lexPieces q) = [] := by cases lexPieces q <;> rfl
    rw [this]; rfl
  · intro r hr; cases hr

theorem sim_first (hm : 28 ≤ m) (q : PyStr) : ∃ s, PState.new.look lexerAtn m q 0 = some s ∧ Sim1 q s (EState.new (tokenStream q)) := by
  obtain ⟨s, h1, h2⟩ := (sim_new q).first hm
  refine ⟨s, h1, ?_⟩
  have : EState.look 0 { EState.new (tokenStream q) with unread := (tokenStream q).length } = EState.new (tokenStream q) := by
    unfold EState.look EState.new
    simp
  rw [this] at h2
  exact h2

/-- **The calls of the listener.** -/
theorem callP_calls (hm : 28 ≤ m) (n : Nat) (q : PyStr) :
    (callP lexerAtn m q A prog n .query).map Prod.snd =
      (callE A (eofTok q) prog n .query (tokenStream q)).map fun r => (listenerErrors q 0 r.1 r.2).map (callOf q) := by
  obtain ⟨s, h1, h2⟩ := sim_first hm q
  have h3 := exec_sim (A := A) (prog := prog) hm n [] (prog .query) s _ h2
  unfold callP callE
  rw [h1]
  simp only
  revert h3
  cases execP lexerAtn m q A prog n [] (prog .query) s with
  | none =>
    cases execE A (eofTok q) prog n [] (prog .query) (EState.new (tokenStream q)) with
    | timeout e' => intro _; rfl
    | ok e' => intro h; exact h.elim
    | raised f e' => intro h; exact h.elim
  | some o =>
    cases o with
    | ok f s' =>
      cases execE A (eofTok q) prog n [] (prog .query) (EState.new (tokenStream q)) with
      | timeout e' => intro h; exact h.elim
      | ok e' =>
        intro h
        have h : Sim1 q s' e' := h
        simp only [Option.map_some]
        rw [h.sim.calls]
      | raised f e' => intro h; exact h.elim
    | raised f s' =>
      cases execE A (eofTok q) prog n [] (prog .query) (EState.new (tokenStream q)) with
      | timeout e' => intro h; exact h.elim
      | ok e' => intro h; exact h.elim
      | raised f' e' =>
        rintro ⟨rfl, h⟩
        obtain ⟨s2, k1, k2⟩ := h.caught (A := A) hm [] f
        simp only
        rw [k1]
        simp only [Option.map_some]
        rw [k2.sim.calls]

/-- **The children, when there is no error.** -/
theorem callP_forest (hm : 28 ≤ m) (n : Nat) (q : PyStr) (f : List PTree) (ts : List Tok)
    (h : exec A.simulator.predictor prog n [] (prog .query) (tokenStream q) = .ok f ts) :
    (callP lexerAtn m q A prog n .query).map Prod.fst = some f := by
  obtain ⟨s, h1, h2⟩ := sim_first hm q
  obtain ⟨s', e', h3, -⟩ := exec_forest (A := A) (prog := prog) hm n [] (prog .query) s _ f ts h2 rfl h
  unfold callP
  rw [h1]
  simp only
  rw [h3]
  rfl

end Fcsql
