/-
The rule functions with exceptions from outside: what the listener has been told by then is the beginning of what it would have
been told.
-/
import Verif.Model.Faults

set_option autoImplicit false
set_option linter.unusedSimpArgs false

namespace Fcsql

section
variable {L A : Atn} {m : Nat} {q : PyStr}

/-! ### Calls on the listener are only added -/

theorem report_grows (t : RawTok) (msg : PyStr) (s : PState) : s.calls <+: (s.report t msg).calls := by
  unfold PState.report
  split
  · exact List.prefix_rfl
  · exact List.prefix_append ..

theorem fetch_grows {s s' : PState} (h : s.fetch L m q = some s') : s.calls <+: s'.calls := by
  unfold PState.fetch at h
  split at h
  · cases h; exact List.prefix_rfl
  · split at h
    · cases h
    · cases h; exact List.prefix_append ..

theorem fetchN_grows : ∀ (n : Nat) {s s' : PState}, s.fetchN L m q n = some s' → s.calls <+: s'.calls
  | 0, s, s', h => by cases h; exact List.prefix_rfl
  | n + 1, s, s', h => by
    rw [PState.fetchN] at h
    split at h
    · cases h
    · rename_i h1
      exact (fetch_grows h1).trans (fetchN_grows n h)

theorem look_grows {k : Nat} {s s' : PState} (h : s.look L m q k = some s') : s.calls <+: s'.calls := fetchN_grows _ h

theorem advance_calls (s : PState) : s.advance.calls = s.calls := by
  unfold PState.advance
  split <;> rfl

theorem consume_grows {s s' : PState} (h : s.consume L m q = some s') : s.calls <+: s'.calls := by
  unfold PState.consume at h
  split at h
  · cases h; exact List.prefix_rfl
  · rw [← advance_calls s]; exact look_grows h

theorem matched_grows {s s' : PState} (h : s.matched L m q = some s') : s.calls <+: s'.calls := by
  unfold PState.matched at h
  rw [← advance_calls s]
  exact look_grows (s := s.advance.endError) h

theorem until_grows {set : Int → Bool} : ∀ (n : Nat) {s s' : PState}, s.until L m q set n = some s' → s.calls <+: s'.calls
  | 0, s, s', h => by cases h
  | n + 1, s, s', h => by
    rw [PState.until] at h
    split at h
    · cases h; exact List.prefix_rfl
    · split at h
      · cases h
      · rename_i h1
        exact (consume_grows h1).trans (until_grows n h)

theorem fullP_grows : ∀ (n : Nat) {S : AConfigSet} {k : Nat} {s : PState} {r : (Option Nat × Nat) × PState},
    fullP L m q A n S k s = some r → s.calls <+: r.2.calls
  | 0, S, k, s, r, h => by cases h
  | n + 1, S, k, s, r, h => by
    rw [fullP] at h
    split at h
    · cases h
    · rename_i s1 h1
      refine (look_grows h1).trans ?_
      split at h
      · cases h; exact List.prefix_rfl
      · simp only at h
        split at h
        · cases h; exact List.prefix_rfl
        · split at h
          · cases h; exact List.prefix_rfl
          · split at h
            · cases h; exact List.prefix_rfl
            · exact fullP_grows n h

theorem walkP_grows {d : Nat} {ctx : List Nat} : ∀ (n : Nat) {S : AConfigSet} {k : Nat} {s : PState} {r : (Option Nat × Nat) × PState},
    walkP L m q A d ctx n S k s = some r → s.calls <+: r.2.calls
  | 0, S, k, s, r, h => by cases h
  | n + 1, S, k, s, r, h => by
    rw [walkP] at h
    split at h
    · cases h
    · rename_i s1 h1
      refine (look_grows h1).trans ?_
      split at h
      · exact fullP_grows _ h
      · simp only at h
        split at h
        · cases h; exact List.prefix_rfl
        · cases h; exact List.prefix_rfl
        · exact fullP_grows _ h
        · exact walkP_grows n h

theorem predictP_grows {d : Nat} {ctx : List Nat} {s : PState} {r : (Option Nat × Nat) × PState}
    (h : predictP L m q A d ctx s = some r) : s.calls <+: r.2.calls := walkP_grows _ h

theorem failure_grows {ctx : List Nat} {f : Failure} {s s' : PState} (h : reportFailureP L m q A ctx f s = some s') : s.calls <+: s'.calls := by
  unfold reportFailureP at h
  split at h
  · cases h; exact List.prefix_rfl
  · split at h
    · split at h
      · cases h
      · rename_i h1
        cases h
        exact (fetchN_grows _ h1).trans (report_grows ..)
    · cases h; exact report_grows ..

theorem recover_grows {ctx : List Nat} {s s' : PState} (h : recoverP L m q A ctx s = some s') : s.calls <+: s'.calls := by
  unfold recoverP at h
  split at h
  · cases h
  · rename_i s1 h1
    have h2 := until_grows _ h
    refine List.IsPrefix.trans ?_ h2
    split at h1
    · exact (consume_grows h1 : s.calls <+: s1.calls)
    · cases h1; exact List.prefix_rfl

theorem caught_grows {ctx : List Nat} {f : Failure} {s s' : PState} (h : caughtP L m q A ctx f s = some s') : s.calls <+: s'.calls := by
  unfold caughtP at h
  split at h
  · cases h
  · rename_i h1
    exact (failure_grows h1).trans (recover_grows h)

theorem sync_grows {ctx : List Nat} {s : PState} {e : PStep} (h : syncP L m q A ctx s = some e) : s.calls <+: e.heard := by
  unfold syncP at h
  split at h
  · cases h; exact List.prefix_rfl
  · simp only at h
    split at h
    · cases h; exact List.prefix_rfl
    · split at h
      · split at h
        · cases h
        · rename_i s1 h1
          refine (look_grows h1).trans ?_
          split at h
          · split at h
            · cases h
            · rename_i s2 h2
              cases h
              exact (report_grows _ _ s1).trans (consume_grows h2 : _ <+: s2.calls)
          · cases h; exact List.prefix_rfl
      · split at h
        · split at h
          · cases h
          · rename_i h2
            cases h
            exact (report_grows ..).trans (until_grows _ h2)
        · cases h; exact List.prefix_rfl

theorem inline_grows {ctx : List Nat} {s : PState} {e : PStep} (h : inlineP L m q A ctx s = some e) : s.calls <+: e.heard := by
  unfold inlineP at h
  split at h
  · cases h
  · rename_i s1 h1
    refine (look_grows h1).trans ?_
    split at h
    · split at h
      · cases h
      · rename_i h2
        refine ((report_grows ..).trans (consume_grows h2)).trans ?_
        split at h
        · cases h
        · rename_i h3
          cases h
          exact matched_grows h3
    · split at h
      · cases h; exact report_grows ..
      · cases h; exact List.prefix_rfl

theorem match_grows {ctx : List Nat} {ok : Int → Bool} {s : PState} {e : PStep} (h : matchP L m q A ctx ok s = some e) : s.calls <+: e.heard := by
  unfold matchP at h
  split at h
  · exact inline_grows h
  · split at h
    · split at h
      · cases h
      · rename_i h1
        cases h
        exact matched_grows h1
    · exact inline_grows h

/-- The listener's calls at the end. -/
def POut.heard : POut → List ListenerCall
  | .ok _ s => s.calls
  | .raised _ s => s.calls

theorem prepend_calls (f : List PTree) (o : POut) : (o.prepend f).heard = o.heard := by cases o <;> rfl

variable {prog : Rule → List Stmt}

theorem exec_grows : ∀ (n : Nat) (ctx : List Nat) (ss : List Stmt) (s : PState) (o : POut),
    execP L m q A prog n ctx ss s = some o → s.calls <+: o.heard := by
  intro n
  induction n with
  | zero => intro ctx ss s o h; rw [execP] at h; cases h
  | succ n ih =>
    intro ctx ss s o h
    have hthen : ∀ (x : Option PStep) (ss : List Stmt) (s0 : PState), (∀ e, x = some e → s0.calls <+: e.heard) →
        (x.bind fun e => e.andThen (execP L m q A prog n ctx ss)) = some o → s0.calls <+: o.heard := by
      intro x ss s0 hg h
      cases x with
      | none => cases h
      | some e =>
        refine (hg e rfl).trans ?_
        cases e with
        | stop f s => cases h; exact List.prefix_rfl
        | go f s =>
          simp only [Option.bind_some, PStep.andThen, Option.map_eq_some_iff] at h
          obtain ⟨a, h1, rfl⟩ := h
          rw [prepend_calls]
          exact ih _ _ _ _ h1
    cases ss with
    | nil => rw [execP] at h; cases h; exact List.prefix_rfl
    | cons c ss =>
      cases c with
      | sync st => rw [execP] at h; exact hthen _ _ (s.at st) (fun _ => sync_grows) h
      | matchTok st k => rw [execP] at h; exact hthen _ _ (s.at st) (fun _ => match_grows) h
      | matchSet st t => rw [execP] at h; exact hthen _ _ (s.at st) (fun _ => match_grows) h
      | call st r =>
        rw [execP] at h
        cases hin : execP L m q A prog n (st :: ctx) (prog r) (s.at st) with
        | none => rw [hin] at h; cases h
        | some o' =>
          rw [hin] at h
          refine (ih _ _ _ _ hin : (s.at st).calls <+: _).trans ?_
          cases o' with
          | ok f s' =>
            simp only [Option.map_eq_some_iff] at h
            obtain ⟨a, h1, rfl⟩ := h
            rw [prepend_calls]
            exact (ih _ _ _ _ h1 : (s'.at st).calls <+: _)
          | raised f s' =>
            simp only at h
            cases hc : caughtP L m q A (st :: ctx) f s' with
            | none => rw [hc] at h; cases h
            | some s2 =>
              rw [hc] at h
              simp only [Option.map_eq_some_iff] at h
              obtain ⟨a, h1, rfl⟩ := h
              rw [prepend_calls]
              exact (caught_grows hc).trans (ih _ _ _ _ h1 : (s2.at st).calls <+: _)
      | predict d bs =>
        rw [execP] at h
        cases hl : predictP L m q A d ctx s with
        | none => rw [hl] at h; cases h
        | some r =>
          refine (predictP_grows hl).trans ?_
          obtain ⟨⟨a, k⟩, s1⟩ := r
          rw [hl] at h
          cases a with
          | none => cases h; exact List.prefix_rfl
          | some a => exact ih _ _ _ _ h
      | switchLA cs =>
        rw [execP] at h
        cases hp : switchCase (la (s.toks q)) cs with
        | none => rw [hp] at h; cases h; exact List.prefix_rfl
        | some b => rw [hp] at h; exact ih _ _ _ _ h
      | ifLA t b => rw [execP] at h; exact ih _ _ _ _ h
      | whileLA b st t => rw [execP] at h; exact ih _ _ _ _ h
      | whilePredict b st d => rw [execP] at h; exact ih _ _ _ _ h
      | loopPredict b st d =>
        rw [execP] at h
        cases hl : predictP L m q A d ctx s with
        | none => rw [hl] at h; cases h
        | some r =>
          refine (predictP_grows hl).trans ?_
          obtain ⟨⟨a, k⟩, s1⟩ := r
          rw [hl] at h
          cases a with
          | none => cases h; exact List.prefix_rfl
          | some a =>
            simp only at h
            split at h
            · exact ih _ _ _ _ h
            · split at h
              · exact ih _ _ _ _ h
              · cases h; exact List.prefix_rfl

/-! ### More steps change nothing -/

variable {O : Strikes}

theorem during_mono {α : Type} {t : Nat} {ctx : List Nat} {b : List ListenerCall} {r : Option α} {calls : α → List ListenerCall}
    {f g : α → Option FOut} {o : FOut} (h : during O t ctx b r calls f = some o) (hfg : ∀ a, r = some a → f a = some o → g a = some o) :
    during O t ctx b r calls g = some o := by
  unfold during at h ⊢
  cases r with
  | none => cases h
  | some a =>
    simp only at h ⊢
    cases hO : O t ctx with
    | some x => rw [hO] at h; exact h
    | none => rw [hO] at h; exact hfg a rfl h

theorem execF_succ : ∀ (n : Nat) (ctx : List Nat) (ss : List Stmt) (s : PState) (t : Nat) (o : FOut),
    execF L m q A O prog n ctx ss s t = some o → execF L m q A O prog (n + 1) ctx ss s t = some o := by
  intro n
  induction n with
  | zero => intro ctx ss s t o h; rw [execF] at h; cases h
  | succ n ih =>
    intro ctx ss s t o h
    have hthen : ∀ (e : PStep) (ss : List Stmt) (t : Nat), e.andThenF t (execF L m q A O prog n ctx ss) = some o →
        e.andThenF t (execF L m q A O prog (n + 1) ctx ss) = some o := by
      intro e ss t h
      cases e with
      | stop f s => exact h
      | go f s =>
        simp only [PStep.andThenF, Option.map_eq_some_iff] at h ⊢
        obtain ⟨a, h1, h2⟩ := h
        exact ⟨a, ih _ _ _ _ _ h1, h2⟩
    cases ss with
    | nil => rw [execF] at h ⊢; exact h
    | cons c ss =>
      cases c with
      | sync st => rw [execF] at h ⊢; exact during_mono h fun _ _ => hthen _ _ _
      | matchTok st k => rw [execF] at h ⊢; exact during_mono h fun _ _ => hthen _ _ _
      | matchSet st t => rw [execF] at h ⊢; exact during_mono h fun _ _ => hthen _ _ _
      | call st r =>
        rw [execF] at h ⊢
        refine during_mono h fun s0 _ h => ?_
        cases hin : execF L m q A O prog n (st :: ctx) (prog r) s0 (t + 1) with
        | none => rw [hin] at h; cases h
        | some o' =>
          rw [hin] at h
          rw [ih _ _ _ _ _ hin]
          cases o' with
          | struck k cs => exact h
          | ok f s' t' =>
            simp only [Option.map_eq_some_iff] at h ⊢
            obtain ⟨a, h1, h2⟩ := h
            exact ⟨a, ih _ _ _ _ _ h1, h2⟩
          | raised f s' t' =>
            refine during_mono h fun s2 _ h => ?_
            simp only [Option.map_eq_some_iff] at h ⊢
            obtain ⟨a, h1, h2⟩ := h
            exact ⟨a, ih _ _ _ _ _ h1, h2⟩
      | predict d bs =>
        rw [execF] at h ⊢
        refine during_mono h fun r _ h => ?_
        obtain ⟨⟨a, k⟩, s1⟩ := r
        cases a with
        | none => exact h
        | some a => exact ih _ _ _ _ _ h
      | switchLA cs =>
        rw [execF] at h ⊢
        refine during_mono h fun s _ h => ?_
        cases hp : switchCase (la (s.toks q)) cs with
        | none => rw [hp] at h; exact h
        | some b => rw [hp] at h; exact ih _ _ _ _ _ h
      | ifLA b body => rw [execF] at h ⊢; exact during_mono h fun s _ h => ih _ _ _ _ _ h
      | whileLA b st c => rw [execF] at h ⊢; exact during_mono h fun s _ h => ih _ _ _ _ _ h
      | whilePredict b st d => rw [execF] at h ⊢; exact during_mono h fun s _ h => ih _ _ _ _ _ h
      | loopPredict b st d =>
        rw [execF] at h ⊢
        refine during_mono h fun r _ h => ?_
        obtain ⟨⟨a, k⟩, s1⟩ := r
        cases a with
        | none => exact h
        | some a =>
          simp only at h ⊢
          split at h
          · rw [if_pos ‹_›]; exact ih _ _ _ _ _ h
          · rw [if_neg ‹_›]
            split at h
            · rw [if_pos ‹_›]; exact ih _ _ _ _ _ h
            · rw [if_neg ‹_›]; exact h

theorem execF_mono {n k : Nat} (hk : n ≤ k) {ctx : List Nat} {ss : List Stmt} {s : PState} {t : Nat} {o : FOut}
    (h : execF L m q A O prog n ctx ss s t = some o) : execF L m q A O prog k ctx ss s t = some o := by
  induction hk with
  | refl => exact h
  | step _ ih => exact execF_succ _ _ _ _ _ _ ih

theorem callF_mono {n k : Nat} (hk : n ≤ k) {r : Rule} {o : Except Strike (List PTree) × List ListenerCall}
    (h : callF L m q A O prog n r = some o) : callF L m q A O prog k r = some o := by
  unfold callF at h ⊢
  generalize hd : during O 0 [] [] (PState.new.look L m q 0) PState.calls (fun s =>
    match execF L m q A O prog n [] (prog r) s 1 with
    | none => none
    | some (.struck k cs) => some (.struck k cs)
    | some (.ok f s t) => some (.ok f s t)
    | some (.raised f s t) =>
      during O t [] s.calls (caughtP L m q A [] f s) PState.calls fun s => some (.ok [] s (t + 1))) = x at h
  cases x with
  | none => cases h
  | some x =>
    rw [during_mono hd]
    · exact h
    · intro s _ h
      cases hx : execF L m q A O prog n [] (prog r) s 1 with
      | none => rw [hx] at h; cases h
      | some o => rw [hx] at h; rw [execF_mono hk hx]; exact h

/-! ### The same, or struck -/

/-- A run with exceptions from outside ends as without, or is struck when the listener has been told a first part. -/
def FSame (O : Strikes) (o : POut) : Option FOut → Prop
  | some (.ok f s _) => o = .ok f s
  | some (.raised f s _) => o = .raised f s
  | some (.struck k cs) => cs <+: o.heard ∧ ∃ t ctx j, O t ctx = some (k, j)
  | none => False

theorem FSame.prepend {o : POut} {r : Option FOut} (h : FSame O o r) (f : List PTree) : FSame O (o.prepend f) (r.map (.prepend f)) := by
  cases r with
  | none => exact h
  | some r =>
    cases r with
    | ok f' s t => cases h; rfl
    | raised f' s t => cases h; rfl
    | struck k cs => exact ⟨(prepend_calls f o).symm ▸ h.1, h.2⟩

theorem fsame_during {α : Type} {t : Nat} {ctx : List Nat} {b : List ListenerCall} {r : Option α} {calls : α → List ListenerCall}
    {f : α → Option FOut} {o : POut} {a : α} (hr : r = some a) (hc : calls a <+: o.heard) (hf : FSame O o (f a)) :
    FSame O o (during O t ctx b r calls f) := by
  subst hr
  unfold during
  simp only
  cases hO : O t ctx with
  | some x => exact ⟨(List.take_prefix ..).trans hc, t, ctx, x.2, hO⟩
  | none => exact hf

theorem execF_same : ∀ (n : Nat) (ctx : List Nat) (ss : List Stmt) (s : PState) (t : Nat) (o : POut),
    execP L m q A prog n ctx ss s = some o → FSame O o (execF L m q A O prog n ctx ss s t) := by
  intro n
  induction n with
  | zero => intro ctx ss s t o h; rw [execP] at h; cases h
  | succ n ih =>
    intro ctx ss s t o h
    have hthen : ∀ (x : Option PStep) (b : List ListenerCall) (ss : List Stmt),
        (x.bind fun e => e.andThen (execP L m q A prog n ctx ss)) = some o →
        FSame O o (during O t ctx b x PStep.heard fun e => e.andThenF (t + 1) (execF L m q A O prog n ctx ss)) := by
      intro x b ss h
      cases x with
      | none => cases h
      | some e =>
        cases e with
        | stop f s => cases h; exact fsame_during rfl List.prefix_rfl rfl
        | go f s =>
          simp only [Option.bind_some, PStep.andThen, Option.map_eq_some_iff] at h
          obtain ⟨a, h1, rfl⟩ := h
          refine fsame_during rfl ?_ ((ih _ _ _ _ _ h1).prepend f)
          rw [prepend_calls]
          exact exec_grows _ _ _ _ _ h1
    have hgo : ∀ (b : List ListenerCall) (ss : List Stmt) (f : PState → Option FOut), execP L m q A prog n ctx ss s = some o →
        f s = execF L m q A O prog n ctx ss s (t + 1) → FSame O o (during O t ctx b (some s) PState.calls f) :=
      fun b ss f h hf => fsame_during rfl (exec_grows _ _ _ _ _ h) (hf ▸ ih _ _ _ _ _ h)
    cases ss with
    | nil => rw [execP] at h; rw [execF]; cases h; exact fsame_during rfl List.prefix_rfl rfl
    | cons c ss =>
      cases c with
      | sync st => rw [execP] at h; rw [execF]; exact hthen _ _ _ h
      | matchTok st k => rw [execP] at h; rw [execF]; exact hthen _ _ _ h
      | matchSet st b => rw [execP] at h; rw [execF]; exact hthen _ _ _ h
      | call st r =>
        have hall : (s.at st).calls <+: o.heard := exec_grows (n + 1) ctx (.call st r :: ss) s o h
        rw [execP] at h
        rw [execF]
        refine fsame_during rfl hall ?_
        cases hin : execP L m q A prog n (st :: ctx) (prog r) (s.at st) with
        | none => rw [hin] at h; cases h
        | some o' =>
          have h2 := ih _ _ _ (t + 1) _ hin
          rw [hin] at h
          have hrest : o'.heard <+: o.heard := by
            cases o' with
            | ok f s' =>
              simp only [Option.map_eq_some_iff] at h
              obtain ⟨a, h1, rfl⟩ := h
              rw [prepend_calls]
              exact (exec_grows _ _ _ _ _ h1 : (s'.at st).calls <+: _)
            | raised f s' =>
              simp only at h
              cases hc : caughtP L m q A (st :: ctx) f s' with
              | none => rw [hc] at h; cases h
              | some s2 =>
                rw [hc] at h
                simp only [Option.map_eq_some_iff] at h
                obtain ⟨a, h1, rfl⟩ := h
                rw [prepend_calls]
                exact (caught_grows hc).trans (exec_grows _ _ _ _ _ h1 : (s2.at st).calls <+: _)
          cases hx : execF L m q A O prog n (st :: ctx) (prog r) (s.at st) (t + 1) with
          | none => rw [hx] at h2; exact h2.elim
          | some x =>
            rw [hx] at h2
            cases x with
            | struck k cs => exact ⟨h2.1.trans hrest, h2.2⟩
            | ok f s' t' =>
              cases h2
              simp only [Option.map_eq_some_iff] at h
              obtain ⟨a, h1, rfl⟩ := h
              exact (ih _ _ _ _ _ h1).prepend _
            | raised f s' t' =>
              cases h2
              simp only at h ⊢
              cases hc : caughtP L m q A (st :: ctx) f s' with
              | none => rw [hc] at h; cases h
              | some s2 =>
                rw [hc] at h
                simp only [Option.map_eq_some_iff] at h
                obtain ⟨a, h1, rfl⟩ := h
                refine fsame_during rfl ?_ ((ih _ _ _ _ _ h1).prepend _)
                rw [prepend_calls]
                exact (exec_grows _ _ _ _ _ h1 : (s2.at st).calls <+: _)
      | predict d bs =>
        rw [execP] at h
        rw [execF]
        cases hl : predictP L m q A d ctx s with
        | none => rw [hl] at h; cases h
        | some r =>
          obtain ⟨⟨a, k⟩, s1⟩ := r
          rw [hl] at h
          cases a with
          | none => cases h; exact fsame_during rfl List.prefix_rfl rfl
          | some a => exact fsame_during rfl (exec_grows _ _ _ _ _ h) (ih _ _ _ _ _ h)
      | switchLA cs =>
        rw [execP] at h
        rw [execF]
        cases hp : switchCase (la (s.toks q)) cs with
        | none =>
          rw [hp] at h
          cases h
          refine fsame_during rfl List.prefix_rfl ?_
          simp only [hp]
          rfl
        | some b =>
          rw [hp] at h
          refine hgo _ _ _ h ?_
          simp only [hp]
      | ifLA b body => rw [execP] at h; rw [execF]; exact hgo _ _ _ h rfl
      | whileLA b st c => rw [execP] at h; rw [execF]; exact hgo _ _ _ h rfl
      | whilePredict b st d => rw [execP] at h; rw [execF]; exact hgo _ _ _ h rfl
      | loopPredict b st d =>
        rw [execP] at h
        rw [execF]
        cases hl : predictP L m q A d ctx s with
        | none => rw [hl] at h; cases h
        | some r =>
          obtain ⟨⟨a, k⟩, s1⟩ := r
          rw [hl] at h
          cases a with
          | none => cases h; exact fsame_during rfl List.prefix_rfl rfl
          | some a =>
            simp only at h
            by_cases h1 : a = 2 ∨ a = 0
            · rw [if_pos h1] at h
              refine fsame_during rfl (exec_grows _ _ _ _ _ h) ?_
              simp only [if_pos h1]
              exact ih _ _ _ _ _ h
            · rw [if_neg h1] at h
              by_cases h2 : a = 1
              · rw [if_pos h2] at h
                refine fsame_during rfl (exec_grows _ _ _ _ _ h) ?_
                simp only [if_neg h1, if_pos h2]
                exact ih _ _ _ _ _ h
              · rw [if_neg h2] at h
                cases h
                refine fsame_during rfl List.prefix_rfl ?_
                simp only [if_neg h1, if_neg h2]
                rfl

/-- A call of a rule function: as without exceptions from outside, or struck when the listener has been told a first part. -/
theorem callF_same {n : Nat} {r : Rule} {f : List PTree} {calls : List ListenerCall} (h : callP L m q A prog n r = some (f, calls)) :
    callF L m q A O prog n r = some (.ok f, calls) ∨
      ∃ k cs, callF L m q A O prog n r = some (.error k, cs) ∧ cs <+: calls ∧ ∃ t ctx j, O t ctx = some (k, j) := by
  unfold callP at h
  unfold callF
  cases hl : PState.new.look L m q 0 with
  | none => rw [hl] at h; cases h
  | some s =>
    rw [hl] at h
    simp only at h
    cases hx : execP L m q A prog n [] (prog r) s with
    | none => rw [hx] at h; cases h
    | some o =>
      rw [hx] at h
      have h2 := execF_same (O := O) _ _ _ _ 1 _ hx
      have hg : s.calls <+: o.heard := exec_grows _ _ _ _ _ hx
      have ho : o.heard <+: calls := by
        cases o with
        | ok f s' => cases h; exact List.prefix_rfl
        | raised f s' =>
          simp only at h
          cases hc : caughtP L m q A [] f s' with
          | none => rw [hc] at h; cases h
          | some s2 => rw [hc] at h; cases h; exact caught_grows hc
      simp only [during]
      cases hO : O 0 [] with
      | some x => exact .inr ⟨x.1, _, rfl, (List.take_prefix ..).trans (hg.trans ho), 0, [], x.2, hO⟩
      | none =>
        simp only
        cases hy : execF L m q A O prog n [] (prog r) s 1 with
        | none => rw [hy] at h2; exact h2.elim
        | some y =>
          rw [hy] at h2
          cases y with
          | struck k cs => exact .inr ⟨k, cs, rfl, h2.1.trans ho, h2.2⟩
          | ok f' s' t' => cases h2; cases h; exact .inl rfl
          | raised f' s' t' =>
            cases h2
            simp only at h ⊢
            cases hc : caughtP L m q A [] f' s' with
            | none => rw [hc] at h; cases h
            | some s2 =>
              rw [hc] at h
              cases h
              simp only
              cases hO' : O t' [] with
              | some x => exact .inr ⟨x.1, _, rfl, List.take_prefix .., t', [], x.2, hO'⟩
              | none => exact .inl rfl

end

end Fcsql
