/-
How many calls of rule functions are pending, for queries of the language: exactly the height of the parse tree.
-/
import Verif.Proofs.Pending
import Verif.Proofs.Recursion

set_option autoImplicit false
set_option linter.unusedSimpArgs false

namespace Fcsql

attribute [local irreducible] parserAtn parseQuery lexerAtn lexPieces

variable {room m : Nat} {q : PyStr} {O : Strikes} {A : Atn} {prog : Rule → List Stmt}

/-- There is room for the tree: nothing arrives. -/
theorem forestF (hm : 28 ≤ m) (hO : ∀ t ctx, ctx.length ≤ room → O t ctx = none) :
    ∀ (n : Nat) (ctx : List Nat) (ss : List Stmt) (s : PState) (e : EState) (f : List PTree) (ts : List Tok) (t : Nat),
    Sim1 q s e → e.recovering = false → exec A.simulator.predictor prog n ctx ss e.rest = .ok f ts → ctx.length + PTree.heightL f ≤ room →
    ∃ s' e' t', execF lexerAtn m q A O prog n ctx ss s t = some (.ok f s' t') ∧ Sim1 q s' e' ∧ e'.rest = ts ∧ e'.recovering = false := by
  intro n
  induction n with
  | zero => intro ctx ss s e f ts t _ _ hx; rw [exec] at hx; cases hx
  | succ n ih =>
    intro ctx ss s e f ts t h hr hx hh
    have hun : e.rest.length ≤ q.length + 1 := by have := h.sim.rest_length; omega
    have hq : O t ctx = none := hO t ctx (by omega)
    have hok : ∀ (st : Nat) (ok : Int → Bool) (ss : List Stmt) (x : Tok) (xs : List Tok), e.rest = x :: xs → ok x.type.num = true →
        (exec A.simulator.predictor prog n ctx ss xs).prepend [.leaf x] = .ok f ts →
        ∃ s' e' t', during O t ctx s.calls (matchP lexerAtn m q A ctx ok (s.at st)) PStep.heard
            (fun r => r.andThenF (t + 1) (execF lexerAtn m q A O prog n ctx ss)) = some (.ok f s' t') ∧
          Sim1 q s' e' ∧ e'.rest = ts ∧ e'.recovering = false := by
      intro st ok ss x xs hrest hok hres
      obtain ⟨r, h1, h2, h3⟩ := simP_match (A := A) hm (h.at st) ctx ok
      obtain ⟨s1, rfl⟩ := h3 x xs hrest hok
      have hE : matchE A (eofTok q) ctx ok (e.at st) = .go ((e.at st).matched xs) := by
        unfold matchE
        rw [show (e.at st).rest = x :: xs from hrest]
        simp only [hok, if_true]
      rw [hE] at h2
      have h2 : Sim1 q s1 ((e.at st).matched xs) := h2
      obtain ⟨f', hc, rfl⟩ := Res.prepend_ok_inv hres
      rw [heightL_append] at hh
      obtain ⟨s2, e2, t2, k1, k2, k3, k4⟩ := ih ctx ss s1 ((e.at st).matched xs) f' ts (t + 1) h2 rfl hc (by omega)
      refine ⟨s2, e2, t2, ?_, k2, k3, k4⟩
      rw [h1, during_quiet hq]
      simp only [PStep.andThenF, k1, Option.map_some, FOut.prepend]
    cases ss with
    | nil =>
      rw [exec] at hx
      cases hx
      exact ⟨s, e, t + 1, by rw [execF, during_quiet hq], h, rfl, hr⟩
    | cons c ss =>
      cases c with
      | sync st =>
        rw [exec] at hx
        split at hx
        · rename_i hs
          obtain ⟨s1, e1, t1, k1, k2, k3, k4⟩ := ih ctx ss (s.at st) (e.at st) f ts (t + 1) (h.at st) hr hx hh
          refine ⟨s1, e1, t1, ?_, k2, k3, k4⟩
          rw [execF]
          have : syncP lexerAtn m q A ctx (s.at st) = some (.go [] (s.at st)) := by
            unfold syncP
            rw [(h.at st).sim.recovering, show (e.at st).recovering = false from hr, (h.at st).la, (h.at st).sim.state]
            have hs' : A.syncOk st e.rest = true := hs
            rw [syncOk_eq] at hs'
            simp only [Bool.false_eq_true, if_false]
            exact if_pos hs'
          rw [this, during_quiet hq]
          simp only [PStep.andThenF, k1, Option.map_some, FOut.prepend, List.nil_append]
        · cases hx
      | matchTok st k =>
        cases hrest : e.rest with
        | nil => rw [hrest, exec] at hx; cases hx
        | cons x xs =>
          rw [hrest, exec] at hx
          split at hx
          · rename_i hk
            rw [execF]
            exact hok st (fun j => j = k) ss x xs hrest (by simp [hk]) hx
          · cases hx
      | matchSet st b =>
        cases hrest : e.rest with
        | nil => rw [hrest, exec] at hx; cases hx
        | cons x xs =>
          rw [hrest, exec] at hx
          split at hx
          · rename_i hk
            rw [execF]
            exact hok st b.eval ss x xs hrest hk hx
          · cases hx
      | call st r =>
        rw [exec] at hx
        cases hin : exec A.simulator.predictor prog n (st :: ctx) (prog r) e.rest with
        | error => rw [hin] at hx; cases hx
        | timeout => rw [hin] at hx; cases hx
        | ok f1 ts1 =>
          rw [hin] at hx
          simp only at hx
          obtain ⟨f2, hc, rfl⟩ := Res.prepend_ok_inv hx
          simp only [heightL_append, PTree.heightL, PTree.height] at hh
          have hl : (st :: ctx).length + PTree.heightL f1 ≤ room := by simp only [List.length_cons]; omega
          obtain ⟨s1, e1, t1, k1, k2, k3, k4⟩ := ih (st :: ctx) (prog r) (s.at st) (e.at st) f1 ts1 (t + 1) (h.at st) hr hin hl
          obtain ⟨s2, e2, t2, j1, j2, j3, j4⟩ := ih ctx ss (s1.at st) (e1.at st) f2 ts t1 (k2.at st) k4
            (by rw [show (e1.at st).rest = ts1 from k3]; exact hc) (by omega)
          refine ⟨s2, e2, t2, ?_, j2, j3, j4⟩
          rw [execF, during_quiet (hO t (st :: ctx) (by omega)), k1]
          simp only [j1, Option.map_some, FOut.prepend]
      | predict d bs =>
        rw [exec] at hx
        rw [execF]
        obtain ⟨k, s1, h1, h2, h4⟩ := h.predict (A := A) hm d ctx hun
        rw [h1, during_quiet hq]
        cases hp : A.simulator.predictor.predict d ctx e.rest with
        | none => rw [hp] at hx; cases hx
        | some a => rw [hp] at hx; exact ih ctx _ _ _ _ _ _ h2 hr hx hh
      | switchLA cs =>
        rw [exec] at hx
        rw [execF, during_quiet hq, h.la]
        cases hp : switchCase (la e.rest) cs with
        | none => rw [hp] at hx; cases hx
        | some b => rw [hp] at hx; exact ih ctx _ _ _ _ _ _ h hr hx hh
      | ifLA b body => rw [exec] at hx; rw [execF, during_quiet hq, h.la]; exact ih ctx _ _ _ _ _ _ h hr hx hh
      | whileLA b st c => rw [exec] at hx; rw [execF, during_quiet hq]; exact ih ctx _ _ _ _ _ _ h hr hx hh
      | whilePredict b st d => rw [exec] at hx; rw [execF, during_quiet hq]; exact ih ctx _ _ _ _ _ _ h hr hx hh
      | loopPredict b st d =>
        rw [exec] at hx
        rw [execF]
        obtain ⟨k, s1, h1, h2, h4⟩ := h.predict (A := A) hm d ctx hun
        rw [h1, during_quiet hq]
        cases hp : A.simulator.predictor.predict d ctx e.rest with
        | none => rw [hp] at hx; cases hx
        | some a =>
          rw [hp] at hx
          simp only at hx ⊢
          split at hx
          · rw [if_pos ‹_›]; exact ih ctx _ _ _ _ _ _ h2 hr hx hh
          · rw [if_neg ‹_›]
            split at hx
            · rw [if_pos ‹_›]; exact ih ctx _ _ _ _ _ _ h2 hr hx hh
            · cases hx

theorem during_some {α : Type} {t : Nat} {ctx : List Nat} {b : List ListenerCall} {r : Option α} {calls : α → List ListenerCall}
    {next : α → Option FOut} {f : List PTree} {s : PState} {t' : Nat}
    (h : during (recursionLimit room) t ctx b r calls next = some (.ok f s t')) :
    ∃ a, r = some a ∧ ctx.length ≤ room ∧ next a = some (.ok f s t') := by
  unfold during at h
  cases r with
  | none => cases h
  | some a =>
    simp only [recursionLimit] at h
    by_cases hc : room < ctx.length
    · rw [if_pos hc] at h; cases h
    · rw [if_neg hc] at h; exact ⟨a, rfl, by omega, h⟩

theorem FOut.prepend_ok {o : Option FOut} {f f' : List PTree} {s : PState} {t : Nat} (h : o.map (FOut.prepend f) = some (.ok f' s t)) :
    ∃ g, o = some (.ok g s t) ∧ f' = f ++ g := by
  cases o with
  | none => cases h
  | some o =>
    cases o with
    | ok g s' t' => simp only [Option.map_some, FOut.prepend, Option.some.injEq, FOut.ok.injEq] at h; obtain ⟨rfl, rfl, rfl⟩ := h; exact ⟨g, rfl, rfl⟩
    | raised k s' t' => cases h
    | struck k cs => cases h

/-- The statements of one call add only leaves. -/
theorem inline_flat {L : Atn} {ctx : List Nat} {s s' : PState} {f : List PTree} (h : inlineP L m q A ctx s = some (.go f s')) :
    PTree.heightL f = 0 := by
  unfold inlineP at h
  split at h
  · cases h
  · split at h
    · split at h
      · cases h
      · split at h
        · cases h
        · simp only [Option.some.injEq, PStep.go.injEq] at h; rw [← h.1]; rfl
    · split at h
      · simp only [Option.some.injEq, PStep.go.injEq] at h; rw [← h.1]; rfl
      · cases h

theorem match_flat {L : Atn} {ctx : List Nat} {ok : Int → Bool} {s s' : PState} {f : List PTree}
    (h : matchP L m q A ctx ok s = some (.go f s')) : PTree.heightL f = 0 := by
  unfold matchP at h
  split at h
  · exact inline_flat h
  · split at h
    · split at h
      · cases h
      · simp only [Option.some.injEq, PStep.go.injEq] at h; rw [← h.1]; rfl
    · exact inline_flat h

theorem sync_flat {L : Atn} {ctx : List Nat} {s s' : PState} {f : List PTree}
    (h : syncP L m q A ctx s = some (.go f s')) : PTree.heightL f = 0 := by
  have key : ∀ {x y : PState}, some (PStep.go [] x) = some (.go f y) → PTree.heightL f = 0 := by
    intro x y h; simp only [Option.some.injEq, PStep.go.injEq] at h; rw [← h.1]; rfl
  unfold syncP at h
  split at h
  · exact key h
  · dsimp only at h
    split at h
    · exact key h
    · split at h
      · split at h
        · cases h
        · split at h
          · split at h
            · cases h
            · exact key h
          · cases h
      · split at h
        · split at h
          · cases h
          · exact key h
        · exact key h

/-- What is returned under a limit is not higher than the limit. -/
theorem limitF {L : Atn} : ∀ (n : Nat) (ctx : List Nat) (ss : List Stmt) (s : PState) (t : Nat) (f : List PTree) (s' : PState) (t' : Nat),
    execF L m q A (recursionLimit room) prog n ctx ss s t = some (.ok f s' t') → ctx.length + PTree.heightL f ≤ room := by
  intro n
  induction n with
  | zero => intro ctx ss s t f s' t' h; rw [execF] at h; cases h
  | succ n ih =>
    intro ctx ss s t f s' t'  h
    have step : ∀ (x : PStep) (ss : List Stmt), (∀ g s1, x = .go g s1 → PTree.heightL g = 0) →
        x.andThenF (t + 1) (execF L m q A (recursionLimit room) prog n ctx ss) = some (.ok f s' t') → ctx.length + PTree.heightL f ≤ room := by
      intro x ss hx h
      cases x with
      | stop k s1 => cases h
      | go g s1 =>
        obtain ⟨g', h1, rfl⟩ := FOut.prepend_ok h
        have := ih ctx ss s1 (t + 1) g' s' t'  h1
        rw [heightL_append, hx g s1 rfl]; omega
    cases ss with
    | nil =>
      rw [execF] at h
      obtain ⟨a, -, h1, h2⟩ := during_some h
      simp only [Option.some.injEq, FOut.ok.injEq] at h2
      obtain ⟨rfl, -, -⟩ := h2
      simpa [PTree.heightL] using h1
    | cons c ss =>
      cases c with
      | sync st =>
        rw [execF] at h
        obtain ⟨a, h0, h1, h2⟩ := during_some h
        exact step a ss (fun g s1 e => sync_flat (by rw [h0, e])) h2
      | matchTok st k =>
        rw [execF] at h
        obtain ⟨a, h0, h1, h2⟩ := during_some h
        exact step a ss (fun g s1 e => match_flat (by rw [h0, e])) h2
      | matchSet st b =>
        rw [execF] at h
        obtain ⟨a, h0, h1, h2⟩ := during_some h
        exact step a ss (fun g s1 e => match_flat (by rw [h0, e])) h2
      | call st r =>
        rw [execF] at h
        obtain ⟨a, h0, h1, h2⟩ := during_some h
        cases hin : execF L m q A (recursionLimit room) prog n (st :: ctx) (prog r) a (t + 1) with
        | none => rw [hin] at h2; cases h2
        | some o =>
          rw [hin] at h2
          cases o with
          | struck k cs => cases h2
          | ok f1 s1 t1 =>
            obtain ⟨g, h3, rfl⟩ := FOut.prepend_ok h2
            have h4 := ih _ _ _ _ _ _ _  hin
            have h5 := ih _ _ _ _ _ _ _  h3
            simp only [heightL_append, PTree.heightL, PTree.height, List.length_cons] at h4 ⊢
            omega
          | raised k s1 t1 =>
            obtain ⟨s2, h3, h4, h5⟩ := during_some h2
            obtain ⟨g, h6, rfl⟩ := FOut.prepend_ok h5
            have h7 := ih _ _ _ _ _ _ _  h6
            simp only [heightL_append, PTree.heightL, PTree.height, List.length_cons] at h4 ⊢
            omega
      | predict d bs =>
        rw [execF] at h
        obtain ⟨a, h0, h1, h2⟩ := during_some h
        obtain ⟨⟨o, k⟩, s1⟩ := a
        cases o with
        | none => cases h2
        | some a => exact ih _ _ _ _ _ _ _  h2
      | switchLA cs =>
        rw [execF] at h
        obtain ⟨a, h0, h1, h2⟩ := during_some h
        split at h2
        · cases h2
        · exact ih _ _ _ _ _ _ _  h2
      | ifLA b body =>
        rw [execF] at h
        obtain ⟨a, h0, h1, h2⟩ := during_some h
        exact ih _ _ _ _ _ _ _  h2
      | whileLA b st c =>
        rw [execF] at h
        obtain ⟨a, h0, h1, h2⟩ := during_some h
        exact ih _ _ _ _ _ _ _  h2
      | whilePredict b st d =>
        rw [execF] at h
        obtain ⟨a, h0, h1, h2⟩ := during_some h
        exact ih _ _ _ _ _ _ _  h2
      | loopPredict b st d =>
        rw [execF] at h
        obtain ⟨a, h0, h1, h2⟩ := during_some h
        obtain ⟨⟨o, k⟩, s1⟩ := a
        cases o with
        | none => cases h2
        | some a =>
          simp only at h2
          split at h2
          · exact ih _ _ _ _ _ _ _  h2
          · split at h2
            · exact ih _ _ _ _ _ _ _  h2
            · cases h2

/-- A whole call, for a query of the language: it returns its children if the tree is not higher than the room ... -/
theorem callF_fits (hm : 28 ≤ m) (hO : ∀ t ctx, ctx.length ≤ room → O t ctx = none) {n : Nat} {f : List PTree} {ts : List Tok}
    (h : exec A.simulator.predictor prog n [] (prog .query) (tokenStream q) = .ok f ts) (hh : PTree.heightL f ≤ room) :
    callF lexerAtn m q A O prog n .query = (callP lexerAtn m q A prog n .query).map fun r => (.ok r.1, r.2) := by
  obtain ⟨s, h1, h2⟩ := sim_first hm q
  obtain ⟨s', e', t', h3, -⟩ := forestF (A := A) (prog := prog) hm hO n [] (prog .query) s _ f ts 1 h2 rfl h (by simpa using hh)
  obtain ⟨s'', e'', h4, -⟩ := exec_forest (A := A) (prog := prog) hm n [] (prog .query) s _ f ts h2 rfl h
  have h5 := execF_same (O := O) n [] _ _ 1 _ h4
  rw [h3] at h5
  unfold callF callP
  rw [h1, during_quiet (hO 0 [] (Nat.zero_le _))]
  dsimp only
  rw [h3, h4]
  simp only [Option.map_some]
  cases h5
  rfl

/-- ... and is struck if it is higher. -/
theorem callF_struck (hm : 28 ≤ m) {n : Nat} {f : List PTree} {ts : List Tok}
    (h : exec A.simulator.predictor prog n [] (prog .query) (tokenStream q) = .ok f ts) (hh : room < PTree.heightL f) :
    ∃ cs, callF lexerAtn m q A (recursionLimit room) prog n .query = some (.error .exception, cs) := by
  obtain ⟨s, h1, h2⟩ := sim_first hm q
  obtain ⟨s'', e'', h4, -⟩ := exec_forest (A := A) (prog := prog) hm n [] (prog .query) s _ f ts h2 rfl h
  have h5 := execF_same (O := recursionLimit room) n [] _ _ 1 _ h4
  unfold callF
  rw [h1, during_quiet (by simp [recursionLimit])]
  revert h5
  cases hx : execF lexerAtn m q A (recursionLimit room) prog n [] (prog .query) s 1 with
  | none => intro h5; exact h5.elim
  | some o =>
    cases o with
    | ok f' s' t' =>
      intro h5
      cases h5
      have := limitF n [] _ _ _ _ _ _ hx
      simp only [List.length_nil] at this
      omega
    | raised k s' t' => intro h5; cases h5
    | struck k cs =>
      rintro ⟨-, t, ctx, j, h5⟩
      simp only [recursionLimit] at h5
      split at h5
      · cases h5; exact ⟨cs, rfl⟩
      · cases h5

end Fcsql
