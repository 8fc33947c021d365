/-
With caches that hold nothing wrong, lexer and parser do what they do without caches, and leave such caches behind.
-/
import Verif.Spec.Cache
import Verif.Props.Generated
import Verif.Proofs.Parse

set_option autoImplicit false
set_option linter.unusedSimpArgs false
set_option linter.unusedSectionVars false

namespace Fcsql

section
variable {τ : Type} [DecidableEq τ] {sim : Simulator τ} {env : Others τ}

theorem Caches.Right.clock {c : Caches τ} (h : c.Right sim) (n : Nat) : Caches.Right sim { c with clock := n } := h

theorem getDfa_right (he : env.Fair sim) (a : Nat × Option (τ × Int)) (c : Caches τ) (hc : c.Right sim) :
    (getDfa sim env a c).1 = sim.stored a ∧ (getDfa sim env a c).2.Right sim := by
  have h1 : Caches.Right sim { env c.clock c with clock := c.clock + 1 } := he c.clock c hc
  simp only [getDfa]
  split
  · rename_i p hp
    refine ⟨?_, h1⟩
    rw [h1.1 p (List.mem_of_find?_eq_some hp)]
    have := List.find?_some hp
    simp only [decide_eq_true_eq] at this
    rw [this]
  · have h2 := he (c.clock + 1) _ h1
    refine ⟨rfl, fun p hp => ?_, h2.2⟩
    simp only [List.mem_cons] at hp
    rcases hp with rfl | hp
    · rfl
    · exact h2.1 p hp

theorem getLexDfa_right (he : env.Fair sim) (a : List (TokType × Rx) × Nat) (c : Caches τ) (hc : c.Right sim) :
    (getLexDfa env a c).1 = lexTarget a ∧ (getLexDfa env a c).2.Right sim := by
  have h1 : Caches.Right sim { env c.clock c with clock := c.clock + 1 } := he c.clock c hc
  simp only [getLexDfa]
  split
  · split
    · rename_i p hp
      refine ⟨?_, h1⟩
      rw [h1.2 p (List.mem_of_find?_eq_some hp)]
      have := List.find?_some hp
      simp only [decide_eq_true_eq] at this
      rw [this]
    · have h2 := he (c.clock + 1) _ h1
      refine ⟨rfl, h2.1, fun p hp => ?_⟩
      simp only [List.mem_cons] at hp
      rcases hp with rfl | hp
      · rfl
      · exact h2.2 p hp
  · exact ⟨rfl, h1⟩

theorem walkDfa_right (he : env.Fair sim) (d : Nat) (ctx : List Nat) (ts look : List Tok) (s : τ) (c : Caches τ) (hc : c.Right sim) :
    (walkDfa sim env d ctx ts look s c).1 = sim.walk d ctx ts look s ∧ (walkDfa sim env d ctx ts look s c).2.Right sim := by
  induction look generalizing s c with
  | nil => exact ⟨rfl, hc⟩
  | cons x xs ih =>
    obtain ⟨h1, h2⟩ := getDfa_right he (d, some (s, x.type.num)) c hc
    simp only [walkDfa, Simulator.walk]
    rw [h1]
    simp only [Simulator.stored]
    cases hv : sim.verdict (sim.target s x.type.num) with
    | alt i => exact ⟨rfl, h2⟩
    | fail => exact ⟨rfl, h2⟩
    | full => exact ⟨rfl, h2⟩
    | more => exact ih _ _ h2

theorem predictC_right (he : env.Fair sim) (d : Nat) (ctx : List Nat) (ts : List Tok) (c : Caches τ) (hc : c.Right sim) :
    (predictC sim env d ctx ts c).1 = sim.predictor.predict d ctx ts ∧ (predictC sim env d ctx ts c).2.Right sim := by
  obtain ⟨h1, h2⟩ := getDfa_right he (d, none) c hc
  simp only [predictC, h1]
  exact walkDfa_right he d ctx ts ts _ _ h2

theorem execC_right (he : env.Fair sim) (prog : Rule → List Stmt) (n : Nat) (ctx : List Nat) (ss : List Stmt) (ts : List Tok) (c : Caches τ)
    (hc : c.Right sim) :
    (execC sim env prog n ctx ss ts c).1 = exec sim.predictor prog n ctx ss ts ∧ (execC sim env prog n ctx ss ts c).2.Right sim := by
  induction n generalizing ctx ss ts c with
  | zero => exact ⟨rfl, hc⟩
  | succ n ih =>
    cases ss with
    | nil => exact ⟨rfl, hc⟩
    | cons s ss =>
      cases s with
      | sync st =>
        have hp : sim.predictor.sync st ctx ts = sim.sync st ctx ts := rfl
        simp only [execC, exec, hp]
        cases sim.sync st ctx ts with
        | true => exact ih ctx ss ts c hc
        | false => exact ⟨rfl, hc⟩
      | matchTok st k =>
        cases ts with
        | nil => exact ⟨rfl, hc⟩
        | cons x xs =>
          simp only [execC, exec]
          split
          · obtain ⟨h1, h2⟩ := ih ctx ss xs c hc
            exact ⟨by rw [h1], h2⟩
          · exact ⟨rfl, hc⟩
      | matchSet st t =>
        cases ts with
        | nil => exact ⟨rfl, hc⟩
        | cons x xs =>
          simp only [execC, exec]
          split
          · obtain ⟨h1, h2⟩ := ih ctx ss xs c hc
            exact ⟨by rw [h1], h2⟩
          · exact ⟨rfl, hc⟩
      | call st r =>
        obtain ⟨h1, h2⟩ := ih (st :: ctx) (prog r) ts c hc
        simp only [execC, exec]
        rw [← h1]
        generalize execC sim env prog n (st :: ctx) (prog r) ts c = p at h2
        obtain ⟨res, c'⟩ := p
        cases res with
        | ok f ts' =>
          obtain ⟨h3, h4⟩ := ih ctx ss ts' c' h2
          exact ⟨by simp only [h3], h4⟩
        | error => exact ⟨rfl, h2⟩
        | timeout => exact ⟨rfl, h2⟩
      | predict d bs =>
        obtain ⟨h1, h2⟩ := predictC_right he d ctx ts c hc
        simp only [execC, exec]
        rw [← h1]
        generalize predictC sim env d ctx ts c = p at h2
        obtain ⟨res, c'⟩ := p
        cases res with
        | none => exact ⟨rfl, h2⟩
        | some a => exact ih _ _ _ _ h2
      | switchLA cs =>
        simp only [execC, exec]
        cases switchCase (la ts) cs with
        | none => exact ⟨rfl, hc⟩
        | some b => exact ih _ _ _ _ hc
      | ifLA t b => exact ih _ _ _ _ hc
      | whileLA b st t => exact ih _ _ _ _ hc
      | whilePredict b st d => exact ih _ _ _ _ hc
      | loopPredict b st d =>
        obtain ⟨h1, h2⟩ := predictC_right he d ctx ts c hc
        simp only [execC, exec]
        rw [← h1]
        generalize predictC sim env d ctx ts c = p at h2
        obtain ⟨res, c'⟩ := p
        cases res with
        | none => exact ⟨rfl, h2⟩
        | some a =>
          simp only
          split
          · exact ih _ _ _ _ h2
          · split
            · exact ih _ _ _ _ h2
            · exact ⟨rfl, h2⟩

theorem scanC_right (he : env.Fair sim) (rs : List (TokType × Rx)) (n : Nat) (best : Option (TokType × Nat)) (cs : PyStr) (c : Caches τ)
    (hc : c.Right sim) : (scanC env rs n best cs c).1 = scan rs n best cs ∧ (scanC env rs n best cs c).2.Right sim := by
  induction cs generalizing rs n best c with
  | nil => exact ⟨rfl, hc⟩
  | cons ch cs ih =>
    obtain ⟨h1, h2⟩ := getLexDfa_right he (rs, ch) c hc
    simp only [scanC, scan, h1, lexTarget]
    split
    · exact ⟨rfl, h2⟩
    · exact ih _ _ _ _ h2

theorem nextPieceC_right (he : env.Fair sim) (cs : PyStr) (c : Caches τ) (hc : c.Right sim) :
    (nextPieceC env cs c).1 = nextPiece cs ∧ (nextPieceC env cs c).2.Right sim := by
  obtain ⟨h1, h2⟩ := scanC_right he lexRules 0 none cs c hc
  simp only [nextPieceC, nextPiece, h1]
  cases (scan lexRules 0 none cs).best with
  | none => exact ⟨rfl, h2⟩
  | some p => exact ⟨rfl, h2⟩

theorem lexLoopC_right (he : env.Fair sim) (fuel : Nat) (cs : PyStr) (pos col : Nat) (c : Caches τ) (hc : c.Right sim) :
    (lexLoopC env fuel cs pos col c).1 = lexLoop fuel cs pos col ∧ (lexLoopC env fuel cs pos col c).2.Right sim := by
  induction fuel generalizing cs pos col c with
  | zero => exact ⟨rfl, hc⟩
  | succ fuel ih =>
    cases cs with
    | nil => exact ⟨rfl, hc⟩
    | cons ch cs =>
      obtain ⟨h1, h2⟩ := nextPieceC_right he (ch :: cs) c hc
      simp only [lexLoopC, lexLoop, h1]
      obtain ⟨h3, h4⟩ := ih ((ch :: cs).drop (nextPiece (ch :: cs)).2) (pos + (nextPiece (ch :: cs)).2)
        (advanceColumn col ((ch :: cs).take (nextPiece (ch :: cs)).2)) _ h2
      exact ⟨by rw [h3], h4⟩

theorem parseC_right (he : env.Fair sim) (n : Nat) (q : PyStr) (c : Caches τ) (hc : c.Right sim) :
    (parseC sim env n q c).1 = (lexPieces q, exec sim.predictor code n [] (code .query) (tokenStream q)) ∧
      (parseC sim env n q c).2.Right sim := by
  obtain ⟨h1, h2⟩ := lexLoopC_right he q.length q 0 0 c hc
  simp only [parseC, h1]
  obtain ⟨h3, h4⟩ := execC_right he code n [] (code .query) (tokenStream q) _ h2
  exact ⟨by rw [← h3]; rfl, h4⟩

/-- The predictor without caches is right about the network if the simulation is. -/
theorem predictor_ideal {A : Atn} (hs : sim.Correct A) : sim.predictor.Ideal A := by
  have hwalk : ∀ (d : Nat) (ctx : List Nat) (ts look : List Tok) (u : List Int), ts.map (fun t => t.type.num) = u ++ look.map (fun t => t.type.num) →
      (∀ i, ViableAlt A d ctx ts i → (∀ j, j < i → ¬ ViableAlt A d ctx ts j) → sim.walk d ctx ts look (sim.after d u) = some i) ∧
      (∀ i s, sim.walk d ctx ts look (sim.after d u) = some i → A.decisions[d]? = some s → 1 ≤ i ∧ i ≤ (A.out s).length) := by
    intro d ctx ts look
    induction look with
    | nil => intro u _; exact ⟨hs.full d ctx ts, hs.fullRange d ctx ts⟩
    | cons x xs ih =>
      intro u hu
      have hu' : ts.map (fun t => t.type.num) = (u ++ [x.type.num]) ++ xs.map (fun t => t.type.num) := by simp [hu]
      have hst : sim.target (sim.after d u) x.type.num = sim.after d (u ++ [x.type.num]) := by simp [Simulator.after]
      have hpre : u ++ [x.type.num] <+: ts.map (fun t => t.type.num) := ⟨_, hu'.symm⟩
      simp only [Simulator.walk, hst]
      cases hv : sim.verdict (sim.after d (u ++ [x.type.num])) with
      | alt k =>
        refine ⟨fun i hi _ => by rw [hs.alt _ _ _ hv _ _ _ hpre hi], fun i s h hd => ?_⟩
        cases h
        exact hs.altRange _ _ _ _ hv hd
      | fail => exact ⟨fun i hi _ => absurd hi (hs.fail _ _ hv _ _ _ hpre), fun i s h hd => hs.finishedRange _ _ _ _ _ h hd⟩
      | full => exact ⟨hs.full d ctx ts, hs.fullRange d ctx ts⟩
      | more => exact ih _ hu'
  refine ⟨fun d ctx ts i h1 h2 => (hwalk d ctx ts ts [] rfl).1 i h1 h2, fun d ctx ts i s h hd => (hwalk d ctx ts ts [] rfl).2 i s h hd, hs.sync⟩

/-- Threads that only store computed entries are fair. -/
theorem othersStore_fair (sim : Simulator τ) (schedule : Nat → List (Entry τ)) : (othersStore sim schedule).Fair sim := by
  intro n c hc
  simp only [othersStore]
  generalize schedule n = es
  induction es generalizing c with
  | nil => exact hc
  | cons e es ih =>
    refine ih _ ?_
    cases e with
    | parser a =>
      refine ⟨fun p hp => ?_, hc.2⟩
      simp only [Entry.store, List.mem_cons] at hp
      rcases hp with rfl | hp
      · rfl
      · exact hc.1 p hp
    | lexer a =>
      refine ⟨hc.1, fun p hp => ?_⟩
      simp only [Entry.store, List.mem_cons] at hp
      rcases hp with rfl | hp
      · rfl
      · exact hc.2 p hp

theorem empty_right (sim : Simulator τ) : (Caches.empty τ).Right sim := ⟨fun _ h => (by cases h), fun _ h => (by cases h)⟩

end

end Fcsql
