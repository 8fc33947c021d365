/-
How many errors the parser can report: every report costs a token.
-/
import Verif.Proofs.AdaptiveRecovery
import Verif.Proofs.ErrorStrategyEnds
import Verif.Proofs.Tiling

set_option autoImplicit false
set_option linter.unusedSimpArgs false

namespace Fcsql

section
variable {A : Atn} {σ : Type} {S : Strategy σ} {eof : Tok}

theorem AgreeR.refl (S : Strategy σ) : AgreeR A S S :=
  ⟨⟨fun _ _ _ _ _ _ _ => rfl, fun _ _ _ => rfl⟩, fun _ _ _ _ _ _ _ _ => rfl, rfl, rfl, rfl, rfl⟩

/-- After the end of input has been matched nothing more happens. -/
def ROut.Over : ROut σ → Prop
  | .ok _ s => EndsEof s.rest ∨ s.recovering = false
  | .raised _ s => EndsEof s.rest
  | .timeout => True

theorem ROut.Over.prepend {r : ROut σ} {f : List PTree} (h : r.Over) : (r.prepend f).Over := by cases r <;> exact h

theorem ROut.Over.andThen {step : Step σ} {k : RState σ → ROut σ} (hs : step.Sees) (h : ∀ s, EndsEof s.rest → (k s).Over) :
    (step.andThen k).Over := by
  cases step with
  | go f s => exact (h s hs).prepend
  | stop k s => exact hs

/-- The same for a step. -/
def Step.Over : Step σ → Prop
  | .go _ s => EndsEof s.rest ∨ s.recovering = false
  | .stop _ s => EndsEof s.rest

theorem inlineStep_over (st : Nat) (ctx : List Nat) (ok : Int → Bool) (s : RState σ) (h : EndsEof s.rest) :
    (inlineStep S eof st ctx ok s).Over := by
  unfold inlineStep
  split
  · split
    · exact .inr rfl
    · exact h
  · exact h
  · left
    change EndsEof (reportAt eof 0 s).rest
    rw [reportAt_rest]; exact h
  · exact h

theorem matchStep_over (st : Nat) (ctx : List Nat) (ok : Int → Bool) (s : RState σ) (h : EndsEof s.rest) :
    (matchStep S eof st ctx ok s).Over := by
  unfold matchStep
  split
  · exact inlineStep_over st ctx ok s h
  · split
    · exact .inr rfl
    · exact inlineStep_over st ctx ok s h

theorem execR_over {prog : Rule → List Stmt}
    (hprog : ∀ r, r ≠ .query → Placed A r.num false (prog r)) : ∀ (n : Nat) (ctx : List Nat) (e : Bool) (i : Int) (ss : List Stmt) (s : RState σ),
      Placed A i e ss → Calls A i ctx → EndsEof s.rest → (execR S eof prog n ctx ss s).Over := by
  intro n
  induction n with
  | zero => intro ctx e i ss s _ _ _; simp [execR, ROut.Over]
  | succ n ih =>
    intro ctx e i ss s hss hc hE
    cases hss with
    | nil => exact .inl hE
    | @eof st =>
      simp only [execR]
      have := matchStep_over (S := S) (eof := eof) st ctx (fun j => decide (j = -1)) s hE
      revert this
      cases matchStep S eof st ctx (fun j => decide (j = -1)) s with
      | stop k s' => exact id
      | go f s' =>
        intro h
        cases n with
        | zero => simp [execR, Step.andThen, ROut.prepend, ROut.Over]
        | succ n => simpa [execR, Step.andThen, ROut.prepend, ROut.Over, Step.Over] using h
    | @sync _ st ss h =>
      simp only [execR]
      exact ROut.Over.andThen (syncStep_sees st ctx s hE) fun s' hs' => ih ctx e i ss s' h hc hs'
    | @matchTok _ st k ss hk h =>
      simp only [execR]
      exact ROut.Over.andThen (matchStep_sees st ctx (by simpa using fun h => hk h.symm) s hE) fun s' hs' => ih ctx e i ss s' h hc hs'
    | @matchSet _ st t ss hk h =>
      simp only [execR]
      exact ROut.Over.andThen (matchStep_sees st ctx hk s hE) fun s' hs' => ih ctx e i ss s' h hc hs'
    | @call _ st start t r ss ho hr hq h =>
      have h2 := (execR_agree (eof := eof) (AgreeR.refl (A := A) S) hprog n (st :: ctx) false r.num (prog r) s (hprog r hq) (.call ho (hr ▸ hc)) hE).2 rfl
      simp only [execR]
      cases hres : execR S eof prog n (st :: ctx) (prog r) s with
      | ok f s' =>
        rw [hres] at h2
        exact (ih ctx e i ss s' h hc h2).prepend
      | raised k s' =>
        rw [hres] at h2
        exact (ih ctx e i ss (caught S eof (st :: ctx) k s') h hc (caught_sees _ _ _ h2)).prepend
      | timeout => trivial
    | @predict _ d sd bs ss hd hs hb h =>
      simp only [execR]
      cases S.predict d ctx s.rest with
      | none => exact hE
      | some a => exact ih ctx e i _ s ((branch_placed hb a).append h) hc hE
    | @switchLA _ cs ss hb h =>
      simp only [execR]
      cases hsw : switchCase (la s.rest) cs with
      | none => exact hE
      | some b =>
        obtain ⟨c, hcm, rfl⟩ := switchCase_mem hsw
        exact ih ctx e i _ s ((hb c hcm).append h) hc hE
    | @ifLA _ t b ss hb h =>
      simp only [execR]
      refine ih ctx e i _ s (Placed.append ?_ h) hc hE
      split
      · exact hb
      · exact .nil
    | @whileLA _ b st t ss hb h =>
      simp only [execR]
      exact ih ctx e i _ s (hb.append (.sync (.ifLA (.whileLA hb .nil) h))) hc hE
    | @whilePredict _ b st d sd ss hd hs hb h =>
      simp only [execR]
      exact ih ctx e i _ s (hb.append (.sync (.loopPredict hd hs hb h))) hc hE
    | @loopPredict _ b st d sd ss hd hs hb h =>
      simp only [execR]
      cases S.predict d ctx s.rest with
      | none => exact hE
      | some a =>
        simp only
        split
        · exact ih ctx e i _ s h hc hE
        · split
          · exact ih ctx e i _ s (.whilePredict hd hs hb h) hc hE
          · exact hE

/-- At most one report for every token, the end of input included. -/
theorem callR_reports {n : Nat} {m : σ} {ts : List Tok} {f : List PTree} {es : List Tok} (hE : EndsEof ts)
    (h : callR S m eof code n .query ts = some (f, es)) : es.length ≤ ts.length := by
  have hm := execR_moves (S := S) (eof := eof) (prog := code) n [] (code .query)
    { rest := ts, stuck := 0, recovering := false, reports := [], mem := m }
  have ho := execR_over (S := S) (eof := eof) code_placed_false n [] true _ (code .query)
    { rest := ts, stuck := 0, recovering := false, reports := [], mem := m } (code_placed .query) .root hE
  unfold callR at h
  have key : ∀ s' : RState σ, Moves eof { rest := ts, stuck := 0, recovering := false, reports := [], mem := m } s' →
      (EndsEof s'.rest ∨ s'.recovering = false) → s'.reports.length ≤ ts.length := by
    intro s' hm hs
    have := hm.pot
    simp only [RState.pot, List.length_nil, Bool.false_eq_true, if_false] at this
    rcases hs with hs | hs
    · have := List.length_pos_iff.2 (endsEof_ne hs)
      omega
    · simp only [hs, Bool.false_eq_true, if_false] at this
      omega
  cases he : execR S eof code n [] (code .query) { rest := ts, stuck := 0, recovering := false, reports := [], mem := m } with
  | timeout => rw [he] at h; cases h
  | ok f' s' =>
    rw [he] at h hm ho
    simp only [Option.some.injEq, Prod.mk.injEq] at h
    rw [← h.2]
    exact key s' hm ho
  | raised k s' =>
    rw [he] at h hm ho
    simp only [Option.some.injEq, Prod.mk.injEq] at h
    rw [← h.2]
    exact key _ (Moves.trans hm (caught_moves [] k s')) (.inl (caught_sees _ _ _ ho))

end

/-! ### Pieces -/

theorem pieces_count (ps : List Piece) (h : ∀ p ∈ ps, p.text ≠ []) :
    (ps.filterMap Piece.tok?).length + (ps.filter fun p => p.kind = .err).length ≤ (piecesText ps).length := by
  induction ps with
  | nil => simp [piecesText]
  | cons p ps ih =>
    have ih := ih fun p hp => h p (by simp [hp])
    have hp : 0 < p.text.length := List.length_pos_iff.2 (h p (by simp))
    have e : (piecesText (p :: ps)).length = p.text.length + (piecesText ps).length := by simp [piecesText]
    rw [e]
    cases hk : p.kind with
    | err =>
      rw [List.filterMap_cons_none (by simp [Piece.tok?, hk]), List.filter_cons_of_pos (by simp [hk]), List.length_cons]
      omega
    | skip =>
      rw [List.filterMap_cons_none (by simp [Piece.tok?, hk]), List.filter_cons_of_neg (by simp [hk])]
      omega
    | tok t =>
      obtain ⟨x, hx⟩ : ∃ x, p.tok? = some x := by simp [Piece.tok?, hk]
      rw [List.filterMap_cons_some hx, List.filter_cons_of_neg (by simp [hk]), List.length_cons]
      omega

end Fcsql
