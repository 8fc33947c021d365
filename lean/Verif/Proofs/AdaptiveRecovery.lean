/-
With error recovery too, the generated functions ask for predictions only in the situations Proofs/AdaptivePredict.lean is
about.
-/
import Verif.Proofs.AdaptiveCode
import Verif.Proofs.AdaptiveFail
import Verif.Proofs.Recovery
import Verif.Spec.AntlrStrategy

set_option autoImplicit false
set_option linter.unusedSimpArgs false

namespace Fcsql

section
variable {A : Atn} {σ : Type} {S S' : Strategy σ} {eof : Tok}

/-- The two make the same choices where the generated code asks. -/
structure AgreeR (A : Atn) (S S' : Strategy σ) : Prop where
  agree : AgreeOn A S.toPredictor S'.toPredictor
  noViable : ∀ m d s ctx ts, A.decisions[d]? = some s → Calls A (A.ruleOf s) ctx → EndsEof ts → S.onNoViable m d ctx ts = S'.onNoViable m d ctx ts
  onSync : S.onSync = S'.onSync
  onMismatch : S.onMismatch = S'.onMismatch
  onRecover : S.onRecover = S'.onRecover
  patience : S.patience = S'.patience

theorem endsEof_drop : ∀ (n : Nat) (ts : List Tok), EndsEof ts → n < ts.length → EndsEof (ts.drop n) := by
  intro n
  induction n with
  | zero => intro ts h _; simpa using h
  | succ n ih =>
    intro ts h hn
    cases ts with
    | nil => simp at hn
    | cons x xs =>
      rcases endsEof_cons h with ⟨-, rfl⟩ | ⟨-, h⟩
      · simp at hn
      · exact ih xs h (by simpa using hn)

theorem endsEof_ne {ts : List Tok} (h : EndsEof ts) : ts ≠ [] := by
  rintro rfl
  obtain ⟨us, e, h, -⟩ := h
  cases us <;> cases h

theorem endsEof_skipTo (k : Nat) {ts : List Tok} (h : EndsEof ts) : EndsEof (skipTo k ts) := by
  refine endsEof_drop _ ts h ?_
  have : 0 < ts.length := List.length_pos_iff.2 (endsEof_ne h)
  omega

/-- A step that keeps the end of input in sight. -/
def Step.Sees : Step σ → Prop
  | .go _ s => EndsEof s.rest
  | .stop _ s => EndsEof s.rest

theorem syncStep_sees (st : Nat) (ctx : List Nat) (s : RState σ) (h : EndsEof s.rest) : (syncStep S eof st ctx s).Sees := by
  unfold syncStep
  split
  · exact h
  · split
    · rename_i hr
      rw [hr] at h
      exact ((endsEof_cons h).resolve_left (by simp)).2
    · exact h
    · exact endsEof_skipTo _ h
    · exact h

theorem syncStep_agree (hS : AgreeR A S S') (st : Nat) (ctx : List Nat) (s : RState σ) : syncStep S eof st ctx s = syncStep S' eof st ctx s := by
  unfold syncStep
  rw [hS.agree.sync, hS.onSync]

theorem inlineStep_sees (st : Nat) (ctx : List Nat) {ok : Int → Bool} (hok : ok (-1) = false) (s : RState σ) (h : EndsEof s.rest) :
    (inlineStep S eof st ctx ok s).Sees := by
  unfold inlineStep
  split
  · rename_i x y ts _ hr
    rw [hr] at h
    split
    · rename_i hy
      have h2 := ((endsEof_cons h).resolve_left (by simp)).2
      exact ((endsEof_cons h2).resolve_left (fun h' => by rw [h'.1, hok] at hy; cases hy)).2
    · change EndsEof s.rest
      rw [hr]; exact h
  · exact h
  · change EndsEof (reportAt eof 0 s).rest
    rw [reportAt_rest]; exact h
  · exact h

theorem matchStep_sees (st : Nat) (ctx : List Nat) {ok : Int → Bool} (hok : ok (-1) = false) (s : RState σ) (h : EndsEof s.rest) :
    (matchStep S eof st ctx ok s).Sees := by
  unfold matchStep
  split
  · exact inlineStep_sees st ctx hok s h
  · rename_i x xs hr
    split
    · rename_i hx
      rw [hr] at h
      exact ((endsEof_cons h).resolve_left (fun h' => by rw [h'.1, hok] at hx; cases hx)).2
    · exact inlineStep_sees st ctx hok s h

theorem matchStep_agree (hS : AgreeR A S S') (st : Nat) (ctx : List Nat) (ok : Int → Bool) (s : RState σ) :
    matchStep S eof st ctx ok s = matchStep S' eof st ctx ok s := by
  unfold matchStep inlineStep
  rw [hS.onMismatch]

theorem caught_agree (hS : AgreeR A S S') (ctx : List Nat) (k : Nat) (s : RState σ) : caught S eof ctx k s = caught S' eof ctx k s := by
  unfold caught
  rw [hS.onRecover, hS.patience]

theorem caught_sees (ctx : List Nat) (k : Nat) (s : RState σ) (h : EndsEof s.rest) : EndsEof (caught S eof ctx k s).rest := by
  change EndsEof (skipTo _ (reportAt eof k s).rest)
  rw [reportAt_rest]
  exact endsEof_skipTo _ h

/-- The end of input is in sight after statements. -/
def ROut.Sees : ROut σ → Prop
  | .ok _ s => EndsEof s.rest
  | .raised _ s => EndsEof s.rest
  | .timeout => True

theorem ROut.Sees.prepend {r : ROut σ} {f : List PTree} (h : r.Sees) : (r.prepend f).Sees := by cases r <;> exact h

theorem andThen_agree {step : Step σ} {e : Bool} {k k' : RState σ → ROut σ} (hs : step.Sees)
    (h : ∀ s, EndsEof s.rest → k s = k' s ∧ (e = false → (k' s).Sees)) :
    step.andThen k = step.andThen k' ∧ (e = false → (step.andThen k').Sees) := by
  cases step with
  | go f s =>
    obtain ⟨h1, h2⟩ := h s hs
    simp only [Step.andThen]
    exact ⟨by rw [h1], fun he => (h2 he).prepend⟩
  | stop k s => exact ⟨rfl, fun _ => hs⟩

theorem execR_agree (hS : AgreeR A S S') {prog : Rule → List Stmt}
    (hprog : ∀ r, r ≠ .query → Placed A r.num false (prog r)) : ∀ (n : Nat) (ctx : List Nat) (e : Bool) (i : Int) (ss : List Stmt) (s : RState σ),
      Placed A i e ss → Calls A i ctx → EndsEof s.rest → execR S eof prog n ctx ss s = execR S' eof prog n ctx ss s ∧
        (e = false → (execR S' eof prog n ctx ss s).Sees) := by
  intro n
  induction n with
  | zero => intro ctx e i ss s _ _ _; simp [execR, ROut.Sees]
  | succ n ih =>
    intro ctx e i ss s hss hc hE
    cases hss with
    | nil => simp only [execR]; exact ⟨trivial, fun _ => hE⟩
    | @eof st =>
      refine ⟨?_, fun h => (by cases h)⟩
      simp only [execR, matchStep_agree hS]
      congr 1
      funext s'
      cases n <;> simp [execR]
    | @sync _ st ss h =>
      simp only [execR, syncStep_agree hS]
      exact andThen_agree (syncStep_sees st ctx s hE) fun s' hs' => ih ctx e i ss s' h hc hs'
    | @matchTok _ st k ss hk h =>
      simp only [execR, matchStep_agree hS]
      exact andThen_agree (matchStep_sees st ctx (by simpa using fun h => hk h.symm) s hE) fun s' hs' => ih ctx e i ss s' h hc hs'
    | @matchSet _ st t ss hk h =>
      simp only [execR, matchStep_agree hS]
      exact andThen_agree (matchStep_sees st ctx hk s hE) fun s' hs' => ih ctx e i ss s' h hc hs'
    | @call _ st start t r ss ho hr hq h =>
      obtain ⟨h1, h2⟩ := ih (st :: ctx) false r.num (prog r) s (hprog r hq) (.call ho (hr ▸ hc)) hE
      have h2 := h2 rfl
      simp only [execR, h1]
      cases hres : execR S' eof prog n (st :: ctx) (prog r) s with
      | ok f s' =>
        rw [hres] at h2
        obtain ⟨h3, h4⟩ := ih ctx e i ss s' h hc h2
        exact ⟨by simp only [h3], fun he => (h4 he).prepend⟩
      | raised k s' =>
        rw [hres] at h2
        simp only [caught_agree hS]
        obtain ⟨h3, h4⟩ := ih ctx e i ss (caught S' eof (st :: ctx) k s') h hc (caught_sees _ _ _ h2)
        exact ⟨by rw [h3], fun he => (h4 he).prepend⟩
      | timeout => exact ⟨rfl, fun _ => trivial⟩
    | @predict _ d sd bs ss hd hs hb h =>
      simp only [execR, hS.agree.predict d sd ctx s.rest hd (hs ▸ hc) hE, hS.noViable s.mem d sd ctx s.rest hd (hs ▸ hc) hE]
      cases S'.predict d ctx s.rest with
      | none => exact ⟨rfl, fun _ => hE⟩
      | some a => exact ih ctx e i _ s ((branch_placed hb a).append h) hc hE
    | @switchLA _ cs ss hb h =>
      simp only [execR]
      cases hsw : switchCase (la s.rest) cs with
      | none => exact ⟨rfl, fun _ => hE⟩
      | some b =>
        obtain ⟨c, hcm, rfl⟩ := switchCase_mem hsw
        exact ih ctx e i _ s ((hb c hcm).append h) hc hE
    | @ifLA _ t b ss hb h =>
      simp only [execR]
      refine ih ctx e i _ s (Placed.append ?_ h) hc hE
      split
      · exact hb
      · exact .nil
    | @whileLA _ b st t ss hb h =>
      simp only [execR]
      exact ih ctx e i _ s (hb.append (.sync (.ifLA (.whileLA hb .nil) h))) hc hE
    | @whilePredict _ b st d sd ss hd hs hb h =>
      simp only [execR]
      exact ih ctx e i _ s (hb.append (.sync (.loopPredict hd hs hb h))) hc hE
    | @loopPredict _ b st d sd ss hd hs hb h =>
      simp only [execR, hS.agree.predict d sd ctx s.rest hd (hs ▸ hc) hE, hS.noViable s.mem d sd ctx s.rest hd (hs ▸ hc) hE]
      cases S'.predict d ctx s.rest with
      | none => exact ⟨rfl, fun _ => hE⟩
      | some a =>
        simp only
        split
        · exact ih ctx e i _ s h hc hE
        · split
          · exact ih ctx e i _ s (.whilePredict hd hs hb h) hc hE
          · exact ⟨rfl, fun _ => hE⟩

end

attribute [local irreducible] parserAtn

open Classical in
/-- A strategy of the runtime library (`Strategy.Antlr`), made right about every situation. -/
noncomputable def Strategy.patched {σ : Type} (S : Strategy σ) : Strategy σ :=
  { S with
    toPredictor := antlrPredictor
    onNoViable := fun m d ctx ts => if ∃ s, parserAtn.decisions[d]? = some s ∧ Calls parserAtn (parserAtn.ruleOf s) ctx ∧ EndsEof ts
      then S.onNoViable m d ctx ts else (0, m) }

section
variable {σ : Type} {S : Strategy σ}

theorem patched_agree (hS : S.Antlr) : AgreeR parserAtn S S.patched := by
  refine ⟨?_, ?_, rfl, rfl, rfl, rfl⟩
  · rw [hS.predictor]; exact antlrPredictor_agree
  · intro m d s ctx ts h1 h2 h3
    simp only [Strategy.patched]
    rw [if_pos ⟨s, h1, h2, h3⟩]

theorem patched_careful (hS : S.Antlr) : S.patched.Careful parserAtn := by
  refine ⟨antlrPredictor_ideal, ?_⟩
  intro m d ctx ts h hre
  simp only [Strategy.patched] at h ⊢
  split
  · rename_i hn
    obtain ⟨s, h1, h2, h3⟩ := hn
    rw [hS.noViable]
    simp only [antlrPredictor] at h
    rw [if_pos ⟨s, h1, h2, h3⟩] at h
    exact predict_none parserTab_ok parserAtn_rules parserNear_ok parserNear_length h1 h2 h3 hre h
  · simpa using hre

theorem bestPredictor_starts (A : Atn) (d : Nat) (ctx : List Nat) (ts : List Tok) (i : Nat) (h : (bestPredictor A).predict d ctx ts = some i) :
    ∃ s t, A.decisions[d]? = some s ∧ 1 ≤ i ∧ (A.out s)[i - 1]? = some (.eps t) ∧ Expected A t (la ts) := by
  simp only [bestPredictor] at h
  split at h
  · rename_i hex
    cases h
    obtain ⟨⟨s, t, h1, h2, h3, h4⟩, -⟩ := hex.choose_spec
    exact ⟨s, t, h1, h2, h3, h4.expected⟩
  · cases h

theorem antlrPredictor_starts (d : Nat) (ctx : List Nat) (ts : List Tok) (i : Nat) (h : antlrPredictor.predict d ctx ts = some i) :
    ∃ s t, parserAtn.decisions[d]? = some s ∧ 1 ≤ i ∧ (parserAtn.out s)[i - 1]? = some (.eps t) ∧ Expected parserAtn t (la ts) := by
  simp only [antlrPredictor] at h
  split at h
  · rename_i hn
    obtain ⟨s, h1, h2, h3⟩ := hn
    cases ts with
    | nil => exact absurd rfl (endsEof_ne h3)
    | cons x xs =>
      obtain ⟨t, h4, h5, h6⟩ := predict_goes parserTab_ok parserNear_ok parserNear_length h1 h
      exact ⟨s, t, h1, h4, h5, h6⟩
  · exact bestPredictor_starts _ d ctx ts i h

theorem patched_sound (S : Strategy σ) : S.patched.Sound parserAtn := ⟨antlrPredictor_ideal, antlrPredictor_starts⟩

/-- On tokens that end with the end of input the function of rule `query` does the same with both. -/
theorem callR_agree (hS : S.Antlr) (m : σ) (eof : Tok) {ts : List Tok} (h : EndsEof ts) (n : Nat) :
    callR S m eof code n .query ts = callR S.patched m eof code n .query ts := by
  have := (execR_agree (eof := eof) (patched_agree hS) (prog := code)
    (fun r hr => by have := code_placed r; rwa [beq_eq_false_iff_ne.2 hr] at this) n [] true 0 (code .query)
    { rest := ts, stuck := 0, recovering := false, reports := [], mem := m } (code_placed .query) .root h).1
  unfold callR
  rw [this]
  cases execR S.patched eof code n [] (code .query) { rest := ts, stuck := 0, recovering := false, reports := [], mem := m } with
  | ok f s => rfl
  | raised k s => simp only [caught_agree (patched_agree hS)]
  | timeout => rfl

theorem returns_agree (hS : S.Antlr) (m : σ) (eof : Tok) {ts : List Tok} (h : EndsEof ts) (f : List PTree) (es : List Tok) :
    Returns S m eof code .query ts f es ↔ Returns S.patched m eof code .query ts f es := by
  simp only [Returns, callR_agree hS m eof h]

end

end Fcsql
