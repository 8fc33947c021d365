/-
C105: how much work any query causes, malformed ones included.
-/
import Verif.Proofs.ErrorWorkRun
import Verif.Props.Program
import Verif.Props.Recovery
import Verif.Props.Work

set_option autoImplicit false
set_option linter.unusedSimpArgs false

namespace Fcsql

attribute [local irreducible] parserAtn parseQuery lexerAtn lexPieces

/-- The statements of the generated functions that `parser.query()` executes on a query, of the first `n` steps. -/
abbrev actsOf (n : Nat) (q : PyStr) : List Executed := callActs parserAtn (eofTok q) code n .query (tokenStream q)

theorem stream_tokens (q : PyStr) : (tokenStream q).length = (lexTokens q).length + 1 := by rw [tokenStream, List.length_append]; rfl

theorem work_le {R : Rates} (hs : R.sane = true) (hg : R.right = true) (now : Nat) (gain : Int)
    (hk : ∀ k ∈ nowKeys, R.now .query k ≤ now ∧ gain ≤ R.gain .query k) (q : PyStr) (n : Nat) :
    workOf R (actsOf n q) ≤ now ∨ (workOf R (actsOf n q) : Int) + gain ≤ (R.C * ((lexTokens q).length + 1) : Nat) := by
  obtain ⟨f1, f2⟩ := right_at hg .query
  have h := (exec_covers (eof := eofTok q) (room := 11 + toksCost (tokenStream q)) hs hg n [] (code .query) (EState.new (tokenStream q))
    (capped_stream q) (Roomy.start .query _ rfl (by change 12 + toksCost (tokenStream q) ≤ _; omega)) f1).mono (f2 _ rfl)
  obtain ⟨h1, h2⟩ := hk _ (mem_nowKeys (tokenStream q))
  obtain ⟨-, h3, h4⟩ := h
  have h5 : (EState.new (tokenStream q)).rest = tokenStream q := rfl
  rw [h5] at h3 h4
  rw [stream_tokens] at h4
  by_cases e : (execE parserAtn (eofTok q) code n [] (code .query) (EState.new (tokenStream q))).left = tokenStream q
  · have := h3 e
    exact .inl (Nat.le_trans this h1)
  · have := h4 e
    right
    change (workOf R (execActs parserAtn (eofTok q) code n [] (code .query) (EState.new (tokenStream q))) : Int) + gain ≤ _
    dsimp only at this
    omega

/-- **C105.** Whatever the query is, with syntax errors or without: of its `k` tokens, `parser.query()` makes at most `22 k + 10`
predictions and `34 k + 34` calls of rule functions, and executes at most `129 k + 118` statements of the generated functions,
what is done after an error and between errors included. -/
theorem C105_work (q : PyStr) (n : Nat) :
    ((actsOf n q).filterMap Executed.asked).length ≤ 22 * (lexTokens q).length + 10 ∧
    ((actsOf n q).filterMap Executed.called).length ≤ 34 * (lexTokens q).length + 34 ∧
    (actsOf n q).length ≤ 129 * (lexTokens q).length + 118 := by
  rw [asked_length, called_length, steps_length]
  have h1 := work_le predRates_sane predRates_right 3 12 (by decide +kernel) q n
  have h2 := work_le callRates_sane callRates_right 12 0 (by decide +kernel) q n
  have h3 := work_le stepRates_sane stepRates_right 40 11 (by decide +kernel) q n
  simp only [show predRates.C = 22 from rfl, show callRates.C = 34 from rfl, show stepRates.C = 129 from rfl] at h1 h2 h3
  omega

/-- **C105.** So `parser.query()` is done after `129 k + 119` steps at the latest, on every query of `k` tokens. -/
theorem C105_ends (q : PyStr) (n : Nat) (h : 129 * (lexTokens q).length + 118 < n) :
    callE parserAtn (eofTok q) code n .query (tokenStream q) ≠ none := by
  intro hn
  unfold callE at hn
  cases hx : execE parserAtn (eofTok q) code n [] (code .query) (EState.new (tokenStream q)) with
  | ok s => rw [hx] at hn; cases hn
  | raised f s => rw [hx] at hn; cases hn
  | timeout s =>
    have h1 := timeout_acts n [] (code .query) _ s hx
    have h2 := (C105_work q n).2.2
    have h3 : n ≤ (actsOf n q).length := h1
    omega

/-- **C105.** The programs of C95 and C96 - lexer, parser, error strategy, listeners, tree builder - give their answer with this many
steps: one number, linear in the number of tokens, instead of some number. -/
theorem C105_programs (L A : Atn) (hL : deserialize lexerData = some L) (hA : deserialize parserData = some A) (m : Nat) (hm : 28 ≤ m)
    (q : PyStr) (n : Nat) (h : 129 * (lexTokens q).length + 118 < n) :
    (∀ (rt : Runtime) (_ : rt.Antlr) (cfg : Config), parseProgram L A m n rt.toPyRuntime cfg q = some (parseQuery rt cfg q)) ∧
    antlrProgram L A m n q ≠ none := by
  have key : callP lexerAtn m q parserAtn code n .query ≠ none := by
    intro hn
    have h1 := callP_calls (A := parserAtn) (prog := code) hm n q
    rw [hn] at h1
    cases hx : callE parserAtn (eofTok q) code n .query (tokenStream q) with
    | none => exact C105_ends q n h hx
    | some r => rw [hx] at h1; cases h1
  have hL' := hL
  have hA' := hA
  rw [lexerAtn_eq] at hL
  rw [parserAtn_eq] at hA
  cases hL
  cases hA
  refine ⟨fun rt hrt cfg => ?_, fun hn => ?_⟩
  · rcases (C95_program lexerAtn parserAtn hL' hA' m hm rt hrt cfg q).2 n with h1 | h1
    · refine absurd ?_ key
      unfold parseProgram at h1
      cases hx : callP lexerAtn m q parserAtn code n .query with
      | none => rfl
      | some r => rw [hx] at h1; cases h1
    · exact h1
  · refine key ?_
    unfold antlrProgram at hn
    cases hx : callP lexerAtn m q parserAtn code n .query with
    | none => rfl
    | some r => rw [hx] at hn; cases hn

/-- **C105.** All predictions together look at most `2 (k + 1) (22 k + 10)` times at a token (the end counts): the lookahead is at most
quadratic, for malformed queries too. -/
theorem C105_lookahead (q : PyStr) (n : Nat) :
    (((actsOf n q).filterMap Executed.asked).map parserAtn.rounds).sum ≤ 2 * ((lexTokens q).length + 1) * (22 * (lexTokens q).length + 10) := by
  have h := sum_rounds_le parserAtn ((lexTokens q).length + 1) ((actsOf n q).filterMap Executed.asked) fun a ha => by
    obtain ⟨d, hd, he⟩ := List.mem_filterMap.1 ha
    have h1 := (acts_rest n [] (code .query) (EState.new (tokenStream q)) (capped_stream q) d hd).length_le
    have h2 : a.rest = d.rest := by
      obtain ⟨c, ctx, ts⟩ := d
      cases c <;> simp [Executed.asked] at he <;> subst he <;> rfl
    rw [h2, ← stream_tokens]
    exact h1
  refine Nat.le_trans h ?_
  rw [Nat.mul_assoc, Nat.mul_assoc]
  exact Nat.mul_le_mul_left _ (Nat.mul_le_mul_left _ (C105_work q n).1)

/-- **C105.** If `antlr_parse` accepts the query these predictions are those counted in C101. -/
theorem C105_accepted (q : PyStr) (t : PTree) (h : antlrParse q = .ok t) :
    ∃ N, ∀ n, N ≤ n → (actsOf n q).filterMap Executed.asked = predictionsOf parserAtn.simulator.predictor n q := by
  obtain ⟨c, hc⟩ := (parseTokens_some _ _).1 (antlrParse_ok.1 h)
  obtain ⟨f, rfl⟩ := chosen_query_node hc
  obtain ⟨N, hN⟩ := C84_antlr q f h
  exact ⟨N, fun n hn => (acts_accepted n [] (code .query) (EState.new (tokenStream q)) f [] rfl (hN n hn)).2⟩

/-! ### Concrete runs (tokens, predictions, calls, statements) -/

example : let l := actsOf 200 py!"'a' | | 'b'"
    ((lexTokens py!"'a' | | 'b'").length, (l.filterMap Executed.asked).length, (l.filterMap Executed.called).length, l.length) =
      (4, 3, 10, 38) := by decide +kernel
example : let l := actsOf 200 py!"'a' ]"
    ((lexTokens py!"'a' ]").length, (l.filterMap Executed.asked).length, (l.filterMap Executed.called).length, l.length) =
      (2, 1, 5, 17) := by decide +kernel
example : let l := actsOf 200 py!"["
    ((lexTokens py!"[").length, (l.filterMap Executed.asked).length, (l.filterMap Executed.called).length, l.length) =
      (1, 1, 1, 6) := by decide +kernel
-- the predictions and what they look at
example : ((actsOf 200 py!"'a' | | 'b'").filterMap Executed.asked).map (fun a => (a.decision, parserAtn.rounds a)) = [(1, 2), (2, 4), (3, 4)] := by decide +kernel
-- 635 steps are enough for this query
example (rt : Runtime) (hrt : rt.Antlr) : parseProgram lexerAtn parserAtn 28 635 rt.toPyRuntime defaultConfig py!"'a' | | 'b'" =
    some (parseQuery rt defaultConfig py!"'a' | | 'b'") :=
  (C105_programs _ _ lexerAtn_eq parserAtn_eq 28 (Nat.le_refl _) py!"'a' | | 'b'" 635 (by
    rw [show (lexTokens py!"'a' | | 'b'").length = 4 by decide +kernel]; omega)).1 rt hrt defaultConfig

end Fcsql
