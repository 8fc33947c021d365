/-
C83: what earlier queries and other threads leave in the shared caches does not matter.
-/
import Verif.Proofs.Cache
import Verif.Props.Examples

set_option autoImplicit false
set_option linter.unusedSimpArgs false
set_option linter.unusedSectionVars false

namespace Fcsql

section
variable {τ : Type} [DecidableEq τ] {sim : Simulator τ} {env : Others τ}

/-- The generated parser with the simulation builds what `antlr_parse` returns (C53). -/
def ParsesRight (sim : Simulator τ) : Prop := ∀ q : PyStr,
  (∀ f vs, Ends sim.predictor code .query (tokenStream q) (.ok f vs) ↔ antlrParse q = .ok (.node .query f) ∧ vs = []) ∧
  (Ends sim.predictor code .query (tokenStream q) .error ↔ antlrParse q = .error ()) ∧
  ¬ Ends sim.predictor code .query (tokenStream q) .timeout

theorem Simulator.Correct.parses (hs : sim.Correct parserAtn) : ParsesRight sim :=
  fun q => C53_generated_parser sim.predictor (predictor_ideal hs) q

theorem antlrParseC_right (hs : ParsesRight sim) (he : env.Fair sim) (q : PyStr) : ∃ N, ∀ n, N ≤ n → ∀ c : Caches τ, c.Right sim →
    (antlrParseC sim env n q c).1 = some (antlrParse q) ∧ (antlrParseC sim env n q c).2.Right sim := by
  obtain ⟨h1, h2, -⟩ := hs q
  cases ha : antlrParse q with
  | ok t =>
    obtain ⟨c, hc⟩ := (parseTokens_some _ _).1 (antlrParse_ok.1 ha)
    obtain ⟨f, rfl⟩ := chosen_query_node hc
    obtain ⟨N, hN⟩ := (h1 f []).2 ⟨ha, rfl⟩
    refine ⟨N, fun n hn c hc => ?_⟩
    obtain ⟨h3, h4⟩ := parseC_right he n q c hc
    exact ⟨by simp only [antlrParseC, h3, hN n hn], h4⟩
  | error u =>
    obtain ⟨N, hN⟩ := h2.2 ha
    refine ⟨N, fun n hn c hc => ?_⟩
    obtain ⟨h3, h4⟩ := parseC_right he n q c hc
    exact ⟨by simp only [antlrParseC, h3, hN n hn], h4⟩

theorem queryParseC_right (hs : ParsesRight sim) (he : env.Fair sim) (rt : Runtime) (cfg : Config) (q : PyStr) :
    ∃ N, ∀ n, N ≤ n → ∀ c : Caches τ, c.Right sim →
      (queryParseC sim env rt.toPyRuntime cfg n q c).1.map .ofNode =
        some (ParseCall.answer rt (.parse cfg q)) ∧ (queryParseC sim env rt.toPyRuntime cfg n q c).2.Right sim := by
  obtain ⟨h1, h2, -⟩ := hs q
  cases ha : antlrParse q with
  | ok t =>
    have ht := antlrParse_ok.1 ha
    obtain ⟨c, hc⟩ := (parseTokens_some _ _).1 ht
    obtain ⟨f, rfl⟩ := chosen_query_node hc
    obtain ⟨N, hN⟩ := (h1 f []).2 ⟨ha, rfl⟩
    refine ⟨N, fun n hn c hc => ?_⟩
    obtain ⟨h3, h4⟩ := parseC_right he n q c hc
    refine ⟨?_, h4⟩
    simp only [queryParseC, h3, hN n hn, ParseCall.answer, parseQuery, parseWith, rawErrors, ht, build]
    have hle : ((lexPieces q).any fun p => p.kind = .err) = true ↔ lexErrors q ≠ [] := by
      simp [lexErrors, List.any_eq_true, List.filter_eq_nil_iff]
    cases hl : lexErrors q with
    | nil =>
      have : ¬ ((lexPieces q).any fun p => p.kind = .err) = true := fun h => hle.1 h hl
      rw [if_neg this]
      simp only [List.map_nil]
      rcases buildWith pureAlloc rt.toPyRuntime cfg () (.node .query f) with e | ⟨n, u⟩ <;> rfl
    | cons e es =>
      have : ((lexPieces q).any fun p => p.kind = .err) = true := hle.2 (by simp [hl])
      rw [if_pos this]
      rfl
  | error u =>
    obtain ⟨N, hN⟩ := h2.2 ha
    have ht : parseTokens (tokenStream q) = none := by
      cases h : parseTokens (tokenStream q) with
      | none => rfl
      | some t => rw [antlrParse_ok.2 h] at ha; cases ha
    refine ⟨N, fun n hn c hc => ?_⟩
    obtain ⟨h3, h4⟩ := parseC_right he n q c hc
    refine ⟨?_, h4⟩
    simp only [queryParseC, h3, hN n hn, ParseCall.answer, parseQuery, parseWith, rawErrors, ht, List.map_cons]
    rfl

theorem session_right (sim : Simulator τ) (hs : ParsesRight sim) (env : Others τ) (he : env.Fair sim) (rt : Runtime)
    (calls : List ParseCall) : ∃ N, ∀ n, N ≤ n → ∀ c : Caches τ, c.Right sim →
      (sessionC sim env rt.toPyRuntime n calls c).1 = calls.map (fun k => some (k.answer rt)) ∧
      (sessionC sim env rt.toPyRuntime n calls c).2.Right sim := by
  induction calls with
  | nil => exact ⟨0, fun n _ c hc => ⟨rfl, hc⟩⟩
  | cons k ks ih =>
    obtain ⟨N, hN⟩ := ih
    cases k with
    | antlr q =>
      obtain ⟨M, hM⟩ := antlrParseC_right hs he q
      refine ⟨max M N, fun n hn c hc => ?_⟩
      obtain ⟨h1, h2⟩ := hM n (by omega) c hc
      obtain ⟨h3, h4⟩ := hN n (by omega) _ h2
      refine ⟨?_, h4⟩
      simp only [sessionC, h1, h3, List.map_cons, Option.map_some]
      rw [ParseCall.answer]
    | parse cfg q =>
      obtain ⟨M, hM⟩ := queryParseC_right hs he rt cfg q
      refine ⟨max M N, fun n hn c hc => ?_⟩
      obtain ⟨h1, h2⟩ := hM n (by omega) c hc
      obtain ⟨h3, h4⟩ := hN n (by omega) _ h2
      exact ⟨by simp only [sessionC, h1, h3, List.map_cons], h4⟩

/-- **C83.** Calls one after the other, with shared caches that hold nothing wrong (whatever earlier queries left there),
and other threads that may change them between any two accesses as long as they store nothing wrong: every call returns,
with the result it has in a fresh process, and the caches hold nothing wrong at the end. -/
theorem C83_history (sim : Simulator τ) (hs : sim.Correct parserAtn) (env : Others τ) (he : env.Fair sim) (rt : Runtime)
    (calls : List ParseCall) : ∃ N, ∀ n, N ≤ n → ∀ c : Caches τ, c.Right sim →
      (sessionC sim env rt.toPyRuntime n calls c).1 = calls.map (fun k => some (k.answer rt)) ∧
      (sessionC sim env rt.toPyRuntime n calls c).2.Right sim := session_right sim hs.parses env he rt calls

/-- **C83.** In particular in a process that starts with empty caches, however the other threads' stores are interleaved
with the accesses of the calls. -/
theorem C83_any_schedule (sim : Simulator τ) (hs : sim.Correct parserAtn) (schedule : Nat → List (Entry τ)) (rt : Runtime)
    (calls : List ParseCall) : ∃ N, ∀ n, N ≤ n →
      (sessionC sim (othersStore sim schedule) rt.toPyRuntime n calls (.empty τ)).1 = calls.map (fun k => some (k.answer rt)) := by
  obtain ⟨N, hN⟩ := C83_history sim hs _ (othersStore_fair sim schedule) rt calls
  exact ⟨N, fun n hn => (hN n hn _ (empty_right sim)).1⟩

/-- **C83.** Hence a call has the same result whatever was called before. -/
theorem C83_forgets (sim : Simulator τ) (hs : sim.Correct parserAtn) (schedule : Nat → List (Entry τ)) (rt : Runtime)
    (before before' : List ParseCall) (k : ParseCall) : ∃ N, ∀ n, N ≤ n → ∃ r,
      (sessionC sim (othersStore sim schedule) rt.toPyRuntime n (before ++ [k]) (.empty τ)).1.getLast? = some (some r) ∧
      (sessionC sim (othersStore sim schedule) rt.toPyRuntime n (before' ++ [k]) (.empty τ)).1.getLast? = some (some r) := by
  obtain ⟨N, hN⟩ := C83_any_schedule sim hs schedule rt (before ++ [k])
  obtain ⟨M, hM⟩ := C83_any_schedule sim hs schedule rt (before' ++ [k])
  exact ⟨max N M, fun n hn => ⟨k.answer rt, by rw [hN n (by omega)]; simp, by rw [hM n (by omega)]; simp⟩⟩

end

/-! A simulation that meets the hypothesis: it remembers the decision and the token types seen. -/

/-- After tokens of the types `u`, alternative `i` of decision `d` is viable for some continuation and context. -/
def Possible (A : Atn) (d : Nat) (u : List Int) (i : Nat) : Prop :=
  ∃ ctx ts, u <+: ts.map (fun t => t.type.num) ∧ ViableAlt A d ctx ts i

open Classical in
/-- One alternative left, none left, or still more than one. -/
noncomputable def lookaheadVerdict (A : Atn) (d : Nat) (u : List Int) : Verdict :=
  if h : ∃ i, Possible A d u i ∧ ∀ j, Possible A d u j → j = i then .alt h.choose
  else if ∃ i, Possible A d u i then .more else .fail

/-- The lookahead simulation. -/
noncomputable def lookahead (A : Atn) : Simulator (Nat × List Int) where
  start d := (d, [])
  target s k := (s.1, s.2 ++ [k])
  verdict s := lookaheadVerdict A s.1 s.2
  finished _ _ := none
  fullContext := (bestPredictor A).predict
  sync := (bestPredictor A).sync

theorem lookahead_after (A : Atn) (d : Nat) (u : List Int) : (lookahead A).after d u = (d, u) := by
  have : ∀ v : List Int, u.foldl (lookahead A).target (d, v) = (d, v ++ u) := by
    induction u with
    | nil => intro v; simp
    | cons k u ih => intro v; rw [List.foldl_cons]; change u.foldl _ (d, v ++ [k]) = _; rw [ih]; simp
  exact this []

theorem lookahead_correct (A : Atn) : (lookahead A).Correct A := by
  have hi := bestPredictor_ideal A
  have halt : ∀ d u i, lookaheadVerdict A d u = .alt i → Possible A d u i ∧ ∀ j, Possible A d u j → j = i := by
    intro d u i h
    unfold lookaheadVerdict at h
    split at h
    · rename_i hex
      cases h
      exact hex.choose_spec
    · split at h <;> cases h
  refine ⟨?_, ?_, hi.predict, ?_, ?_, hi.range, hi.sync⟩
  · intro d u i h ctx ts j hp hj
    rw [lookahead_after] at h
    exact (halt d u i h).2 j ⟨ctx, ts, hp, hj⟩
  · intro d u h ctx ts j hp hj
    rw [lookahead_after] at h
    simp only [lookahead, lookaheadVerdict] at h
    split at h
    · cases h
    · split at h
      · cases h
      · rename_i hn
        exact hn ⟨j, ctx, ts, hp, hj⟩
  · intro d u i s h hd
    rw [lookahead_after] at h
    obtain ⟨⟨ctx, ts, -, s', t, h1, h2, h3, -⟩, -⟩ := halt d u i h
    rw [h1] at hd
    cases hd
    obtain ⟨h4, -⟩ := List.getElem?_eq_some_iff.1 h3
    exact ⟨h2, by omega⟩
  · intro d u ctx i s h
    cases h

/-- Three calls, while another thread stores two entries before the third access. -/
example : ∃ N, ∀ n, N ≤ n →
    (sessionC (lookahead parserAtn) (othersStore (lookahead parserAtn) fun k => if k = 3 then [.parser (0, none), .lexer (lexRules, 39)] else [])
      rt0.toPyRuntime n [.parse defaultConfig py!"'a'{2}", .antlr py!"[x", .parse locConfig py!"'a'{2}"] (.empty _)).1 =
      [.parse defaultConfig py!"'a'{2}", .antlr py!"[x", .parse locConfig py!"'a'{2}"].map fun k => some (ParseCall.answer rt0 k) :=
  C83_any_schedule _ (lookahead_correct _) _ _ _

example : ParseCall.answer rt0 (.antlr py!"[x") = .raised := by
  have : antlrParse py!"[x" = .error () := antlrParse_toBool_false (by decide +kernel)
  simp only [ParseCall.answer, this, ParseResult.ofTree]

end Fcsql
