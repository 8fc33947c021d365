/-
C79: the generated parser on malformed queries.
-/
import Verif.Proofs.RecoveryCode
import Verif.Props.Generated
import Verif.Props.Errors

set_option autoImplicit false
set_option linter.unusedSimpArgs false

namespace Fcsql

attribute [local irreducible] parseQuery

variable {σ : Type} {S : Strategy σ} {m : σ} {eof : Tok} {prog : Rule → List Stmt}

/-! ### Results -/

theorem Returns.unique {r : Rule} {ts : List Tok} {f f' : List PTree} {es es' : List Tok} (h : Returns S m eof prog r ts f es)
    (h' : Returns S m eof prog r ts f' es') : f = f' ∧ es = es' := by
  obtain ⟨N, h⟩ := h
  obtain ⟨N', h'⟩ := h'
  have e := (h (max N N') (by omega)).symm.trans (h' (max N N') (by omega))
  simpa using e

/-- A result, from the run of the body. -/
theorem returns_of_halts {r : Rule} {ts : List Tok} {n : Nat}
    (h : execR S eof prog n [] (prog r) { rest := ts, stuck := 0, recovering := false, reports := [], mem := m } ≠ .timeout) :
    ∃ f es, callR S m eof prog n r ts = some (f, es) ∧ Returns S m eof prog r ts f es := by
  have hs : ∃ f es, callR S m eof prog n r ts = some (f, es) := by
    unfold callR
    cases he : execR S eof prog n [] (prog r) { rest := ts, stuck := 0, recovering := false, reports := [], mem := m } with
    | ok f s => exact ⟨_, _, rfl⟩
    | raised k s => exact ⟨_, _, rfl⟩
    | timeout => exact absurd he h
  obtain ⟨f, es, hs⟩ := hs
  refine ⟨f, es, hs, n, fun n' hn => ?_⟩
  rw [← hs]
  unfold callR
  rw [execR_mono hn h]

/-- The state in which a function that returned left the parser. -/
theorem Returns.moves {r : Rule} {ts : List Tok} {f : List PTree} {es : List Tok} (h : Returns S m eof prog r ts f es) :
    ∃ s', Moves eof { rest := ts, stuck := 0, recovering := false, reports := [], mem := m } s' ∧ s'.reports = es := by
  obtain ⟨N, h⟩ := h
  have h := h N (Nat.le_refl _)
  have hm := execR_moves (S := S) (eof := eof) (prog := prog) N [] (prog r)
    { rest := ts, stuck := 0, recovering := false, reports := [], mem := m }
  unfold callR at h
  cases he : execR S eof prog N [] (prog r) { rest := ts, stuck := 0, recovering := false, reports := [], mem := m } with
  | timeout => rw [he] at h; cases h
  | ok f' s' =>
    rw [he] at h hm
    simp only [Option.some.injEq, Prod.mk.injEq] at h
    exact ⟨s', hm, h.2⟩
  | raised k s' =>
    rw [he] at h hm
    simp only [Option.some.injEq, Prod.mk.injEq] at h
    exact ⟨_, Moves.trans hm (caught_moves [] k s'), h.2⟩

theorem capped_stream (q : PyStr) : Capped (tokenStream q) := by
  intro t ht
  simp only [tokenStream, List.getLast?_append, List.getLast?_singleton, Option.mem_def] at ht
  cases ht
  rfl

/-! ### C79 -/

/-- **C79.** On every query, malformed or not, the generated parser comes to an end, whatever its error strategy does, with
one result. -/
theorem C79_terminates (S : Strategy σ) (hS : S.Sound parserAtn) (m : σ) (q : PyStr) :
    ∃ f es, Returns S m (eofTok q) code .query (tokenStream q) f es ∧
      ∀ f' es', Returns S m (eofTok q) code .query (tokenStream q) f' es' → f' = f ∧ es' = es := by
  obtain ⟨n, hn⟩ := code_haltsR (eof := eofTok q) hS .query []
    { rest := tokenStream q, stuck := 0, recovering := false, reports := [], mem := m } (capped_stream q)
  obtain ⟨f, es, -, h⟩ := returns_of_halts hn
  exact ⟨f, es, h, fun f' es' h' => h'.unique h⟩

/-- **C79.** So does every function of the generated parser, on every list of tokens that ends with `EOF`. -/
theorem C79_terminates_rule (S : Strategy σ) (hS : S.Sound parserAtn) (m : σ) (r : Rule) (ts : List Tok) (eof : Tok)
    (he : eof.type = .EOF) : ∃ f es, Returns S m eof code r (ts ++ [eof]) f es := by
  obtain ⟨n, hn⟩ := code_haltsR (eof := eof) hS r []
    { rest := ts ++ [eof], stuck := 0, recovering := false, reports := [], mem := m } (by
      intro t ht
      simp only [List.getLast?_append, List.getLast?_singleton, Option.mem_def] at ht
      cases ht
      exact he)
  obtain ⟨f, es, -, h⟩ := returns_of_halts hn
  exact ⟨f, es, h⟩

/-- **C79.** It reports no error exactly for the queries `antlr_parse` accepts, and then the tree it builds is the one
`antlr_parse` returns. -/
theorem C79_silent_iff_accepted (S : Strategy σ) (hS : S.toPredictor.Ideal parserAtn) (m : σ) (q : PyStr) (f : List PTree) :
    Returns S m (eofTok q) code .query (tokenStream q) f [] ↔ antlrParse q = .ok (.node .query f) := by
  obtain ⟨h1, h2, -⟩ := C53_generated_parser S.toPredictor hS q
  constructor
  · intro h
    cases ha : antlrParse q with
    | ok t =>
      obtain ⟨c, hc⟩ := (parseTokens_some _ _).1 (antlrParse_ok.1 ha)
      obtain ⟨f', rfl⟩ := chosen_query_node hc
      obtain ⟨N, hN⟩ := (h1 f' []).2 ⟨ha, rfl⟩
      obtain ⟨N', h⟩ := h
      have e1 := hN (max N N') (by omega)
      have e2 := h (max N N') (by omega)
      have := (execR_exec (S := S) (eof := eofTok q) (prog := code) (max N N') [] (code .query)
        { rest := tokenStream q, stuck := 0, recovering := false, reports := [], mem := m } rfl rfl).1 f' [] e1
      rw [callR, this] at e2
      cases e2
      rfl
    | error u =>
      exfalso
      obtain ⟨N, hN⟩ := h2.2 ha
      obtain ⟨N', h⟩ := h
      have e1 := hN (max N N') (by omega)
      have e2 := h (max N N') (by omega)
      have hb := (execR_exec (S := S) (eof := eofTok q) (prog := code) (max N N') [] (code .query)
        { rest := tokenStream q, stuck := 0, recovering := false, reports := [], mem := m } rfl rfl).2 e1
      unfold callR at e2
      cases he : execR S (eofTok q) code (max N N') [] (code .query)
          { rest := tokenStream q, stuck := 0, recovering := false, reports := [], mem := m } with
      | timeout => rw [he] at e2; cases e2
      | ok f' s' =>
        rw [he] at e2 hb
        simp only [Option.some.injEq, Prod.mk.injEq] at e2
        simp only [ROut.Bad, e2.2, List.length_nil, Nat.lt_irrefl] at hb
      | raised k s' =>
        rw [he] at e2 hb
        simp only [Option.some.injEq, Prod.mk.injEq] at e2
        have := caught_bad (S := S) (eof := eofTok q) (ctx := []) (k := k) hb (by simp)
        rw [e2.2] at this
        simp at this
  · intro ha
    obtain ⟨N, hN⟩ := (h1 f []).2 ⟨ha, rfl⟩
    refine ⟨N, fun n hn => ?_⟩
    have := (execR_exec (S := S) (eof := eofTok q) (prog := code) n [] (code .query)
      { rest := tokenStream q, stuck := 0, recovering := false, reports := [], mem := m } rfl rfl).1 f [] (hN n hn)
    rw [callR, this]

/-- **C79.** Every error is reported at a token of the query (or its end), and there are at most as many reports as
tokens, plus one. -/
theorem C79_reports (S : Strategy σ) (m : σ) (q : PyStr) (f : List PTree) (es : List Tok)
    (h : Returns S m (eofTok q) code .query (tokenStream q) f es) :
    (∀ t ∈ es, t ∈ tokenStream q) ∧ es.length ≤ (tokenStream q).length + 1 := by
  obtain ⟨s', hm, rfl⟩ := h.moves
  obtain ⟨ys, e, hy⟩ := hm.reports
  constructor
  · intro t ht
    rw [e, List.nil_append] at ht
    rcases hy t ht with h | h
    · exact h
    · rw [h]; simp [tokenStream]
  · have := hm.pot
    simp [RState.pot] at this
    omega

/-- **C79.** What C41 assumes of the runtime (parser errors are reported at tokens of the query) holds when its reports are
those of such a run. -/
theorem C79_reports_ok (S : Strategy σ) (m : σ) (q : PyStr) (f : List PTree) (es : List Tok)
    (h : Returns S m (eofTok q) code .query (tokenStream q) f es) (rt : Runtime)
    (hr : ∀ e ∈ (rt.syntaxErrors q).1 :: (rt.syntaxErrors q).2, match e with
      | .lexer p => p ∈ lexErrors q
      | .parser t _ => t ∈ es) : ReportsOk rt q := by
  intro e he
  have := hr e he
  cases e with
  | lexer p => exact this
  | parser t msg => exact (C79_reports S m q f es h).1 t this

/-! ### An example -/

/-- An error strategy that always raises and skips one token. -/
noncomputable def skipStrategy : Strategy Unit where
  toPredictor := bestPredictor parserAtn
  onSync _ _ _ _ := (.raise, ())
  onMismatch _ _ _ _ := (.insert, ())
  onNoViable _ _ _ _ := (0, ())
  onRecover _ _ _ := (1, ())
  patience := 0

theorem skipStrategy_sound : skipStrategy.Sound parserAtn := by
  refine ⟨bestPredictor_ideal parserAtn, ?_⟩
  intro d ctx ts i h
  simp only [skipStrategy, bestPredictor] at h
  split at h
  · rename_i hex
    cases h
    obtain ⟨⟨s, t, h1, h2, h3, h4⟩, -⟩ := hex.choose_spec
    exact ⟨s, t, h1, h2, h3, h4.expected⟩
  · cases h

-- with it, the malformed query `'a' [b= | )` is parsed to the end, and errors are reported, at tokens of the query
example : ∃ f t es, Returns skipStrategy () (eofTok py!"'a' [b= | )") code .query (tokenStream py!"'a' [b= | )") f (t :: es) ∧
    t ∈ tokenStream py!"'a' [b= | )" := by
  obtain ⟨f, es, h, -⟩ := C79_terminates skipStrategy skipStrategy_sound () py!"'a' [b= | )"
  cases es with
  | nil =>
    have := (C79_silent_iff_accepted _ skipStrategy_sound.ideal () _ f).1 h
    rw [antlrParse_toBool_false (by decide +kernel)] at this
    cases this
  | cons t es => exact ⟨f, t, es, h, (C79_reports _ _ _ _ _ h).1 t (by simp)⟩

-- and the query `'a'` without any report
example : ∃ f, Returns skipStrategy () (eofTok py!"'a'") code .query (tokenStream py!"'a'") f [] := by
  obtain ⟨t, h⟩ : ∃ t, antlrParse py!"'a'" = .ok t := antlrParse_toBool (by decide +kernel)
  obtain ⟨c, hc⟩ := (parseTokens_some _ _).1 (antlrParse_ok.1 h)
  obtain ⟨f, rfl⟩ := chosen_query_node hc
  exact ⟨f, (C79_silent_iff_accepted _ skipStrategy_sound.ideal () _ f).2 h⟩

end Fcsql
