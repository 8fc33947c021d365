/-
C79, C80 with the prediction of the runtime library as it is (Model/Adaptive.lean): nothing is assumed any more about
prediction.
-/
import Verif.Proofs.AdaptiveRecovery
import Verif.Proofs.NeverLate
import Verif.Props.Adaptive
import Verif.Props.FirstError

set_option autoImplicit false
set_option linter.unusedSimpArgs false

namespace Fcsql

attribute [local irreducible] parseQuery

variable {σ : Type} {S : Strategy σ} {m : σ}

theorem inStep_start {e : Nat} (he : parserAtn.isStop e = true)
    (hi : Impl parserAtn (body .query) (code .query) (parserAtn.start .query) e (followOf .query)) (ts : List Tok) :
    InStep parserAtn Begins ts (parserAtn.start .query) [] ts := by
  have hacc : ∀ w, Accepts parserAtn (parserAtn.start .query) [] w ↔ ∃ f c, D (.rule .query) w f c := by
    intro w
    rw [hi.seg.accepts code_ok.impl]
    constructor
    · rintro ⟨u, v, f, c, rfl, hd, hv⟩
      rw [accepts_stop_nil code_ok.impl he] at hv
      subst hv
      exact ⟨_, c, by rw [List.append_nil]; exact .rule hd⟩
    · rintro ⟨f, c, hd⟩
      obtain ⟨f', hd, -⟩ := D_rule.1 hd
      exact ⟨w, [], f', c, by simp, hd, (accepts_stop_nil code_ok.impl he).2 rfl⟩
  refine ⟨[], rfl, ?_, ?_⟩
  · obtain ⟨ws, f, c, hd⟩ := begins_nil
    exact ⟨ws, (hacc _).2 ⟨f, c, hd⟩⟩
  · rintro w ⟨ws, hw⟩
    obtain ⟨f, c, hd⟩ := (hacc _).1 hw
    exact ⟨ws, f, c, hd⟩

theorem whole_stream (q : PyStr) : Whole Begins (tokenStream q) (eofTok q) := ⟨fun _ _ h => h.left, lexTokens q, rfl⟩

/-- What is reported first, with a careful strategy. -/
theorem first_report_late (hS : S.Careful parserAtn) {q : PyStr} {f : List PTree} {x : Tok} {es : List Tok}
    (h : Returns S m (eofTok q) code .query (tokenStream q) f (x :: es)) : ∃ us vs, tokenStream q = us ++ x :: vs ∧ Begins us := by
  obtain ⟨e, he, hi⟩ := code_ok.rule .query
  obtain ⟨N, hN⟩ := h
  have hN := hN N (Nat.le_refl _)
  have hg := late_of_impl (S := S) (eof := eofTok q) code_ok hS (whole_stream q) N hi N (Nat.le_refl _) [] []
    { rest := tokenStream q, stuck := 0, recovering := false, reports := [], mem := m }
    (fun _ => True) ⟨rfl, rfl⟩ (inStep_start he hi _) (by
      intro m' _ st' h1 _
      cases m' with
      | zero => simp [execR, UpToR]
      | succ m' => rw [execR]; exact .inl ⟨h1, trivial⟩)
  rw [List.append_nil] at hg
  unfold callR at hN
  cases hex : execR S (eofTok q) code N [] (code .query)
      { rest := tokenStream q, stuck := 0, recovering := false, reports := [], mem := m } with
  | timeout => rw [hex] at hN; cases hN
  | ok f' s' =>
    rw [hex] at hN hg
    simp only [Option.some.injEq, Prod.mk.injEq] at hN
    rcases hg with ⟨h1, -⟩ | ⟨y, hy, hr⟩
    · rw [h1.1] at hN; cases hN.2
    · rw [hN.2] at hy; cases hy; exact hr
  | raised k s' =>
    rw [hex] at hN hg
    simp only [Option.some.injEq, Prod.mk.injEq] at hN
    obtain ⟨y, hy, hr⟩ := caught_headR (S := S) (ctx := []) hg
    rw [hN.2] at hy; cases hy; exact hr

/-! ### C79 -/

/-- **C79.** With the prediction of the runtime library, the generated parser comes to an end on every query, with one
result. -/
theorem C79_antlr_terminates (S : Strategy σ) (hS : S.Antlr) (m : σ) (q : PyStr) :
    ∃ f es, Returns S m (eofTok q) code .query (tokenStream q) f es ∧
      ∀ f' es', Returns S m (eofTok q) code .query (tokenStream q) f' es' → f' = f ∧ es' = es := by
  simp only [returns_agree hS m (eofTok q) (endsEof_stream q)]
  exact C79_terminates S.patched (patched_sound S) m q

/-- **C79.** With the prediction of the runtime library, it reports no error exactly for the queries `antlr_parse` accepts,
and then the tree it builds is the one `antlr_parse` returns. -/
theorem C79_antlr_silent_iff_accepted (S : Strategy σ) (hS : S.Antlr) (m : σ) (q : PyStr) (f : List PTree) :
    Returns S m (eofTok q) code .query (tokenStream q) f [] ↔ antlrParse q = .ok (.node .query f) := by
  rw [returns_agree hS m (eofTok q) (endsEof_stream q)]
  exact C79_silent_iff_accepted S.patched antlrPredictor_ideal m q f

/-! ### C80 -/

/-- **C80.** The first error is not reported too late: the tokens before the one it is reported at are the beginning of some
query. -/
theorem C80_not_late (S : Strategy σ) (hS : S.Antlr) (m : σ) (q : PyStr) (f : List PTree) (x : Tok) (es : List Tok)
    (h : Returns S m (eofTok q) code .query (tokenStream q) f (x :: es)) : ∃ us vs, tokenStream q = us ++ x :: vs ∧ Begins us :=
  first_report_late (patched_careful hS) ((returns_agree hS m (eofTok q) (endsEof_stream q) f _).1 h)

/-- **C80.** So it is at the token at which the query stops being the beginning of some query, or before it. -/
theorem C80_at_or_before (S : Strategy σ) (hS : S.Antlr) (m : σ) (q : PyStr) (f : List PTree) (x : Tok) (es : List Tok)
    (h : Returns S m (eofTok q) code .query (tokenStream q) f (x :: es)) (us : List Tok) (y : Tok) (vs : List Tok)
    (hq : tokenStream q = us ++ y :: vs) (hy : ¬ Begins (us ++ [y])) : x ∈ us ++ [y] := by
  obtain ⟨us', vs', e, hb⟩ := C80_not_late S hS m q f x es h
  rw [hq] at e
  rcases Nat.lt_or_ge us.length us'.length with hl | hl
  · exfalso
    refine hy ?_
    have : us ++ [y] <+: us' := by
      have h1 : us ++ [y] <+: us' ++ x :: vs' := ⟨vs, by rw [← e]; simp⟩
      exact List.prefix_of_prefix_length_le h1 (List.prefix_append _ _) (by simp; omega)
    obtain ⟨w, hw⟩ := this
    rw [← hw] at hb
    exact hb.left
  · have h1 : us' ++ [x] <+: us ++ y :: vs := ⟨vs', by rw [e]; simp⟩
    have h2 : us ++ [y] <+: us ++ y :: vs := ⟨vs, by simp⟩
    exact (List.prefix_of_prefix_length_le h1 h2 (by simp; omega)).subset (by simp)

/-- **C80.** In a text without unrecognised characters, what is before the first error can be completed to a query that is
accepted. -/
theorem C80_text_before (S : Strategy σ) (hS : S.Antlr) (m : σ) (q : PyStr) (hl : lexErrors q = []) (f : List PTree)
    (x : Tok) (es : List Tok) (h : Returns S m (eofTok q) code .query (tokenStream q) f (x :: es)) :
    ∃ rest t, antlrParse (q.take x.start.toNat ++ rest) = .ok t := by
  obtain ⟨us, vs, hq, hb⟩ := C80_not_late S hS m q f x es h
  exact text_before hl hq hb

/-! ### Non-vacuity -/

/-- The runtime library with an error strategy that always raises, and skips one token. -/
def antlrSkip : Strategy Unit where
  toPredictor := parserAtn.simulator.predictor
  onSync _ _ _ _ := (.raise, ())
  onMismatch _ _ _ _ := (.raise, ())
  onNoViable _ d ctx ts := (parserAtn.offending d ctx ts, ())
  onRecover _ _ _ := (1, ())
  patience := 0

theorem antlrSkip_antlr : antlrSkip.Antlr := ⟨rfl, fun _ _ _ _ => rfl⟩

/-- A run with enough steps. -/
theorem returns_of_callR {eof : Tok} {prog : Rule → List Stmt} {n : Nat} {r : Rule} {ts : List Tok} {f : List PTree} {es : List Tok}
    (h : callR S m eof prog n r ts = some (f, es)) : Returns S m eof prog r ts f es := by
  have hne : execR S eof prog n [] (prog r) { rest := ts, stuck := 0, recovering := false, reports := [], mem := m } ≠ .timeout := by
    intro he
    unfold callR at h
    rw [he] at h
    cases h
  obtain ⟨f', es', h1, h2⟩ := returns_of_halts hne
  rw [h] at h1
  cases h1
  exact h2

/-- `'a' [b= | )`: the first error is reported at `|`. -/
theorem bar_run : ∃ f es, Returns antlrSkip () (eofTok py!"'a' [b= | )") code .query (tokenStream py!"'a' [b= | )") f (barTok :: es) := by
  have h : (callR antlrSkip () (eofTok py!"'a' [b= | )") code 60 .query (tokenStream py!"'a' [b= | )")).map (fun p => p.2.head?) =
      some (some barTok) := by decide +kernel
  cases hc : callR antlrSkip () (eofTok py!"'a' [b= | )") code 60 .query (tokenStream py!"'a' [b= | )") with
  | none => rw [hc] at h; cases h
  | some p =>
    obtain ⟨f, es⟩ := p
    rw [hc] at h
    simp only [Option.map_some, Option.some.injEq] at h
    cases es with
    | nil => cases h
    | cons y es => cases h; exact ⟨f, es, returns_of_callR hc⟩

-- so `'a' [b= ` can be completed
example : ∃ rest t, antlrParse (py!"'a' [b= " ++ rest) = .ok t := by
  obtain ⟨f, es, h⟩ := bar_run
  exact C80_text_before antlrSkip antlrSkip_antlr () py!"'a' [b= | )" (by decide +kernel) f barTok es h

-- and the token at which it stops being the beginning of a query is `|` or after it
example : ∃ us vs, tokenStream py!"'a' [b= | )" = us ++ barTok :: vs ∧ Begins us := by
  obtain ⟨f, es, h⟩ := bar_run
  exact C80_not_late antlrSkip antlrSkip_antlr () _ f barTok es h

end Fcsql
