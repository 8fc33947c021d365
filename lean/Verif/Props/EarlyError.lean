/-
C88: the first error may be reported too early.
-/
import Verif.Props.NeverLate

set_option autoImplicit false
set_option linter.unusedSimpArgs false

namespace Fcsql

attribute [local irreducible] parseQuery

/-- `'x'|'y'[a='b'|c='d'&]`: the operand after `&` is missing. -/
def earlyQuery : PyStr := py!"'x'|'y'[a='b'|c='d'&]"

/-- The token `&` in it. -/
def ampTok : Tok := (tokenStream earlyQuery)[11]

theorem early_run : ∃ f es, Returns antlrSkip () (eofTok earlyQuery) code .query (tokenStream earlyQuery) f (ampTok :: es) := by
  have h : (callR antlrSkip () (eofTok earlyQuery) code 60 .query (tokenStream earlyQuery)).map (fun p => p.2.head?) =
      some (some ampTok) := by decide +kernel
  cases hc : callR antlrSkip () (eofTok earlyQuery) code 60 .query (tokenStream earlyQuery) with
  | none => rw [hc] at h; cases h
  | some p =>
    obtain ⟨f, es⟩ := p
    rw [hc] at h
    simp only [Option.map_some, Option.some.injEq] at h
    cases es with
    | nil => cases h
    | cons y es => cases h; exact ⟨f, es, returns_of_callR hc⟩

/-- With `&` it is still the beginning of a query. -/
theorem early_good : Begins ((tokenStream earlyQuery).take 12) := by
  have h := (begins_stream py!"'x'|'y'[a='b'|c='d'&e='f']").2 (antlrParse_toBool (by decide +kernel))
  rw [← List.take_append_drop 12 (tokenStream py!"'x'|'y'[a='b'|c='d'&e='f']")] at h
  have e : (tokenStream py!"'x'|'y'[a='b'|c='d'&e='f']").take 12 = (tokenStream earlyQuery).take 12 := by decide +kernel
  rw [e] at h
  exact h.left

/-- **C88.** The first error is not always reported at the token at which the query stops being the beginning of some query:
with the runtime library's prediction (which first looks ahead without regard to the calling context), in
`'x'|'y'[a='b'|c='d'&]` it is reported at `&`, although the operand after it is what is missing. -/
theorem C88_early_partial : ∃ (q : PyStr) (us vs : List Tok) (x : Tok), lexErrors q = [] ∧ tokenStream q = us ++ x :: vs ∧
    Begins (us ++ [x]) ∧ x.text = py!"&" ∧
    ∃ f es, Returns antlrSkip () (eofTok q) code .query (tokenStream q) f (x :: es) := by
  refine ⟨earlyQuery, (tokenStream earlyQuery).take 11, (tokenStream earlyQuery).drop 12, ampTok, by decide +kernel, by decide +kernel, ?_,
    by decide +kernel, early_run⟩
  rw [show (tokenStream earlyQuery).take 11 ++ [ampTok] = (tokenStream earlyQuery).take 12 by decide +kernel]
  exact early_good

/-- **C88.** So the runtime library does not look ahead as far as it can. -/
theorem C88_not_exact_partial : ¬ antlrSkip.Exact parserAtn := by
  intro h
  obtain ⟨q, us, vs, x, -, e, hb, -, f, es, hr⟩ := C88_early_partial
  exact ((C88_first_error_partial antlrSkip h () q f _ hr us x vs e).1 rfl).2 hb

end Fcsql
