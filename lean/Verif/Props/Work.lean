/-
C101: how much work a query causes: looks at its characters, predictions, looks at its tokens.
-/
import Verif.Proofs.Work
import Verif.Proofs.PredictionCount
import Verif.Props.Adaptive
import Verif.Props.Depth
import Verif.Props.Examples

set_option autoImplicit false
set_option linter.unusedSimpArgs false

namespace Fcsql

attribute [local irreducible] parserAtn parseQuery lexPieces

/-- **C101.** The lexer looks at least `n` and at most `2 n` times at a character of a text of `n ≥ 1` characters (a look at the
end of the text counts), whatever the text is: it need not be a query, and characters that start no token are among it. (28
steps without a character are enough for any closure, C93.) -/
theorem C101_lexing (q : PyStr) (hq : q ≠ []) (m : Nat) (hm : 28 ≤ m) :
    q.length ≤ runLexerRounds lexerAtn m q ∧ runLexerRounds lexerAtn m q ≤ 2 * q.length :=
  runLexerRounds_le q hm hq

/-- **C101.** Once for the empty text. -/
theorem C101_lexing_empty : runLexerRounds lexerAtn 28 [] = 1 := by decide +kernel

-- exactly that often: brackets; a word and characters that start no token (two looks at each)
example : runLexerRounds lexerAtn 28 py!"((((" = 8 := by decide +kernel
example : runLexerRounds lexerAtn 28 py!"a----" = 10 := by decide +kernel
-- a literal without its closing quote: read to the end
example : runLexerRounds lexerAtn 28 py!"'abc" = 5 ∧ runLexerRounds lexerAtn 28 py!"'abc" ≤ 2 * py!"'abc".length :=
  ⟨by decide +kernel, (C101_lexing _ (by decide) 28 (by omega)).2⟩

attribute [local irreducible] lexerAtn

/-- The predictions during the run of `parser.query()` on a query, after at most `n` steps. -/
abbrev predictionsOf (P : Predictor) (n : Nat) (q : PyStr) : List Asked := execAsked P code n [] (code .query) (tokenStream q)

theorem predict_alts (d : Nat) (ctx : List Nat) (ts : List Tok) (i : Nat) (h0 : 0 < parserAlts d)
    (h : parserAtn.simulator.predictor.predict d ctx ts = some i) : 1 ≤ i ∧ i ≤ parserAlts d := by
  unfold parserAlts at h0 ⊢
  split at h0
  · next s hs =>
    exact C87_range d s ctx ts i hs h
  · omega

/-- **C101.** During the run of the generated functions on a query that `antlr_parse` accepts, the runtime is asked for exactly the
predictions the parse tree is worth: the choices between alternatives, and those after `|`, `&` and `{`. -/
theorem C101_predictions_exact (q : PyStr) (t : PTree) (h : antlrParse q = .ok t) :
    ∃ N, ∀ n, N ≤ n → (predictionsOf parserAtn.simulator.predictor n q).length = t.choices := by
  obtain ⟨c, hc⟩ := (parseTokens_some _ _).1 (antlrParse_ok.1 h)
  obtain ⟨f, rfl⟩ := chosen_query_node hc
  obtain ⟨N, hN⟩ := C84_antlr q f h
  refine ⟨N, fun n hn => ?_⟩
  have h1 := execAsked_exact code_costs predict_alts n .query [] _ _ f [] _ (code_costs .query) (hN n hn)
  simp only [predictionsOf, PTree.choices, choicesOf] at h1 ⊢
  omega

example : ∃ N, ∀ n, N ≤ n → (predictionsOf parserAtn.simulator.predictor n py!"('a'{1,} | [b = 'c' & !d = 'e']) within s").length = 11 := by
  have := C101_predictions_exact py!"('a'{1,} | [b = 'c' & !d = 'e']) within s" _ (treeOf_ok (by decide +kernel))
  rwa [show (treeOf py!"('a'{1,} | [b = 'c' & !d = 'e']) within s").choices = 11 by decide +kernel] at this

/-- **C101.** During the run of the generated functions on a query of `k` tokens that `antlr_parse` accepts, the runtime is asked
for at most `k` predictions, each about what is left of the query. -/
theorem C101_predictions (q : PyStr) (t : PTree) (h : antlrParse q = .ok t) :
    ∃ N, ∀ n, N ≤ n → (predictionsOf parserAtn.simulator.predictor n q).length ≤ (lexTokens q).length ∧
      ∀ a ∈ predictionsOf parserAtn.simulator.predictor n q, a.rest <:+ tokenStream q := by
  obtain ⟨c, hc⟩ := (parseTokens_some _ _).1 (antlrParse_ok.1 h)
  obtain ⟨f, rfl⟩ := chosen_query_node hc
  obtain ⟨N, hN⟩ := C84_antlr q f h
  refine ⟨N, fun n hn => ⟨?_, (exec_rest n [] _ _).2⟩⟩
  have h1 := execAsked_ok code_pays predict_alts n [] _ _ f [] _ (code_pays .query) (hN n hn)
  have h2 : (PTree.leavesL f).length = (tokenStream q).length := by
    obtain ⟨cst, hs, he⟩ := syntaxOf_of_parse (antlrParse_ok.1 h)
    have := congrArg List.length hs.leaves
    rw [← this, ← he, PTree.leaves]
  have h3 : (tokenStream q).length = (lexTokens q).length + 1 := by rw [tokenStream, List.length_append]; rfl
  simp only [needs] at h1
  simp only [predictionsOf]
  omega

/-- **C101.** All these predictions together look at most `2 k (k + 1)` times at a token (the end of the query counts): no
query of `k` tokens makes the runtime's lookahead more than quadratic. -/
theorem C101_lookahead (q : PyStr) (t : PTree) (h : antlrParse q = .ok t) :
    ∃ N, ∀ n, N ≤ n → ((predictionsOf parserAtn.simulator.predictor n q).map parserAtn.rounds).sum ≤
      2 * (lexTokens q).length * ((lexTokens q).length + 1) := by
  obtain ⟨N, hN⟩ := C101_predictions q t h
  refine ⟨N, fun n hn => ?_⟩
  obtain ⟨h1, h2⟩ := hN n hn
  have h3 := sum_rounds_le parserAtn ((lexTokens q).length + 1) _ fun a ha => by
    have := (h2 a ha).length_le
    rw [tokenStream, List.length_append] at this
    exact this
  refine Nat.le_trans h3 ?_
  rw [Nat.mul_assoc, Nat.mul_assoc, Nat.mul_comm (lexTokens q).length]
  exact Nat.mul_le_mul_left _ (Nat.mul_le_mul_left _ h1)

-- a look that leads nowhere counts too, without and with context
example : parserAtn.rounds ⟨1, [46], [⟨.R_PAREN, py!")", 0, 0⟩]⟩ = 1 ∧
    parserAtn.llRounds (parserAtn.startConfigs true 1 (parserAtn.returnStates [46])) [⟨.R_PAREN, py!")", 0, 0⟩] = 1 := by decide +kernel

-- as many predictions as tokens; the first prediction for a group looks twice at everything
example : (predictionsOf parserAtn.simulator.predictor 60 py!"'a'").length = 1 := by decide +kernel
example : let l := predictionsOf parserAtn.simulator.predictor 80 py!"'a' | 'b'"
    (l.length, l.map parserAtn.rounds) = (3, [2, 4, 4]) := by decide +kernel
example : let l := predictionsOf parserAtn.simulator.predictor 80 py!"('a')"
    (l.length, l.map parserAtn.rounds) = (2, [8, 2]) := by decide +kernel
example : ∃ N, ∀ n, N ≤ n →
    ((predictionsOf parserAtn.simulator.predictor n py!"('a' | [b = 'c']) within s").map parserAtn.rounds).sum ≤ 264 := by
  have := C101_lookahead py!"('a' | [b = 'c']) within s" _ (treeOf_ok (by decide +kernel))
  rwa [show (lexTokens py!"('a' | [b = 'c']) within s").length = 11 by decide +kernel] at this
end Fcsql
