/-
C78: the shipped artifacts, end to end.
-/
import Verif.Props.Generated
import Verif.Props.TreeBuilder

set_option autoImplicit false
set_option linter.unusedSimpArgs false

namespace Fcsql

attribute [local irreducible] parseQuery

theorem lexTokens_pieces {q : PyStr} {ps : List Piece} (h : lexPieces q = ps) :
    tokenStream q = ps.filterMap Piece.tok? ++ [eofTok q] := by rw [← h]; rfl

/-- **C78.** End to end, from the artifacts that are shipped: cut the query into pieces the way the network in
FCSLexer.py says; run the generated functions of FCSParser.py, starting with `query`, on the tokens among the pieces (and
the end-of-input token), with any predictor that is right about the network in FCSParser.py; visit the resulting context
with the `ExpressionTreeBuilder`, method by method; pop the node.  `QueryParser.parse` succeeds with a node exactly if no
piece is a lexical error, no syntax error is reported, the builder raises nothing and pops that node. -/
theorem C78_accepts (rt : Runtime) (cfg : Config) (L N : Atn) (hL : deserialize lexerData = some L)
    (hN : deserialize parserData = some N) (P : Predictor) (hP : P.Ideal N) (q : PyStr) (ps : List Piece)
    (hps : NetSplits L q 0 0 ps) (n : Node) :
    (parseQuery rt cfg q).1 = .ok n ↔ (∀ p ∈ ps, p.kind ≠ .err) ∧
      ∃ f vs, Ends P code .query (ps.filterMap Piece.tok? ++ [eofTok q]) (.ok f vs) ∧
        runBuilder rt.toPyRuntime cfg (.node .query f) = .ok n := by
  rw [parserAtn_eq] at hN
  cases hN
  have hq := (C54_lexer_network L hL q ps).2 hps
  have hl : lexErrors q = [] ↔ ∀ p ∈ ps, p.kind ≠ .err := by
    simp [lexErrors, hq, List.filter_eq_nil_iff]
  rw [← lexTokens_pieces hq, ← hl]
  constructor
  · intro h
    obtain ⟨hle, cst, hs, -⟩ := (parse_ok rt cfg q n).1 h
    refine ⟨hle, ?_⟩
    have ha := antlrParse_ok.2 hs.parse
    obtain ⟨f, hf⟩ : ∃ f, cst.toTree = .node .query f := ⟨_, rfl⟩
    rw [hf] at ha
    refine ⟨f, [], ((C53_generated_parser P hP q).1 f []).2 ⟨ha, rfl⟩, ?_⟩
    rw [← C77_parse rt cfg q _ ha hle, h]
  · rintro ⟨hle, f, vs, he, hb⟩
    have ha := (((C53_generated_parser P hP q).1 f vs).1 he).1
    rw [C77_parse rt cfg q _ ha hle, hb]

/-- **C78.** Otherwise it raises: with `unable to parse query` if a piece is a lexical error or the generated functions
report a syntax error, and with what the builder raised if only the builder does. -/
theorem C78_raises (rt : Runtime) (cfg : Config) (L N : Atn) (hL : deserialize lexerData = some L)
    (hN : deserialize parserData = some N) (P : Predictor) (hP : P.Ideal N) (q : PyStr) (ps : List Piece)
    (hps : NetSplits L q 0 0 ps) (hn : ∀ n, (parseQuery rt cfg q).1 ≠ .ok n) :
    (((∃ p ∈ ps, p.kind = .err) ∨ Ends P code .query (ps.filterMap Piece.tok? ++ [eofTok q]) .error) ∧
      ∃ e es, (parseQuery rt cfg q) = (.error ⟨py!"unable to parse query: " ++ e.message⟩, e :: es)) ∨
    ((∀ p ∈ ps, p.kind ≠ .err) ∧ ∃ f vs e, Ends P code .query (ps.filterMap Piece.tok? ++ [eofTok q]) (.ok f vs) ∧
      runBuilder rt.toPyRuntime cfg (.node .query f) = .error e ∧ parseQuery rt cfg q = (.error e, [])) := by
  rw [parserAtn_eq] at hN
  cases hN
  have hq := (C54_lexer_network L hL q ps).2 hps
  have hl : lexErrors q = [] ↔ ∀ p ∈ ps, p.kind ≠ .err := by
    simp [lexErrors, hq, List.filter_eq_nil_iff]
  rw [← lexTokens_pieces hq, ← hl]
  by_cases hg : lexErrors q = [] ∧ Grammatical (tokenStream q)
  · right
    obtain ⟨cst, hs⟩ := (grammatical_iff_syntax q).1 hg.2
    have ha := antlrParse_ok.2 hs.parse
    obtain ⟨f, hf⟩ : ∃ f, cst.toTree = .node .query f := ⟨_, rfl⟩
    rw [hf] at ha
    have hp := C77_parse rt cfg q _ ha hg.1
    have hr := parseQuery_syntax rt cfg q hs hg.1
    refine ⟨hg.1, f, [], ?_⟩
    rcases hb : runBuilder rt.toPyRuntime cfg (.node .query f) with e | n
    · refine ⟨e, ((C53_generated_parser P hP q).1 f []).2 ⟨ha, rfl⟩, rfl, ?_⟩
      rw [hb] at hp
      rw [← hp, hr]
    · exact absurd (hp.trans hb) (hn n)
  · left
    refine ⟨?_, ?_⟩
    · by_cases hle : lexErrors q = []
      · right
        refine (C53_generated_parser P hP q).2.1.2 ?_
        have : parseTokens (tokenStream q) = none := by
          cases hp : parseTokens (tokenStream q) with
          | none => rfl
          | some t =>
            obtain ⟨cst, hs, -⟩ := syntaxOf_of_parse hp
            exact absurd ⟨hle, (grammatical_iff_syntax q).2 ⟨_, hs⟩⟩ hg
        simp [antlrParse, this]
      · left
        have : ¬ ∀ p ∈ ps, p.kind ≠ .err := fun h => hle (hl.2 h)
        simpa using this
    · obtain ⟨e, es, -, h⟩ := parseQuery_error rt cfg q hg
      exact ⟨_, _, h⟩

-- Both networks decode and a right predictor exists; the query `'a'{2}` goes through all the stages, `'a'/il` is stopped
-- by the builder and `'a' #` by the lexer.
example : ∃ (L N : Atn) (P : Predictor) (ps : List Piece) (f vs : _) (n : Node), deserialize lexerData = some L ∧
    deserialize parserData = some N ∧ P.Ideal N ∧ NetSplits L py!"'a'{2}" 0 0 ps ∧
    Ends P code .query (ps.filterMap Piece.tok? ++ [eofTok py!"'a'{2}"]) (.ok f vs) ∧
    runBuilder rt0.toPyRuntime defaultConfig (.node .query f) = .ok n ∧ n.nodeType = .QUERY_SEGMENT := by
  obtain ⟨n, hn, ht⟩ : ∃ n, (parseQuery rt0 defaultConfig py!"'a'{2}").1 = .ok n ∧ n.nodeType = .QUERY_SEGMENT := by
    have : (match (parseQuery rt0 defaultConfig py!"'a'{2}").1 with
        | .ok n => decide (n.nodeType = .QUERY_SEGMENT) | .error _ => false) = true := by decide +kernel
    revert this
    cases (parseQuery rt0 defaultConfig py!"'a'{2}").1 with
    | error _ => intro h; cases h
    | ok n => intro h; exact ⟨n, rfl, by simpa using h⟩
  have hs := (C54_lexer_network _ lexerAtn_eq py!"'a'{2}" _).1 rfl
  obtain ⟨-, f, vs, he, hb⟩ := (C78_accepts rt0 defaultConfig _ _ lexerAtn_eq parserAtn_eq _ (bestPredictor_ideal parserAtn)
    py!"'a'{2}" _ hs n).1 hn
  exact ⟨_, _, _, _, f, vs, n, lexerAtn_eq, parserAtn_eq, bestPredictor_ideal parserAtn, hs, he, hb, ht⟩

example : (∀ n, (parseQuery rt0 defaultConfig py!"'a'/il").1 ≠ .ok n) ∧ (parseQuery rt0 defaultConfig py!"'a'/il").2 = [] ∧
    (∀ n, (parseQuery rt0 defaultConfig py!"'a' #").1 ≠ .ok n) ∧ (parseQuery rt0 defaultConfig py!"'a' #").2.length = 1 := by
  have e : ∀ {x : Except ParserException Node}, x.toBool = false → ∀ n, x ≠ .ok n := by
    intro x h n hx; rw [hx] at h; cases h
  exact ⟨e (by decide +kernel), by decide +kernel, e (by decide +kernel), by decide +kernel⟩

end Fcsql
