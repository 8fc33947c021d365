/-
C52, C53, C54: the code ANTLR generated (FCSParser.py, FCSLexer.py) does what the grammar files say.
-/
import Verif.Proofs.GenRun
import Verif.Proofs.LexNetSplits
import Verif.Props.Grammar

set_option autoImplicit false
set_option linter.unusedSimpArgs false

namespace Fcsql

attribute [local irreducible] parseQuery

theorem antlrParse_toBool {q : PyStr} (h : (antlrParse q).toBool = true) : ∃ t, antlrParse q = .ok t := by
  cases h' : antlrParse q with
  | ok t => exact ⟨t, rfl⟩
  | error => rw [h'] at h; cases h

theorem antlrParse_toBool_false {q : PyStr} (h : (antlrParse q).toBool = false) : antlrParse q = .error () := by
  cases h' : antlrParse q with
  | ok t => rw [h'] at h; cases h
  | error => rfl

/-! ### C52 -/

/-- **C52.** The integers in FCSParser.py decode to a network. -/
theorem C52_decodes : ∃ A, deserialize parserData = some A ∧ A.grammarType = 1 ∧ A.maxToken = 25 ∧
    A.rules.length = 23 := ⟨parserAtn, parserAtn_eq, rfl, rfl, rfl⟩

/-- **C52.** The paths through a rule of the network in FCSParser.py are exactly the derivations of the rule in
FCSParser.g4: the tokens and rule nodes passed are the children of a derivation tree, and the tokens consumed are its
leaves. -/
theorem C52_network_is_grammar (A : Atn) (hA : deserialize parserData = some A) (r : Rule) (ts : List Tok)
    (f : List PTree) :
    Walk A (A.start r) ts f ↔ Fits (.rule r) [.node r f] ∧ (PTree.node r f).leaves = ts := by
  rw [parserAtn_eq] at hA
  cases hA
  rw [parserAtn_implements.iff]
  constructor
  · rintro ⟨c, h⟩
    refine ⟨fits_of_D (.rule h), ?_⟩
    have := leavesL_of_D h
    rw [PTree.leaves]
    exact this
  · rintro ⟨h, hl⟩
    obtain ⟨c, h⟩ := D_of_fits h
    obtain ⟨f', h, e⟩ := D_rule.1 h
    cases e
    refine ⟨c, ?_⟩
    rw [PTree.leavesL, PTree.leavesL, List.append_nil, hl] at h
    exact h

-- the tokens of `'a'` are a path through rule `query`
example : ∃ A f, deserialize parserData = some A ∧ Walk A (A.start .query) (tokenStream py!"'a'") f := by
  obtain ⟨t, h⟩ : ∃ t, antlrParse py!"'a'" = .ok t := antlrParse_toBool (by decide +kernel)
  obtain ⟨h1, h2⟩ := C09_derivation_tree _ _ h
  obtain ⟨c, hc⟩ := (parseTokens_some _ _).1 (antlrParse_ok.1 h)
  obtain ⟨f, rfl⟩ := chosen_query_node hc
  exact ⟨_, f, parserAtn_eq, (C52_network_is_grammar _ parserAtn_eq _ _ _).2 ⟨h1, h2⟩⟩

/-! ### C53 -/

/-- **C53.** Every generated rule function comes to an end on every token list, whatever alternatives the runtime's
prediction answers with; and if no error is reported, it has built a derivation tree of the tokens it consumed. -/
theorem C53_always_ends (P : Predictor) (hP : ∀ d ctx ts i s, P.predict d ctx ts = some i →
      parserAtn.decisions[d]? = some s → 1 ≤ i ∧ i ≤ (parserAtn.out s).length) (r : Rule) (ts : List Tok) :
    Ends P code r ts .error ∨ ∃ f us vs, Ends P code r ts (.ok f vs) ∧ ts = us ++ vs ∧
      Fits (.rule r) [.node r f] ∧ (PTree.node r f).leaves = us := by
  obtain ⟨res, h, hn⟩ := code_halts hP r ts
  cases res with
  | timeout => exact absurd rfl hn
  | error => exact .inl h
  | ok f vs =>
    right
    obtain ⟨us, c, h1, h2⟩ := code_sound hP h
    refine ⟨f, us, vs, h, h1, fits_of_D h2, ?_⟩
    have := leavesL_of_D h2
    rwa [PTree.leavesL, PTree.leavesL, List.append_nil] at this

theorem tokenStream_query {P : Predictor} (hP : P.Ideal parserAtn) (q : PyStr) :
    (∀ f, parseTokens (tokenStream q) = some (.node .query f) → Ends P code .query (tokenStream q) (.ok f [])) ∧
    (parseTokens (tokenStream q) = none → Ends P code .query (tokenStream q) .error) :=
  code_query hP (lexTokens q) (eofTok q) fun t ht => lexTokens_noEof q t ht

/-- **C53.** With a predictor that is right about the network, the generated function of rule `query`, run on the tokens
of a query, builds exactly the parse tree `antlr_parse` returns (the tree of C09-C11), or reports an error exactly when
`antlr_parse` raises. -/
theorem C53_generated_parser (P : Predictor) (hP : P.Ideal parserAtn) (q : PyStr) :
    (∀ f vs, Ends P code .query (tokenStream q) (.ok f vs) ↔ antlrParse q = .ok (.node .query f) ∧ vs = []) ∧
    (Ends P code .query (tokenStream q) .error ↔ antlrParse q = .error ()) ∧
    ¬ Ends P code .query (tokenStream q) .timeout := by
  obtain ⟨h1, h2⟩ := tokenStream_query hP q
  have hcases : (∃ f, antlrParse q = .ok (.node .query f) ∧ Ends P code .query (tokenStream q) (.ok f [])) ∨
      (antlrParse q = .error () ∧ Ends P code .query (tokenStream q) .error) := by
    cases h : parseTokens (tokenStream q) with
    | none => exact .inr ⟨by simp [antlrParse, h], h2 h⟩
    | some t =>
      obtain ⟨c, hc⟩ := (parseTokens_some _ _).1 h
      obtain ⟨f, rfl⟩ := chosen_query_node hc
      exact .inl ⟨f, antlrParse_ok.2 h, h1 f h⟩
  rcases hcases with ⟨f0, ha, he⟩ | ⟨ha, he⟩
  · refine ⟨fun f vs => ⟨fun h => ?_, ?_⟩, ⟨fun h => (by cases h.unique he), fun h => by rw [ha] at h; cases h⟩,
      fun h => by cases h.unique he⟩
    · have := h.unique he
      cases this
      exact ⟨ha, rfl⟩
    · rintro ⟨h, rfl⟩
      rw [ha] at h
      cases h
      exact he
  · refine ⟨fun f vs => ⟨fun h => (by cases h.unique he), ?_⟩, ⟨fun _ => ha, fun _ => he⟩, fun h => by cases h.unique he⟩
    rintro ⟨h, -⟩
    rw [ha] at h
    cases h

-- such a predictor exists; with it, `'a' | [b='c']` is parsed and `'a' | ` is not
example : ∃ P : Predictor, P.Ideal parserAtn ∧ (∃ f, Ends P code .query (tokenStream py!"'a' | [b='c']") (.ok f [])) ∧
    Ends P code .query (tokenStream py!"'a' | ") .error := by
  have hP := bestPredictor_ideal parserAtn
  refine ⟨_, hP, ?_, (C53_generated_parser _ hP _).2.1.2 (antlrParse_toBool_false (by decide +kernel))⟩
  obtain ⟨t, h⟩ : ∃ t, antlrParse py!"'a' | [b='c']" = .ok t := antlrParse_toBool (by decide +kernel)
  obtain ⟨c, hc⟩ := (parseTokens_some _ _).1 (antlrParse_ok.1 h)
  obtain ⟨f, rfl⟩ := chosen_query_node hc
  exact ⟨f, ((C53_generated_parser _ hP _).1 f []).2 ⟨h, rfl⟩⟩

/-! ### C54 -/

/-- **C54.** The integers in FCSLexer.py decode to a network. -/
theorem C54_decodes : ∃ A, deserialize lexerData = some A ∧ A.grammarType = 0 ∧ A.maxToken = 25 ∧
    A.rules.length = 32 := ⟨lexerAtn, lexerAtn_eq, rfl, rfl, rfl⟩

/-- **C54.** The pieces a query is cut into (tokens with their types, skipped text, error spans) are the ones the
network in FCSLexer.py prescribes: always the longest stretch that some alternative of its start state accepts, with the
type of the first such alternative, and skipped if a skip action is on the path. -/
theorem C54_lexer_network (A : Atn) (hA : deserialize lexerData = some A) (q : PyStr) (ps : List Piece) :
    lexPieces q = ps ↔ NetSplits A q 0 0 ps := by
  rw [lexerAtn_eq] at hA
  cases hA
  rw [lexPieces_iff, splits_net]

/-- **C54.** The languages of the rules: alternative `i` of the start state of the network is the `i`-th (non-fragment)
rule of FCSLexer.g4. -/
theorem C54_rules (A : Atn) (hA : deserialize lexerData = some A) (i : Nat) (w : PyStr) :
    A.LexAccepts i w ↔ ∃ p, lexRules[i]? = some p ∧ Matches p.2 w := by
  rw [lexerAtn_eq] at hA
  cases hA
  rw [lexAccepts_iff]
  constructor
  · rintro ⟨hi, h⟩; exact ⟨_, List.getElem?_eq_getElem hi, h⟩
  · rintro ⟨p, hp, h⟩
    obtain ⟨hi, rfl⟩ := List.getElem?_eq_some_iff.1 hp
    exact ⟨hi, h⟩

example : ∃ A, deserialize lexerData = some A ∧
    NetSplits A py!"ab #" 0 0 [⟨.tok .IDENTIFIER, py!"ab", 0, 0⟩, ⟨.skip, py!" ", 2, 2⟩, ⟨.err, py!"#", 3, 3⟩] :=
  ⟨_, lexerAtn_eq, (C54_lexer_network _ lexerAtn_eq _ _).1 (by decide +kernel)⟩

end Fcsql
