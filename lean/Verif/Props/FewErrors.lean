/-
C92: how many records there are, and in which order they come.
-/
import Verif.Proofs.FewReports
import Verif.Props.Messages

set_option autoImplicit false
set_option linter.unusedSimpArgs false

namespace Fcsql

attribute [local irreducible] parserAtn parseQuery

/-- Tokens and unrecognised texts all have at least one character. -/
theorem texts_count (q : PyStr) : (lexTokens q).length + (lexErrors q).length ≤ q.length := by
  have h := lexPieces_splits q
  have := pieces_count (lexPieces q) h.nonempty
  rw [h.text] at this
  exact this

/-- **C92.** The generated parser reports at most one error for every token of the query, the end of input being one of them,
whatever its error strategy does. -/
theorem C92_reports {σ : Type} (S : Strategy σ) (m : σ) (q : PyStr) (f : List PTree) (es : List Tok)
    (h : Returns S m (eofTok q) code .query (tokenStream q) f es) : es.length ≤ (lexTokens q).length + 1 := by
  obtain ⟨N, hN⟩ := h
  have := callR_reports (endsEof_stream q) (hN N (Nat.le_refl _))
  simpa [tokenStream] using this

theorem raw_split (es : List RawErr) : es.length = (es.filterMap RawErr.piece?).length + (es.filterMap RawErr.tok?).length := by
  induction es with
  | nil => rfl
  | cons e es ih => cases e <;> simp only [List.filterMap_cons, RawErr.piece?, RawErr.tok?, List.length_cons] <;> omega

/-- **C92.** A query with `n` characters gives at most `n + 1` records. -/
theorem C92_records (rt : Runtime) (h : rt.Antlr) (cfg : Config) (q : PyStr) : (parseQuery rt cfg q).2.length ≤ q.length + 1 := by
  have hc := texts_count q
  rw [parse_records, List.length_map]
  by_cases hq : ∃ t, antlrParse q = .ok t
  · obtain ⟨t, ht⟩ := hq
    rw [rawErrors_accepted rt ht, List.length_map]
    omega
  · obtain ⟨rs, u, hr, he⟩ := h q fun t ht => hq ⟨t, ht⟩
    obtain ⟨T, hT⟩ := hr.reportedBy
    obtain ⟨f, hf⟩ := hT.parser
    have h1 := C92_reports _ 0 q f _ hf
    rw [he, raw_split, hr.pieces]
    omega

theorem lexLoop_dollars : ∀ (n fuel pos col : Nat), n ≤ fuel →
    (lexLoop fuel (List.replicate n 36) pos col).filterMap Piece.tok? = [] ∧
    ((lexLoop fuel (List.replicate n 36) pos col).filter fun p => p.kind = .err).length = n := by
  intro n
  induction n with
  | zero => intro fuel pos col _; cases fuel <;> simp [lexLoop]
  | succ n ih =>
    intro fuel pos col hn
    cases fuel with
    | zero => cases hn
    | succ fuel =>
      have e : nextPiece (36 :: List.replicate n 36) = (.err, 1) := by
        have : ∀ s, scan lexRules 0 none (36 :: s) = scan lexRules 0 none [36] := by
          intro s; rfl
        unfold nextPiece
        rw [this]
        have : scan lexRules 0 none [36] = ⟨none, 0⟩ := by decide +kernel
        rw [this]
        simp
      rw [List.replicate_succ, lexLoop, e]
      have := ih fuel (pos + 1) (advanceColumn col [36]) (by omega)
      simp only [List.take_succ_cons, List.take_zero, List.drop_succ_cons, List.drop_zero]
      constructor
      · rw [List.filterMap_cons_none rfl]; exact this.1
      · rw [List.filter_cons_of_pos (by simp), List.length_cons, this.2]

/-- **C92.** The bound cannot be improved: the query of `n` dollar signs has `n + 1` records. -/
theorem C92_tight (rt : Runtime) (h : rt.Antlr) (cfg : Config) (n : Nat) :
    (parseQuery rt cfg (List.replicate n 36)).2.length = n + 1 := by
  refine Nat.le_antisymm (by simpa using C92_records rt h cfg (List.replicate n 36)) ?_
  obtain ⟨ht, he⟩ := lexLoop_dollars n n 0 0 (Nat.le_refl _)
  have ht : lexTokens (List.replicate n 36) = [] := by
    unfold lexTokens lexPieces; rw [List.length_replicate]; exact ht
  have he : (lexErrors (List.replicate n 36)).length = n := by
    unfold lexErrors lexPieces; rw [List.length_replicate]; exact he
  obtain ⟨h1, h2, -⟩ := raw_antlr h (List.replicate n 36)
  rw [parse_records, List.length_map, raw_split, h1, he]
  have : (rawErrors rt (List.replicate n 36)).filterMap RawErr.tok? ≠ [] := by
    intro h0
    obtain ⟨t, hx⟩ := h2.1 h0
    rw [antlrParse_ok, tokenStream, ht] at hx
    obtain ⟨f, c, hd⟩ := (grammatical_iff _).2 ⟨t, hx⟩
    have := first_of_D hd (x := eofTok (List.replicate n 36)) (xs := []) rfl
    revert this
    change ¬ (-1 : Int) ∈ _
    decide
  have := List.length_pos_iff.2 this
  omega

-- one record for the empty query, two for a query of length one
example (rt : Runtime) (h : rt.Antlr) (cfg : Config) : (parseQuery rt cfg []).2.length = 1 ∧ (parseQuery rt cfg py!"$").2.length = 2 :=
  ⟨C92_tight rt h cfg 0, C92_tight rt h cfg 1⟩

/-- **C92.** The records are not always in the order of the text: the first complaint can be about a later token than the
second one. -/
theorem C92_unordered (rt : Runtime) (h : rt.Antlr) (cfg : Config) :
    ∃ q d₁ d₂ i j, (parseQuery rt cfg q).2 = [d₁, d₂] ∧ d₁.position = .loc i ∧ d₂.position = .loc j ∧ j.start < i.start := by
  have hc : callE parserAtn (eofTok py!"[ within : b [ ) } / [ [") code 40 .query (tokenStream py!"[ within : b [ ) } / [ [") =
      some ([⟨⟨.L_SQUARE_BRACKET, py!"[", 13, 13⟩, py!"no viable alternative at input '[within:b['", 0⟩,
        ⟨⟨.COLON, py!":", 9, 9⟩, py!"mismatched input ':' expecting SIMPLE_WITHIN_SCOPE", 0⟩], 0) := by decide +kernel
  refine ⟨_, _, _, ⟨13, 14⟩, ⟨9, 10⟩, parse_of_run h cfg hc (by simp), ?_, ?_, by decide⟩ <;> decide +kernel

/-- **C92.** A token can be complained about twice. -/
theorem C92_repeated (rt : Runtime) (h : rt.Antlr) (cfg : Config) :
    ∃ q d₁ d₂, (parseQuery rt cfg q).2 = [d₁, d₂] ∧ d₁.position = d₂.position ∧ d₁.message ≠ d₂.message := by
  have hc : callE parserAtn (eofTok py!"[ within b [ b [ } b )") code 40 .query (tokenStream py!"[ within b [ b [ } b )") =
      some ([⟨⟨.IDENTIFIER, py!"b", 9, 9⟩, py!"no viable alternative at input '[withinb'", 0⟩,
        ⟨⟨.IDENTIFIER, py!"b", 9, 9⟩, py!"mismatched input 'b' expecting SIMPLE_WITHIN_SCOPE", 0⟩], 0) := by decide +kernel
  refine ⟨_, _, _, parse_of_run h cfg hc (by simp), ?_, ?_⟩ <;> decide +kernel

/-- **C92.** The parser goes on after a mistake, in a rule further out if need be: two mistakes, two records. -/
theorem C92_goes_on (rt : Runtime) (h : rt.Antlr) (cfg : Config) :
    ∃ d₁ d₂, (parseQuery rt cfg py!"'a' | within 1").2 = [d₁, d₂] ∧
      d₁.message = py!"mismatched input 'within' expecting {'(', '[', REGEXP}" ∧ d₁.position = .loc ⟨6, 12⟩ ∧
      d₂.message = py!"mismatched input '1' expecting SIMPLE_WITHIN_SCOPE" ∧ d₂.position = .loc ⟨13, 14⟩ := by
  have hc : callE parserAtn (eofTok py!"'a' | within 1") code 60 .query (tokenStream py!"'a' | within 1") =
      some ([⟨⟨.WITHIN, py!"within", 6, 11⟩, py!"mismatched input 'within' expecting {'(', '[', REGEXP}", 1⟩,
        ⟨⟨.INTEGER, py!"1", 13, 13⟩, py!"mismatched input '1' expecting SIMPLE_WITHIN_SCOPE", 0⟩], 0) := by decide +kernel
  refine ⟨_, _, parse_of_run h cfg hc (by simp), ?_, ?_, ?_, ?_⟩ <;> decide +kernel

end Fcsql
