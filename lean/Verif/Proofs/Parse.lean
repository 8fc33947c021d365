/-
From query strings to trees: tokens are in the languages of their rules, and the outcome of a parse.
-/
import Verif.Proofs.Denote
import Verif.Model.QueryParser

set_option autoImplicit false
set_option linter.unusedSimpArgs false

namespace Fcsql

theorem FirstRule.mem {rs : List (TokType × Rx)} {t : TokType} {w : PyStr} (h : FirstRule rs t w) :
    ∃ r, (t, r) ∈ rs ∧ Matches r w := by
  induction h with
  | here h => exact ⟨_, List.mem_cons_self, h⟩
  | there _ _ ih =>
    obtain ⟨r, h1, h2⟩ := ih
    exact ⟨r, List.mem_cons_of_mem _ h1, h2⟩

theorem Splits.lexed {s : PyStr} {pos col : Nat} {ps : List Piece} (h : Splits s pos col ps) :
    ∀ t ∈ ps.filterMap Piece.tok?, t.Lexed ∧ t.type ≠ .EOF := by
  induction h with
  | nil => simp
  | @token w rest pos col t ps hm _ ih =>
    intro x hx
    simp only [List.filterMap_cons] at hx
    unfold Piece.tok? kindOf at hx
    split at hx
    · rename_i h
      exact ih x hx
    · rename_i y h
      rcases List.mem_cons.1 hx with rfl | hx
      · obtain ⟨r, h1, h2⟩ := hm.first.mem
        split at h
        · rename_i t' hk
          split at hk
          · cases hk
          · cases hk
            simp only [Option.some.injEq] at h
            subst h
            refine ⟨.inr ⟨r, h1, h2⟩, ?_⟩
            rintro (rfl : t = _)
            revert h1; simp [lexRules]
        · cases h
      · exact ih x hx
  | error _ _ ih => simpa [Piece.tok?] using ih

/-- Every token's text is in the language of its rule. -/
theorem lexTokens_lexed (q : PyStr) : ∀ t ∈ lexTokens q, t.Lexed := fun t ht =>
  ((lexPieces_splits q).lexed t ht).1

theorem lexTokens_noEof (q : PyStr) : ∀ t ∈ lexTokens q, t.type ≠ .EOF := fun t ht =>
  ((lexPieces_splits q).lexed t ht).2

theorem tokenStream_lexed (q : PyStr) : ∀ t ∈ tokenStream q, t.Lexed := by
  intro t ht
  rcases List.mem_append.1 ht with h | h
  · exact lexTokens_lexed q t h
  · rcases List.mem_singleton.1 h with rfl
    exact .inl rfl

/-- The concrete syntax tree the parser takes for a query. -/
structure SyntaxOf (q : PyStr) (cst : CQuery) : Prop where
  wf : cst.WF
  leaves : cst.toTree.leaves = tokenStream q
  chosen : ∃ c, Chosen (.rule .query) (tokenStream q) [cst.toTree] c

theorem SyntaxOf.lexed {q : PyStr} {cst : CQuery} (h : SyntaxOf q cst) : cst.toTree.Lexed := by
  intro x hx
  rw [h.leaves] at hx
  exact tokenStream_lexed q x hx

theorem SyntaxOf.parse {q : PyStr} {cst : CQuery} (h : SyntaxOf q cst) :
    parseTokens (tokenStream q) = some cst.toTree := (parseTokens_some _ _).2 h.chosen

theorem syntaxOf_of_parse {q : PyStr} {t : PTree} (h : parseTokens (tokenStream q) = some t) :
    ∃ cst, SyntaxOf q cst ∧ t = cst.toTree := by
  obtain ⟨c, hc⟩ := (parseTokens_some _ _).1 h
  obtain ⟨cst, h1, h2, h3⟩ := cst_of_D hc.derives
  cases h2
  exact ⟨cst, ⟨h1, h3, c, hc⟩, rfl⟩

theorem grammatical_iff_syntax (q : PyStr) : Grammatical (tokenStream q) ↔ ∃ cst, SyntaxOf q cst := by
  rw [grammatical_iff]
  constructor
  · rintro ⟨t, h⟩
    obtain ⟨cst, h1, _⟩ := syntaxOf_of_parse h
    exact ⟨cst, h1⟩
  · rintro ⟨cst, h⟩
    exact ⟨_, h.parse⟩

section
variable (rt : Runtime) (cfg : Config) (q : PyStr)

theorem rawErrors_nil_iff : rawErrors rt q = [] ↔ lexErrors q = [] ∧ Grammatical (tokenStream q) := by
  unfold rawErrors
  rw [grammatical_iff]
  cases parseTokens (tokenStream q) <;> simp

/-- Parsing a query without lexical and grammatical error is building the tree of its syntax. -/
theorem parseQuery_syntax {cst : CQuery} (h : SyntaxOf q cst) (hl : lexErrors q = []) :
    parseQuery rt cfg q = ((build rt.toPyRuntime cfg cst.toTree).mapError wrapExc, []) := by
  have hr : rawErrors rt q = [] := (rawErrors_nil_iff rt q).2 ⟨hl, (grammatical_iff_syntax q).2 ⟨_, h⟩⟩
  unfold parseQuery parseWith
  simp only [hr, List.map_nil, h.parse, build]
  rcases buildWith pureAlloc rt.toPyRuntime cfg () cst.toTree with e | ⟨n, u⟩ <;> rfl

/-- Parsing a query with an error raises, and lists the errors. -/
theorem parseQuery_error (h : ¬ (lexErrors q = [] ∧ Grammatical (tokenStream q))) :
    ∃ e es, rawErrors rt q = e :: es ∧
      parseQuery rt cfg q = (.error ⟨py!"unable to parse query: " ++ (listenerDetail q e).message⟩,
        listenerDetail q e :: es.map (listenerDetail q)) := by
  rw [← rawErrors_nil_iff rt q] at h
  cases hr : rawErrors rt q with
  | nil => exact absurd hr h
  | cons e es =>
    refine ⟨e, es, rfl, ?_⟩
    unfold parseQuery parseWith
    simp only [hr, List.map_cons]
    rfl

/-- A query is accepted exactly if it has no lexical error and its syntax denotes the tree returned. -/
theorem parse_ok (n : Node) : (parseQuery rt cfg q).1 = .ok n ↔
    lexErrors q = [] ∧ ∃ cst, SyntaxOf q cst ∧ cst.Denotes rt.toPyRuntime cfg n := by
  by_cases h : lexErrors q = [] ∧ Grammatical (tokenStream q)
  · obtain ⟨hl, hg⟩ := h
    obtain ⟨cst, hs⟩ := (grammatical_iff_syntax q).1 hg
    rw [parseQuery_syntax rt cfg q hs hl]
    have hb : ∀ cst', SyntaxOf q cst' → (cst'.Denotes rt.toPyRuntime cfg n ↔
        build rt.toPyRuntime cfg cst.toTree = .ok n) := by
      intro cst' hs'
      have : cst'.toTree = cst.toTree := by
        have := hs'.parse.symm.trans hs.parse
        simpa using this
      rw [← build_ok _ _ _ hs'.wf hs'.lexed, this]
    constructor
    · intro h
      refine ⟨hl, cst, hs, (hb _ hs).2 ?_⟩
      cases hbe : build rt.toPyRuntime cfg cst.toTree with
      | error e => simp [hbe, Except.mapError] at h
      | ok m => simpa [hbe, Except.mapError] using h
    · rintro ⟨_, cst', hs', hd⟩
      simp [(hb _ hs').1 hd, Except.mapError]
  · obtain ⟨e, es, _, he⟩ := parseQuery_error rt cfg q h
    rw [he]
    simp only [reduceCtorEq, false_iff]
    rintro ⟨hl, cst, hs, _⟩
    exact h ⟨hl, (grammatical_iff_syntax q).2 ⟨_, hs⟩⟩

end

end Fcsql
