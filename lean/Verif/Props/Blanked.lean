/-
C76: text that is not recognised acts like blanks for `antlr_parse`.
-/
import Verif.Proofs.Blanked
import Verif.Props.Grammar
import Verif.Props.Entry

set_option autoImplicit false
set_option linter.unusedSimpArgs false

namespace Fcsql

attribute [local irreducible] parseQuery

/-- **C76.** If everything the lexer does not recognise in `q` is replaced by whitespace, the text has no lexical error, the
tokens are the same, at the same positions, and `antlr_parse` gives the same tree or raises as well. -/
theorem C76_like_blanks (q q' : PyStr) (h : Blanked q q') :
    lexErrors q' = [] ∧ tokenStream q' = tokenStream q ∧ antlrParse q' = antlrParse q := by
  obtain ⟨h1, h2⟩ := (laidAt_iff _ _).1 h.laid
  have h3 : tokenStream q' = tokenStream q := by
    simp only [tokenStream, eofTok, h2, h.length]
  exact ⟨h1, h3, by unfold antlrParse; rw [h3]⟩

/-- **C76.** So `parse` finds no syntax error in the blanked-out text exactly if `antlr_parse` returns for the original one;
it then builds the tree from what `antlr_parse` returned. -/
theorem C76_parse_blanked (rt : Runtime) (cfg : Config) (q q' : PyStr) (h : Blanked q q') :
    ((parseQuery rt cfg q').2 = [] ↔ ∃ t, antlrParse q = .ok t) ∧
    ∀ t, antlrParse q = .ok t → (parseQuery rt cfg q').1 = (build rt.toPyRuntime cfg t).mapError wrapExc := by
  obtain ⟨h1, -, h3⟩ := C76_like_blanks q q' h
  have hfull : ∀ t, antlrParse q = .ok t → parseQuery rt cfg q' = ((build rt.toPyRuntime cfg t).mapError wrapExc, []) := by
    intro t ht
    rw [← h3] at ht
    obtain ⟨cst, hs, rfl⟩ := syntaxOf_of_parse (antlrParse_ok.1 ht)
    exact parseQuery_syntax rt cfg q' hs h1
  refine ⟨⟨fun he => ?_, ?_⟩, fun t ht => by rw [hfull t ht]⟩
  · by_cases hg : lexErrors q' = [] ∧ Grammatical (tokenStream q')
    · have := (C05_antlr_parse_partial rt cfg q').1.2 hg.2
      rwa [h3] at this
    · obtain ⟨e, es, -, hr⟩ := parseQuery_error rt cfg q' hg
      rw [hr] at he
      cases he
  · rintro ⟨t, ht⟩
    rw [hfull t ht]

open Classical in
/-- **C76.** Such a text exists for every query; a query without lexical error is its own. -/
theorem C76_exists (q : PyStr) : (∃ q', Blanked q q') ∧ (lexErrors q = [] → ∀ q', Blanked q q' ↔ q' = q) := by
  refine ⟨⟨(List.range q.length).map fun i => if Unrecognised q i then 32 else q[i]?.getD 0, ?_, ?_, ?_⟩, ?_⟩
  · simp
  · rintro i ⟨p, hp, h1, h2⟩
    have hb := (piece_bounds (List.mem_filter.1 hp).1).2.1
    refine ⟨32, ?_, by decide⟩
    have hi : i < q.length := by omega
    have hu : Unrecognised q i := ⟨p, hp, h1, h2⟩
    simp [hi, hu]
  · intro i hi
    by_cases hlt : i < q.length
    · simp [hlt, hi]
    · simp [hlt]
  · intro he q'
    have hu : ∀ i, ¬ Unrecognised q i := by
      rintro i ⟨p, hp, -⟩
      rw [he] at hp
      cases hp
    constructor
    · intro h
      exact List.ext_getElem? fun i => h.same i (hu i)
    · rintro rfl
      exact ⟨rfl, fun i h => absurd h (hu i), fun _ _ => rfl⟩

-- `parse` rejects the first query, `antlr_parse` reads it as the second one
example : Blanked py!"'a' $# [b='c'%]-" py!"'a'  \t [b='c' ] " ∧ (canParse rt0 py!"'a' $# [b='c'%]-") = false ∧
    (canParse rt0 py!"'a'  \t [b='c' ] ") = true := by
  have he : lexErrors py!"'a' $# [b='c'%]-" = [⟨.err, py!"$", 4, 4⟩, ⟨.err, py!"#", 5, 5⟩, ⟨.err, py!"%", 13, 13⟩,
      ⟨.err, py!"-", 15, 15⟩] := by decide +kernel
  have hu : ∀ i, Unrecognised py!"'a' $# [b='c'%]-" i ↔ i = 4 ∨ i = 5 ∨ i = 13 ∨ i = 15 := by
    intro i
    simp only [Unrecognised, he, List.mem_cons, List.not_mem_nil, or_false, exists_eq_or_imp, exists_eq_left, List.length_cons,
      List.length_nil]
    omega
  refine ⟨⟨rfl, ?_, ?_⟩, by decide +kernel, by decide +kernel⟩
  · intro i hi
    rw [hu] at hi
    rcases hi with rfl | rfl | rfl | rfl <;> exact ⟨_, rfl, by decide⟩
  · intro i hi
    rw [hu] at hi
    by_cases h : i < 16
    · have : ∀ i ∈ List.range 16, (i = 4 ∨ i = 5 ∨ i = 13 ∨ i = 15) ∨
          (py!"'a'  \t [b='c' ] ")[i]? = (py!"'a' $# [b='c'%]-")[i]? := by decide
      exact (this i (List.mem_range.2 h)).resolve_left hi
    · rw [List.getElem?_eq_none (by simp; omega), List.getElem?_eq_none (by simp; omega)]

end Fcsql
