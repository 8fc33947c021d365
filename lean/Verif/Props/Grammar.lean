/-
C09, C10, C11: parse trees are the derivation trees of the grammar, and which one is taken.
-/
import Verif.Proofs.Parse
import Verif.Proofs.Subtree
import Verif.Props.Examples

set_option autoImplicit false
set_option linter.unusedSimpArgs false

namespace Fcsql

attribute [local irreducible] parseQuery

theorem antlrParse_ok {q : PyStr} {t : PTree} : antlrParse q = .ok t ↔ parseTokens (tokenStream q) = some t := by
  unfold antlrParse
  cases parseTokens (tokenStream q) <;> simp

/-- `&` between the two operands, or `!` over both of them: two derivation trees of one query. -/
theorem grammar_ambiguous : ∃ t t', t ≠ t' ∧ Fits (.rule .query) [t] ∧ Fits (.rule .query) [t'] ∧ t.leaves = t'.leaves ∧
    t.leaves = tokenStream py!"[!a='1'&b='2']" := by
  let tk (ty : TokType) (w : PyStr) (i j : Int) : Tok := ⟨ty, w, i, j⟩
  let a : CExpr := .basic ⟨none, tk .IDENTIFIER py!"a" 2 2⟩ (tk .OPERATOR_EQ py!"=" 3 3) ⟨tk .REGEXP py!"'1'" 4 6, none⟩
  let b : CExpr := .basic ⟨none, tk .IDENTIFIER py!"b" 8 8⟩ (tk .OPERATOR_EQ py!"=" 9 9) ⟨tk .REGEXP py!"'2'" 10 12, none⟩
  let q (e : CExpr) : CQuery := ⟨.segment (tk .L_SQUARE_BRACKET py!"[" 0 0) (some e) (tk .R_SQUARE_BRACKET py!"]" 13 13) none,
    none, eofTok py!"[!a='1'&b='2']"⟩
  let bang := tk .NOT py!"!" 1 1
  let amp := tk .AND py!"&" 7 7
  have fa : Fits (.rule .attribute_) [(CAttr.mk none (tk .IDENTIFIER py!"a" 2 2)).toTree] :=
    .rule (.seq (f := []) (.altR .eps) (.rule (.altL (.tok rfl))))
  have fb : Fits (.rule .attribute_) [(CAttr.mk none (tk .IDENTIFIER py!"b" 8 8)).toTree] :=
    .rule (.seq (f := []) (.altR .eps) (.rule (.altL (.tok rfl))))
  have ra : ∀ w i j, Fits (.rule .regexp) [(CRegexp.mk (tk .REGEXP w i j) none).toTree] := fun w i j =>
    .rule (.seq (f := [_]) (f' := []) (.rule (.tok rfl)) (.altR .eps))
  have ea : Fits (.rule .expression_basic) [a.toTree] := by
    exact .rule (.seq (f := [_]) fa (.seq (f := [_]) (.altL (.tok rfl)) (ra _ _ _)))
  have eb : Fits (.rule .expression_basic) [b.toTree] := by
    exact .rule (.seq (f := [_]) fb (.seq (f := [_]) (.altL (.tok rfl)) (ra _ _ _)))
  have hand : ∀ x : PTree, Fits (body .expression_and) [x, .leaf amp, b.toTree] →
      Fits (.rule .expression_and) [.node .expression_and [x, .leaf amp, b.toTree]] := fun x h => .rule h
  have tail : Fits (G.plus (G.seqs [.tok .AND, G.alts [.rule .expression_basic, .rule .expression_group,
      .rule .expression_or, .rule .expression_not]])) [.leaf amp, b.toTree] :=
    .seq (f := [_, _]) (f' := []) (.seq (f := [_]) (.tok (x := amp) rfl) (.altL eb)) .starNil
  have t1 : Fits (.rule .expression_and) [(CExpr.and (.not bang a) (.cons amp b .nil)).toTree] := by
    refine .rule (.seq (f := [_]) (.altR (.altR (.rule ?_))) tail)
    exact .seq (f := [_]) (.tok (x := bang) rfl) (.altL ea)
  have t2 : Fits (.rule .expression_not) [(CExpr.not bang (.and a (.cons amp b .nil))).toTree] := by
    refine .rule (.seq (f := [_]) (.tok (x := bang) rfl) (.altR (.altR (.altR (.altR (.rule ?_))))))
    exact .seq (f := [_]) (.altL ea) tail
  have wrap : ∀ e : CExpr, Fits (body .expression) [e.toTree] → Fits (.rule .query) [(q e).toTree] := by
    intro e he
    refine .rule (.seq (f := [_]) (.rule (.altL (.rule ?_))) (.seq (f := []) (.altR .eps) (.tok (x := eofTok _) rfl)))
    refine .seq (f := [_]) (f' := []) (.altR (.rule ?_)) (.altR .eps)
    exact .seq (f := [_]) (.tok (x := tk .L_SQUARE_BRACKET py!"[" 0 0) rfl) (.seq (f := [_]) (.altL (.rule he))
      (.tok (x := tk .R_SQUARE_BRACKET py!"]" 13 13) rfl))
  refine ⟨(q (.and (.not bang a) (.cons amp b .nil))).toTree, (q (.not bang (.and a (.cons amp b .nil)))).toTree, ?_,
    wrap _ (.altR (.altR (.altR (.altL t1)))), wrap _ (.altR (.altR (.altR (.altR t2)))), by rfl, ?_⟩
  · intro h
    injection h with _ h; injection h with h _; injection h with _ h; injection h with h _; injection h with _ h
    injection h with h _; injection h with _ h; injection h with _ h; injection h with h _; injection h with _ h
    injection h with h _; injection h with h _; cases h
  · decide +kernel

/-! ### C09 -/

/-- **C09.** The parse tree is a derivation tree of rule `query` of the grammar, and its leaves are, in order, exactly the
tokens of the query followed by `EOF`. -/
theorem C09_derivation_tree (q : PyStr) (t : PTree) (h : antlrParse q = .ok t) :
    Fits (.rule .query) [t] ∧ t.leaves = lexTokens q ++ [eofTok q] := by
  rw [antlrParse_ok] at h
  obtain ⟨c, hc⟩ := (parseTokens_some _ _).1 h
  refine ⟨fits_of_D hc.derives, ?_⟩
  have := leavesL_of_D hc.derives
  rw [PTree.leavesL, PTree.leavesL, List.append_nil] at this
  exact this

/-- **C09.** The same for the tree the query tree is built from, whenever parsing reports no error. -/
theorem C09_query_parser (rt : Runtime) (cfg : Config) (q : PyStr) (h : (parseQuery rt cfg q).2 = []) :
    ∃ t, antlrParse q = .ok t ∧ (parseQuery rt cfg q).1 = (build rt.toPyRuntime cfg t).mapError wrapExc := by
  by_cases hg : lexErrors q = [] ∧ Grammatical (tokenStream q)
  · obtain ⟨cst, hs⟩ := (grammatical_iff_syntax q).1 hg.2
    exact ⟨_, antlrParse_ok.2 hs.parse, by rw [parseQuery_syntax rt cfg q hs hg.1]⟩
  · obtain ⟨e, es, -, h2⟩ := parseQuery_error rt cfg q hg
    rw [h2] at h; cases h

example : (antlrParse py!"'a' | [b='c']").toBool = true ∧ (parseQuery rt0 defaultConfig py!"'a' | [b='c']").2 = [] := by
  decide +kernel

/-! ### C10 -/

/-- **C10.** If there is a derivation tree for the tokens of the query, a parse tree is returned. -/
theorem C10_no_false_errors (q : PyStr) (t : PTree) (h : Fits (.rule .query) [t])
    (hl : t.leaves = lexTokens q ++ [eofTok q]) : ∃ t', antlrParse q = .ok t' := by
  obtain ⟨c, hc⟩ := D_of_fits h
  have hg : Grammatical (tokenStream q) := ⟨_, c, by
    have : PTree.leavesL [t] = tokenStream q := by rw [PTree.leavesL, PTree.leavesL, List.append_nil]; exact hl
    rw [← this]; exact hc⟩
  obtain ⟨t', h'⟩ := (grammatical_iff _).1 hg
  exact ⟨t', antlrParse_ok.2 h'⟩

/-- **C10.** Then no syntax error is reported (`self.errors` stays empty) if there is no lexical error either. -/
theorem C10_no_errors (rt : Runtime) (cfg : Config) (q : PyStr) (t : PTree) (h : Fits (.rule .query) [t])
    (hl : t.leaves = lexTokens q ++ [eofTok q]) (hx : lexErrors q = []) : (parseQuery rt cfg q).2 = [] := by
  obtain ⟨t', h'⟩ := C10_no_false_errors q t h hl
  obtain ⟨cst, hs, -⟩ := syntaxOf_of_parse (antlrParse_ok.1 h')
  rw [parseQuery_syntax rt cfg q hs hx]

example : ∃ t, Fits (.rule .query) [t] ∧ t.leaves = lexTokens py!"[!a='1'&b='2']" ++ [eofTok py!"[!a='1'&b='2']"] := by
  obtain ⟨t, -, -, h, -, -, hl⟩ := grammar_ambiguous
  exact ⟨t, h, hl⟩

/-! ### C11 -/

/-- **C11.** The parse tree has a derivation that, compared with any other derivation for the same tokens, takes the
earlier alternative (or goes on with a loop) at the first decision where the two differ; this determines the parse tree. -/
theorem C11_lowest_alternative (q : PyStr) (t : PTree) : antlrParse q = .ok t ↔
    ∃ c, D (.rule .query) (lexTokens q ++ [eofTok q]) [t] c ∧
      ∀ f' c', D (.rule .query) (lexTokens q ++ [eofTok q]) f' c' → (f' = [t] ∧ c' = c) ∨ Before c c' := by
  have e : lexTokens q ++ [eofTok q] = tokenStream q := rfl
  rw [antlrParse_ok, parseTokens_some, e]
  generalize tokenStream q = ts
  constructor
  · intro h
    obtain ⟨c, h⟩ := h
    exact ⟨c, h.derives, h.first⟩
  · intro h
    obtain ⟨c, h⟩ := h
    exact ⟨c, h.1, h.2⟩

/-- **C11.** Whenever there is a derivation tree, exactly one tree has a derivation that is before all others. -/
theorem C11_unique (q : PyStr) (t : PTree) (h : Fits (.rule .query) [t]) (hl : t.leaves = lexTokens q ++ [eofTok q]) :
    ∃ t', (∃ c, Chosen (.rule .query) (lexTokens q ++ [eofTok q]) [t'] c) ∧
      ∀ t'' c, Chosen (.rule .query) (lexTokens q ++ [eofTok q]) [t''] c → t'' = t' := by
  obtain ⟨t', h'⟩ := C10_no_false_errors q t h hl
  rw [antlrParse_ok, parseTokens_some] at h'
  have e : lexTokens q ++ [eofTok q] = tokenStream q := rfl
  rw [e]
  revert h'
  generalize tokenStream q = ts
  rintro ⟨c, h'⟩
  refine ⟨t', ⟨c, h'⟩, fun t'' c'' h'' => ?_⟩
  exact List.singleton_inj.1 (h''.unique h').1

/-- Two derivation trees compete for this query. -/
example : ∃ t t', t ≠ t' ∧ Fits (.rule .query) [t] ∧ Fits (.rule .query) [t'] ∧ t.leaves = t'.leaves ∧
    t.leaves = tokenStream py!"[!a='1'&b='2']" := grammar_ambiguous

end Fcsql
