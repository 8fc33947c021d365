/-
C85: the text of a parse tree.
-/
import Verif.Spec.TreeText
import Verif.Proofs.TreeText
import Verif.Props.RawTree
import Verif.Props.Spelling
import Verif.Props.Examples
import Verif.Model.RunParse

set_option autoImplicit false
set_option linter.unusedSimpArgs false

namespace Fcsql

attribute [local irreducible] parseQuery

theorem escapeWs_shown (w : PyStr) : CTree.escapeWs w = shown w := by
  induction w with
  | nil => rfl
  | cons c w ih => rw [CTree.escapeWs, ih]; rfl

theorem nodeText_name (r : Rule) (ch : List Nat) (a b : Option Nat) (ks : List CTree) :
    CTree.escapeWs (CTree.nodeText parserRuleNames (.node r ch a b ks)) = ruleName r := by
  cases r <;> rfl

mutual
theorem toStringTree_printed : ∀ T : CTree, Inhabited' [T] → T.toStringTree parserRuleNames = T.plain.printed
  | .leaf x i, _ => by rw [CTree.toStringTree, escapeWs_shown]; rfl
  | .node r ch a b ks, h => by
    have hne : ks ≠ [] := by
      rintro rfl
      exact h r ch a b [] (by simp [CTree.nodesL, CTree.nodes]) rfl
    have hks : Inhabited' ks := fun r' ch' a' b' ks' hm => h r' ch' a' b' ks' (by
      rw [CTree.nodesL, CTree.nodes]; simp [CTree.nodesL, hm])
    have := toStringTrees_printed ks hks hne
    rw [CTree.toStringTree, if_neg (by simpa using hne), nodeText_name, CTree.plain, PTree.printed, ← this]
    simp
theorem toStringTrees_printed : ∀ ks : List CTree, Inhabited' ks → ks ≠ [] →
    py!" " ++ CTree.toStringTrees parserRuleNames ks = PTree.printedL (CTree.plainL ks)
  | [], _, h => absurd rfl h
  | [c], h, _ => by
    rw [CTree.toStringTrees, toStringTree_printed c h]
    simp [CTree.plainL, PTree.printedL]
  | c :: d :: cs, h, _ => by
    have h1 : Inhabited' [c] := fun r ch a b ks hm => h r ch a b ks (by
      rw [CTree.nodesL, CTree.nodesL, List.append_nil] at hm
      rw [CTree.nodesL]; exact List.mem_append_left _ hm)
    have h2 : Inhabited' (d :: cs) := fun r ch a b ks hm => h r ch a b ks (by
      rw [CTree.nodesL]; exact List.mem_append_right _ hm)
    have := toStringTrees_printed (d :: cs) h2 (by simp)
    rw [CTree.toStringTrees, toStringTree_printed c h1, CTree.plainL, PTree.printedL, ← this, List.append_assoc, List.append_assoc]
    simp
end

/-- **C85.** What `tree.toStringTree(FCSParser.ruleNames)` (as in `examples/run_parse.py`) is: tokens with tab, newline and
carriage return escaped, and `(name child ... child)`. -/
theorem C85_string_tree (P : Predictor) (hP : P.Parses) (q : PyStr) (t : PTree) (h : antlrParse q = .ok t)
    (T : CTree) (hT : QueryReturns P (tokenStream q) T) : T.toStringTree parserRuleNames = t.printed := by
  obtain ⟨T', F, h1, h2, h3⟩ := rawTree hP q t h
  cases hT.unique h1
  rw [toStringTree_printed T h3.full, h2]

theorem accepted_texts {q : PyStr} {t : PTree} (h : antlrParse q = .ok t) : ∀ x ∈ t.leaves, LeafText x.type x.text := by
  intro x hx
  rw [(C09_derivation_tree q t h).2] at hx
  exact tokenStream_texts q x hx

/-- **C85.** The text determines the tree: the rules, and type and (shown) text of every token. -/
theorem C85_reads_back (q q' : PyStr) (t t' : PTree) (h : antlrParse q = .ok t) (h' : antlrParse q' = .ok t')
    (e : t.printed = t'.printed) : t.seen = t'.seen :=
  (printed_head t t' (accepted_texts h) (accepted_texts h') [] [] (by simp [Stop]) (by simp [Stop]) (by rw [e])).1

theorem seen_tokens {q q' : PyStr} {t t' : PTree} (h : antlrParse q = .ok t) (h' : antlrParse q' = .ok t')
    (e : t.seen = t'.seen) :
    (lexTokens q).map (fun x => (x.type, shown x.text)) = (lexTokens q').map (fun x => (x.type, shown x.text)) := by
  have h1 := congrArg PTree.leaves e
  rw [seen_leaves, seen_leaves, (C09_derivation_tree q t h).2, (C09_derivation_tree q' t' h').2] at h1
  have h2 := congrArg (List.map Tok.what) h1
  simp only [tokenStream, List.map_append, List.map_map] at h2
  exact (List.append_inj' h2 rfl).1

/-- **C85.** Unless a literal contains a tab, a newline or a carriage return, the text determines the tokens exactly. -/
theorem C85_tokens (q q' : PyStr) (t t' : PTree) (h : antlrParse q = .ok t) (h' : antlrParse q' = .ok t')
    (hq : ∀ x ∈ lexTokens q, ∀ c ∈ x.text, c ≠ 9 ∧ c ≠ 10 ∧ c ≠ 13)
    (hq' : ∀ x ∈ lexTokens q', ∀ c ∈ x.text, c ≠ 9 ∧ c ≠ 10 ∧ c ≠ 13) (e : t.printed = t'.printed) :
    (lexTokens q).map (fun x => (x.type, x.text)) = (lexTokens q').map (fun x => (x.type, x.text)) := by
  have := seen_tokens h h' (C85_reads_back q q' t t' h h' e)
  have self : ∀ ts : List Tok, (∀ x ∈ ts, ∀ c ∈ x.text, c ≠ 9 ∧ c ≠ 10 ∧ c ≠ 13) →
      ts.map (fun x => (x.type, shown x.text)) = ts.map (fun x => (x.type, x.text)) := by
    intro ts hts
    exact List.map_congr_left fun x hx => by rw [shown_self (hts x hx)]
  rwa [self _ hq, self _ hq'] at this

theorem alike_of_seen (rt : PyRuntime) (cfg : Config) : ∀ (ts ts' : List Tok) (p : Option TokType),
    (∀ x ∈ ts, TokenText x.type x.text) → (∀ x ∈ ts', TokenText x.type x.text) →
    ts.map (fun x => (x.type, shown x.text)) = ts'.map (fun x => (x.type, shown x.text)) →
    Alike rt cfg p (ts.map Tok.what) (ts'.map Tok.what)
  | [], [], _, _, _, _ => trivial
  | [], _ :: _, _, _, _, e => by simp at e
  | _ :: _, [], _, _, _, e => by simp at e
  | x :: ts, x' :: ts', p, h, h', e => by
    simp only [List.map_cons, List.cons.injEq, Prod.mk.injEq] at e
    obtain ⟨⟨e1, e2⟩, e3⟩ := e
    have hx := h x (by simp)
    have hx' := h' x' (by simp)
    refine ⟨e1, ?_, alike_of_seen rt cfg ts ts' _ (fun y hy => h y (by simp [hy])) (fun y hy => h' y (by simp [hy])) e3⟩
    rcases leaf_compact (.inl hx) with ⟨hc, -⟩ | ⟨hty, k, ps, hl⟩ <;>
      rcases leaf_compact (.inl hx') with ⟨hc', ht'⟩ | ⟨hty', k', ps', hl'⟩
    · rw [hc.shown, hc'.shown] at e2
      rw [e2]; exact .refl _ _ _
    · rw [← e1] at hty'
      rw [hty'] at hx
      exact absurd hty' (by
        rcases leaf_compact (.inl (hty' ▸ hx)) with ⟨-, h⟩ | ⟨-, q, ps, hl⟩
        · simpa using h
        · obtain ⟨v, ev⟩ := lit_head hl
          obtain ⟨a, w, ew, h1, h2⟩ := hc.head
          rw [hc.shown, ew] at ev
          simp only [List.cons.injEq] at ev
          rcases hl.quote with hq | hq <;> omega)
    · exact absurd (e1 ▸ hty) ht'
    · have hv := (shown_lit (x := []) (y := []) hl hl' (by rw [e2])).1
      rw [hty]
      intro v
      have val : ∀ {w k} {ps : List LitPiece}, IsLit w k ps → ∀ raw, LitValue w raw ↔ piecesValue ps = some raw := by
        intro w k ps hl raw
        refine ⟨?_, fun h => ⟨k, ps, hl, h⟩⟩
        rintro ⟨k', ps', hl', h⟩
        have := (shown_lit (x := []) (y := []) hl hl' rfl).1
        rw [this, h]
      simp only [val hl, val hl', hv]

/-- **C85.** Queries whose parse trees are printed alike mean the same: with the same settings they parse to the same query
tree, source locations aside. -/
theorem C85_same_meaning (rt : Runtime) (cfg : Config) (q q' : PyStr) (t t' : PTree) (n n' : Node)
    (h : antlrParse q = .ok t) (h' : antlrParse q' = .ok t') (e : t.printed = t'.printed)
    (hn : (parseQuery rt cfg q).1 = .ok n) (hn' : (parseQuery rt cfg q').1 = .ok n') : n.unlocated = n'.unlocated := by
  have clean : ∀ {q n}, (parseQuery rt cfg q).1 = .ok n → lexErrors q = [] := by
    intro q n hn
    by_cases hl : lexErrors q = [] ∧ Grammatical (tokenStream q)
    · exact hl.1
    · exact absurd hn (by
        obtain ⟨_, _, -, hm⟩ := parseQuery_error rt cfg q hl
        rw [hm]; simp)
  have l := (laid_iff _ q).2 ⟨clean hn, rfl⟩
  have l' := (laid_iff _ q').2 ⟨clean hn', rfl⟩
  have texts : ∀ q, ∀ x ∈ lexTokens q, TokenText x.type x.text := fun q x hx => (lexPieces_splits q).texts x hx
  obtain ⟨m, h1, h2⟩ := C71_unlocated rt cfg _ _ q q' l l'
    (alike_of_seen rt.toPyRuntime cfg _ _ none (texts q) (texts q') (seen_tokens h h' (C85_reads_back q q' t t' h h' e))) n hn
  rw [hn'] at h1
  cases h1
  exact h2.symm

/-- Different queries may be printed alike: a tab in a literal, or `\t` (they mean the same). -/
theorem C85_tab_ambiguous : ∃ q q' t t', antlrParse q = .ok t ∧ antlrParse q' = .ok t' ∧ t.printed = t'.printed ∧
    (lexTokens q).map (fun x => (x.type, x.text)) ≠ (lexTokens q').map (fun x => (x.type, x.text)) := by
  refine ⟨[39, 9, 39], py!"'\\t'", _, _, rfl, rfl, ?_, ?_⟩ <;> decide +kernel

/-! ### The example -/

/-- An `expression_basic` context has three children. -/
theorem basic_children {ks : List PTree} (h : Fits (body .expression_basic) ks) : ∃ a b c, ks = [a, b, c] := by
  have one : ∀ {g : G} {f : List PTree}, Fits g f → (∃ r, g = .rule r) ∨ (∃ t, g = .tok t) → ∃ a, f = [a] := by
    intro g f h hg
    cases h with
    | tok _ => exact ⟨_, rfl⟩
    | rule _ => exact ⟨_, rfl⟩
    | _ => rcases hg with ⟨_, h⟩ | ⟨_, h⟩ <;> cases h
  have hb : body .expression_basic = .seq (.rule .attribute_) (.seq (.alt (.tok .OPERATOR_EQ) (.tok .OPERATOR_NE)) (.rule .regexp)) := rfl
  rw [hb] at h
  cases h with
  | seq h1 h2 =>
    cases h2 with
    | seq h2 h3 =>
      obtain ⟨a, rfl⟩ := one h1 (.inl ⟨_, rfl⟩)
      obtain ⟨c, rfl⟩ := one h3 (.inl ⟨_, rfl⟩)
      cases h2 with
      | altL h2 => obtain ⟨b, rfl⟩ := one h2 (.inr ⟨_, rfl⟩); exact ⟨a, b, c, rfl⟩
      | altR h2 => obtain ⟨b, rfl⟩ := one h2 (.inr ⟨_, rfl⟩); exact ⟨a, b, c, rfl⟩

/-- What the example is meant to show for a context. -/
def lineFor (c : CTree) : RunLine := ⟨c.sourceInterval, List.replicate c.depth 32, c.text⟩

/-- The contexts the example shows. -/
def Shows : CTree → Bool
  | .leaf _ _ => false
  | .node r _ _ _ _ => [Rule.query, .main_query, .expression, .expression_basic, .attribute_, .regexp].contains r

/-- The lines for a context and, if it is a comparison, for its three parts (with the interval of the comparison). -/
def linesFor (c : CTree) : List RunLine :=
  if Shows c then lineFor c :: (match c with
    | .node .expression_basic _ _ _ ks => ks.map fun k => ⟨c.sourceInterval, List.replicate (c.depth + 1) 32, k.text⟩
    | _ => []) else []

theorem runEnter_lines {c : CTree} (h : ∀ ch a b ks, c = .node .expression_basic ch a b ks → ks.length = 3) :
    runEnter c = some (linesFor c) := by
  cases c with
  | leaf x i => rfl
  | node r ch a b ks =>
    cases r
    case expression_basic =>
      have := h ch a b ks rfl
      match ks, this with
      | [k0, k1, k2], _ => rfl
    all_goals rfl

mutual
theorem runWalk_lines : ∀ T : CTree, (∀ ch a b ks, CTree.node .expression_basic ch a b ks ∈ T.nodes → ks.length = 3) →
    runWalk T = some (T.nodes.flatMap linesFor)
  | .leaf x i, h => by rw [runWalk]; rfl
  | .node r ch a b ks, h => by
    rw [runWalk, runEnter_lines fun ch a b ks e => h ch a b ks (by rw [CTree.nodes]; simp [e]),
      runWalks_lines ks fun ch a b ks hm => h ch a b ks (by rw [CTree.nodes]; simp [hm]), CTree.nodes, List.flatMap_cons]
theorem runWalks_lines : ∀ F : List CTree, (∀ ch a b ks, CTree.node .expression_basic ch a b ks ∈ CTree.nodesL F → ks.length = 3) →
    runWalks F = some ((CTree.nodesL F).flatMap linesFor)
  | [], _ => rfl
  | c :: cs, h => by
    rw [runWalks, runWalk_lines c fun ch a b ks hm => h ch a b ks (by rw [CTree.nodesL]; simp [hm]),
      runWalks_lines cs fun ch a b ks hm => h ch a b ks (by rw [CTree.nodesL]; simp [hm]), CTree.nodesL, List.flatMap_append]
end

/-- **C85.** The listener of the example never fails (`ctx.children[2]` exists for every comparison), and prints the lines
of the contexts it is about, parents before children and from left to right. -/
theorem C85_example (P : Predictor) (hP : P.Parses) (q : PyStr) (t : PTree) (h : antlrParse q = .ok t)
    (T : CTree) (hT : QueryReturns P (tokenStream q) T) : runWalk T = some (T.nodes.flatMap linesFor) := by
  obtain ⟨T', F, h1, h2, h3⟩ := rawTree hP q t h
  cases hT.unique h1
  refine runWalk_lines T fun ch a b ks hm => ?_
  have hm' := List.mem_map_of_mem (f := CTree.plain) hm
  rw [← plain_nodes, h2, CTree.plain] at hm'
  obtain ⟨a, b, c, e⟩ := basic_children (fits_node_of_tree (C09_derivation_tree q t h).1 hm')
  have hl : ∀ F : List CTree, (CTree.plainL F).length = F.length := by
    intro F
    induction F with
    | nil => rfl
    | cons c F ih => rw [CTree.plainL, List.length_cons, ih, List.length_cons]
  rw [← hl, e]; rfl

/-! ### The hypotheses are met -/

/-- Two layouts of one query. -/
example : ∃ t t', antlrParse py!"'a' 'b'" = .ok t ∧ antlrParse py!" 'a''b'" = .ok t' ∧ t.printed = t'.printed ∧
    t.printed = py!"(query (main_query (query_sequence (query_simple (query_implicit (regexp (regexp_pattern 'a')))) (query_simple (query_implicit (regexp (regexp_pattern 'b')))))) <EOF>)" ∧
    (parseQuery rt0 locConfig py!"'a' 'b'").1.toBool = true ∧ (parseQuery rt0 locConfig py!" 'a''b'").1.toBool = true := by
  refine ⟨_, _, rfl, rfl, ?_⟩
  decide +kernel

/-- A run of the example on `[x='a']`. -/
example : ((queryM { predict := fun d _ _ => some (if d = 25 then 2 else 1), sync := fun _ _ _ => true } 90
      (tokenStream py!"[x='a']")).bind runWalk).map (List.map fun l => (l.interval, l.spaces.length, l.text)) =
    some [((0, 4), 1, py!"[x='a']<EOF>"), ((0, 4), 2, py!"[x='a']"), ((1, 3), 5, py!"x='a'"), ((1, 3), 6, py!"x='a'"),
      ((1, 3), 7, py!"x"), ((1, 3), 7, py!"="), ((1, 3), 7, py!"'a'"), ((1, 1), 7, py!"x"), ((3, 3), 7, py!"'a'")] := by
  decide +kernel

end Fcsql
