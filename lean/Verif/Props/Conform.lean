/-
C108: the contexts of a parse tree, of any query, look as their grammar rules say.
-/
import Verif.Proofs.Conform
import Verif.Props.ErrorTree
import Verif.Props.Grammar
import Verif.Proofs.FirstErrorText
import Verif.Proofs.Subtree

set_option autoImplicit false
set_option linter.unusedSimpArgs false

namespace Fcsql

attribute [local irreducible] parserAtn parseQuery lexerAtn lexPieces

/-- **C108.** Whatever the text is, every context of the tree that `FCSParser(...).query()` returns holds what its rule in the
grammar says, apart from the error nodes between: all of it if the context has no exception, the beginning of it if it has one. -/
theorem C108_conforms (q : PyStr) (n : Nat) (t : ETree) (rs : List Report) (h : queryTree n q = some (t, rs)) : t.Conforms :=
  callN_conforms code_ok rfl (fun d ctx ts i s h h' => C87_range d s ctx ts i h' h) (line_stream q) h

/-- **C108.** The same for a call of the function of any other rule on a new parser. -/
theorem C108_rule (r : Rule) (q : PyStr) (n : Nat) (t : ETree) (rs : List Report)
    (h : callN parserAtn (eofTok q) code n r (tokenStream q) = some (t, rs)) : t.Conforms :=
  callN_conforms code_ok rfl (fun d ctx ts i s h h' => C87_range d s ctx ts i h' h) (line_stream q) h

theorem ETree.Conforms.within {u t : ETree} (h : u.In t) (ht : t.Conforms) : u.Conforms := by
  induction h with
  | here => exact ht
  | child hc _ ih =>
    cases ht with
    | whole _ hs => exact ih (hs _ hc)
    | broken _ hs => exact ih (hs _ hc)

/-- **C108.** So anywhere in the tree: a context without an exception has what its rule asks for, one with an exception the
beginning of that. -/
theorem C108_everywhere (q : PyStr) (n : Nat) (t : ETree) (rs : List Report) (h : queryTree n q = some (t, rs)) (r : Rule) (cs : List ETree) :
    ((ETree.node r false cs).In t → Shaped (body r) (kept cs)) ∧
    ((ETree.node r true cs).In t → ∃ more, Shaped (body r) (kept cs ++ more)) := by
  constructor
  · intro hi
    cases (C108_conforms q n t rs h).within hi with
    | whole hf _ => exact hf
  · intro hi
    cases (C108_conforms q n t rs h).within hi with
    | broken hf _ => exact ⟨_, hf⟩

/-! ### What that means for a rule -/

theorem shaped_seq {a b : G} {f : List ETree} (h : Shaped (.seq a b) f) : ∃ g g', f = g ++ g' ∧ Shaped a g ∧ Shaped b g' := by
  generalize hg : G.seq a b = g at h
  cases h with
  | seq h1 h2 => cases hg; exact ⟨_, _, rfl, h1, h2⟩
  | @gap ks h2 =>
    match ks, h2 with
    | _ :: _ :: _, _ => cases hg
  | _ => cases hg

theorem shaped_rule {r : Rule} {f : List ETree} (h : Shaped (.rule r) f) : ∃ failed cs, f = [.node r failed cs] := by
  generalize hg : G.rule r = g at h
  cases h with
  | rule r' failed cs => cases hg; exact ⟨_, _, rfl⟩
  | @gap ks h2 =>
    match ks, h2 with
    | _ :: _ :: _, _ => cases hg
  | _ => cases hg

/-- A token of the type, or one made up. -/
def ETree.IsTok (k : TokType) (t : ETree) : Prop := (∃ x : Tok, x.type = k ∧ t = .leaf x) ∨ t = .missing k.num

theorem shaped_tok {k : TokType} {f : List ETree} (h : Shaped (.tok k) f) : ∃ t, f = [t] ∧ t.IsTok k := by
  generalize hg : G.tok k = g at h
  cases h with
  | tok x => cases hg; exact ⟨_, rfl, .inl ⟨x, rfl, rfl⟩⟩
  | made k' => cases hg; exact ⟨_, rfl, .inr rfl⟩
  | @gap ks h2 =>
    match ks, h2 with
    | _ :: _ :: _, _ => cases hg
  | _ => cases hg

theorem shaped_opt {a : G} {f : List ETree} (h : Shaped (.opt a) f) : Shaped a f ∨ f = [] := by
  unfold G.opt at h
  generalize hg : G.alt a .eps = g at h
  cases h with
  | altL h => cases hg; exact .inl h
  | altR h =>
    cases hg
    generalize hg : G.eps = g at h
    cases h with
    | @gap ks h2 => exact .inr rfl
    | eps => exact .inr rfl
    | _ => cases hg
  | gap h2 => exact .inr rfl
  | _ => cases hg

/-- **C108.** In particular, when the function of the first rule has not caught an exception itself, its context has a
`main_query`, possibly `within` and a `within_part`, and `EOF`, in this order, and otherwise error nodes only. -/
theorem C108_query (q : PyStr) (n : Nat) (cs : List ETree) (rs : List Report) (h : queryTree n q = some (.node .query false cs, rs)) :
    ∃ failed ks w e, kept cs = .node .main_query failed ks :: (w ++ [e]) ∧ e.IsTok .EOF ∧
      (w = [] ∨ ∃ t failed' ks', w = [t, .node .within_part failed' ks'] ∧ t.IsTok .WITHIN) := by
  have hc := C108_conforms q n _ rs h
  cases hc with
  | whole hf _ =>
    obtain ⟨f1, f2, h1, h2, h3⟩ := shaped_seq (show Shaped (.seq _ _) _ from hf)
    obtain ⟨failed, ks, rfl⟩ := shaped_rule h2
    obtain ⟨f3, f4, rfl, h5, h6⟩ := shaped_seq (show Shaped (.seq _ _) _ from h3)
    obtain ⟨e, rfl, he⟩ := shaped_tok (show Shaped (.tok _) _ from h6)
    refine ⟨failed, ks, f3, e, h1, he, ?_⟩
    rcases shaped_opt h5 with h5 | h5
    · right
      obtain ⟨f5, f6, rfl, h7, h8⟩ := shaped_seq (show Shaped (.seq _ _) _ from h5)
      obtain ⟨t, rfl, ht⟩ := shaped_tok h7
      obtain ⟨failed', ks', rfl⟩ := shaped_rule (show Shaped (.rule _) _ from h8)
      exact ⟨t, failed', ks', rfl, ht⟩
    · exact .inl h5

/-- **C108.** Anywhere in the tree, a segment without an exception has its brackets, and at most one expression between them. -/
theorem C108_segment (q : PyStr) (n : Nat) (t : ETree) (rs : List Report) (h : queryTree n q = some (t, rs)) (cs : List ETree)
    (hi : (ETree.node .query_segment false cs).In t) :
    ∃ l e r, kept cs = l :: (e ++ [r]) ∧ l.IsTok .L_SQUARE_BRACKET ∧ r.IsTok .R_SQUARE_BRACKET ∧
      (e = [] ∨ ∃ failed ks, e = [.node .expression failed ks]) := by
  obtain ⟨f1, f2, h1, h2, h3⟩ := shaped_seq (show Shaped (.seq _ _) _ from (C108_everywhere q n t rs h _ cs).1 hi)
  obtain ⟨l, rfl, hl⟩ := shaped_tok h2
  obtain ⟨f3, f4, rfl, h5, h6⟩ := shaped_seq (show Shaped (.seq _ _) _ from h3)
  obtain ⟨r, rfl, hr⟩ := shaped_tok (show Shaped (.tok _) _ from h6)
  refine ⟨l, f3, r, h1, hl, hr, ?_⟩
  rcases shaped_opt h5 with h5 | h5
  · exact .inr ((shaped_rule h5).imp fun failed h => h)
  · exact .inl h5

/-! ### Trees of the grammar -/

mutual
theorem tokens_plain : ∀ p : PTree, p.plain.tokens = realToks p.leaves
  | .leaf x => by
    by_cases h : x.type = .EOF <;> simp [PTree.plain, ETree.tokens, PTree.leaves, realToks, h]
  | .node _ cs => by rw [PTree.plain, ETree.tokens, PTree.leaves, tokens_plainL cs]
theorem tokens_plainL : ∀ ps : List PTree, ETree.tokensL (PTree.plainL ps) = realToks (PTree.leavesL ps)
  | [] => rfl
  | p :: ps => by rw [PTree.plainL, ETree.tokensL, PTree.leavesL, realToks_append, tokens_plain p, tokens_plainL ps]
end

/-- Another `EOF` at the end. -/
theorem grammatical_swap {us : List Tok} {f : List PTree} {c : List Bool} (h : D (.rule .query) us f c) :
    ∃ ws x, us = ws ++ [x] ∧ x.type = .EOF ∧ (∀ t ∈ ws, t.type ≠ .EOF) ∧ ∀ y : Tok, y.type = .EOF → Grammatical (ws ++ [y]) := by
  obtain ⟨f', h, -⟩ := D_rule.1 h
  obtain ⟨u1, v1, g1, h1, c1, d1, rfl, -, -, k1, h⟩ := D_seq.1 h
  obtain ⟨u2, v2, g2, h2, c2, d2, rfl, -, -, k2, h⟩ := D_seq.1 h
  obtain ⟨x, hx, rfl, -⟩ := D_tok.1 h
  refine ⟨u1 ++ u2, x, by simp, hx, ?_, ?_⟩
  · intro t ht
    rcases List.mem_append.1 ht with ht | ht
    · exact innerTy_eof (inner_of_D k1 (by decide) t ht)
    · exact innerTy_eof (inner_of_D k2 (by decide) t ht)
  · intro y hy
    rw [List.append_assoc]
    exact ⟨_, _, .rule (.seq k1 (.seq k2 (.tok hy)))⟩

/-- **C108.** So errors are always to be seen in the tree: no error is reported exactly when the tree is a derivation tree of
the grammar, without error nodes, tokens made up and exceptions, and without a gap. -/
theorem C108_reports (q : PyStr) (n : Nat) (t : ETree) (rs : List Report) (h : queryTree n q = some (t, rs)) :
    rs = [] ↔ ∃ p, Fits (.rule .query) [p] ∧ t = p.plain := by
  constructor
  · rintro rfl
    obtain ⟨-, p, hp, rfl⟩ := C107_silent q n t h
    exact ⟨p, (C09_derivation_tree _ _ hp).1, rfl⟩
  · rintro ⟨p, hp, rfl⟩
    obtain ⟨c, hd⟩ := D_of_fits hp
    obtain ⟨ws, x, hw, hx, hn, hy⟩ := grammatical_swap hd
    have h1 := C107_tokens q n _ rs h
    rw [PTree.leavesL, PTree.leavesL, List.append_nil] at hw
    rw [tokens_plain, hw, realToks_append, realToks_eof hx, List.append_nil] at h1
    have h2 : realToks ws = ws := List.filter_eq_self.2 fun y hy => by simpa using hn y hy
    rw [h2] at h1
    subst h1
    obtain ⟨t, ht⟩ := (grammatical_iff _).1 (hy (eofTok q) rfl)
    have h3 := C107_accepted q t (antlrParse_ok.2 ht) (max n (129 * (lexTokens q).length + 119)) (by omega)
    rw [queryTree_mono (Nat.le_max_left n _) h] at h3
    exact (Prod.mk.inj (Option.some.inj h3)).2

/-! ### Non-vacuity -/

/-- The outermost context: is it marked, and how many children does it have, of these error nodes? -/
def outline : ETree → Bool × Nat × Nat
  | .node _ failed cs => (failed, cs.length, (cs.filter ETree.isError).length)
  | _ => (true, 0, 0)

-- a closing bracket too many is deleted: a `main_query`, an error node, `EOF`, and no exception
example : (queryTree 1000 py!"\"a\" )").map (fun r => (outline r.1, r.2.length)) = some ((false, 3, 1), 1) := by decide +kernel

-- an attribute without its value
example : (callN parserAtn (eofTok py!"[word = ]") code 1000 .query_segment (tokenStream py!"[word = ]")).map
    (fun r => (outline r.1, r.1.sound, r.2.length)) = some ((false, 3, 0), false, 1) := by decide +kernel

-- the condition means something: a query without children is not one
example : ¬ (ETree.node .query false []).Conforms := by
  intro h
  cases h with
  | whole hf _ =>
    obtain ⟨f1, f2, h1, h2, h3⟩ := shaped_seq (show Shaped (.seq _ _) _ from hf)
    obtain ⟨failed, ks, rfl⟩ := shaped_rule h2
    cases h1

-- with an exception it is the beginning of one
example : (ETree.node .query true []).Conforms := by
  obtain ⟨more, h⟩ := shaped_some (body .query)
  exact .broken (more := more) h (fun t ht => nomatch ht)

end Fcsql
