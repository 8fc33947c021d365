/-
C107: the parse tree of any query, malformed ones included.
-/
import Verif.Proofs.ErrorTree
import Verif.Props.Adaptive
import Verif.Props.ErrorWork
import Verif.Props.Messages

set_option autoImplicit false
set_option linter.unusedSimpArgs false

namespace Fcsql

attribute [local irreducible] parserAtn parseQuery lexerAtn lexPieces

/-- The run that builds the tree. -/
abbrev runN (n : Nat) (q : PyStr) : NOut := execN parserAtn (eofTok q) code n [] (code .query) (EState.new (tokenStream q))

theorem line_stream (q : PyStr) : Line (tokenStream q) := .inr (endsEof_stream q)

theorem realToks_stream (q : PyStr) : realToks (tokenStream q) = lexTokens q := by
  rw [tokenStream, realToks_append, realToks_eof rfl, List.append_nil]
  exact List.filter_eq_self.2 fun x hx => by simpa using lexTokens_noEof q x hx

theorem queryTree_callE (n : Nat) (q : PyStr) :
    (queryTree n q).map (·.2) = (callE parserAtn (eofTok q) code n .query (tokenStream q)).map (·.1) := by
  unfold queryTree callN callE
  rw [← execN_out]
  cases execN parserAtn (eofTok q) code n [] (code .query) (EState.new (tokenStream q)) <;> rfl

theorem queryTree_some (q : PyStr) (n : Nat) (h : 129 * (lexTokens q).length + 118 < n) : ∃ t rs, queryTree n q = some (t, rs) := by
  have h1 := queryTree_callE n q
  cases hx : queryTree n q with
  | none =>
    rw [hx] at h1
    cases hc : callE parserAtn (eofTok q) code n .query (tokenStream q) with
    | none => exact absurd hc (C105_ends q n h)
    | some r => rw [hc] at h1; cases h1
  | some r => exact ⟨r.1, r.2, rfl⟩

theorem queryTree_mono {n m : Nat} (h : n ≤ m) {q : PyStr} {r : ETree × List Report} (hr : queryTree n q = some r) : queryTree m q = some r := by
  have hle := execN_mono (A := parserAtn) (eof := eofTok q) (prog := code) h [] (code .query) (EState.new (tokenStream q))
  unfold queryTree callN at hr ⊢
  cases ho : execN parserAtn (eofTok q) code n [] (code .query) (EState.new (tokenStream q)) with
  | timeout s => rw [ho] at hr; cases hr
  | ok f s => rw [ho] at hle hr; rw [show execN parserAtn (eofTok q) code m [] (code .query) (EState.new (tokenStream q)) = _ from hle]; exact hr
  | raised f k s => rw [ho] at hle hr; rw [show execN parserAtn (eofTok q) code m [] (code .query) (EState.new (tokenStream q)) = _ from hle]; exact hr

theorem code_last : (code .query).getLast? = some (.matchTok 51 (-1)) := rfl

/-- What the tree looks like. -/
theorem queryTree_facts {n : Nat} {q : PyStr} {t : ETree} {rs : List Report} (h : queryTree n q = some (t, rs)) :
    t.tokens = lexTokens q ∧ (∃ failed cs, t = .node .query failed cs) ∧
    t.contexts ≤ 34 * (lexTokens q).length + 35 ∧ t.nodes ≤ 388 * (lexTokens q).length + 358 := by
  have hk := execN_keeps (A := parserAtn) (prog := code) (eof := eofTok q) rfl n [] (code .query) (EState.new (tokenStream q)) (line_stream q)
  have hs := execN_sized (A := parserAtn) (prog := code) (eof := eofTok q) n [] (code .query) (EState.new (tokenStream q))
  obtain ⟨-, w2, w3⟩ := C105_work q n
  have hlen := stream_tokens q
  have hnew : (EState.new (tokenStream q)).rest = tokenStream q := rfl
  change _ ≤ _ at w2
  unfold queryTree callN at h
  cases ho : execN parserAtn (eofTok q) code n [] (code .query) (EState.new (tokenStream q)) with
  | timeout s => rw [ho] at h; cases h
  | ok f s =>
    rw [ho] at h hk hs
    cases h
    have he := ok_empty (prog := code) (eof := eofTok q) rfl n (code .query) (EState.new (tokenStream q)) s f (line_stream q) code_last ho
    refine ⟨?_, ⟨_, _, rfl⟩, ?_, ?_⟩
    · have := hk.1
      rw [he, hnew, realToks_stream] at this
      rw [ETree.tokens, ← this]
      simp [realToks]
    · rw [ETree.contexts, hs.1]
      exact Nat.le_trans (Nat.add_le_add_left w2 1) (by omega)
    · have := hs.2
      rw [hnew, hlen] at this
      have w3' : (execActs parserAtn (eofTok q) code n [] (code .query) (EState.new (tokenStream q))).length ≤ 129 * (lexTokens q).length + 118 := w3
      rw [ETree.nodes]
      omega
  | raised f k s =>
    rw [ho] at h hk hs
    cases h
    have h1 := Spends.trans hk (keeps_caught (A := parserAtn) (eof := eofTok q) rfl [] k s hk.2)
    have h2 := few_caught (A := parserAtn) (eof := eofTok q) [] k s
    refine ⟨?_, ⟨_, _, rfl⟩, ?_, ?_⟩
    · have := h1.1
      rw [caught_empty k s hk.2, hnew, realToks_stream, List.append_nil] at this
      rw [ETree.tokens, ← this]
    · rw [ETree.contexts, eContextsL_append, h2.1, hs.1]
      exact Nat.le_trans (Nat.add_le_add_left w2 1) (by omega)
    · have a1 := hs.2
      have a2 := h2.2
      rw [hnew, hlen] at a1
      have w3' : (execActs parserAtn (eofTok q) code n [] (code .query) (EState.new (tokenStream q))).length ≤ 129 * (lexTokens q).length + 118 := w3
      rw [ETree.nodes, eNodesL_append]
      omega

/-- **C107.** For every text `FCSParser(...).query()` comes to an end, within a number of steps linear in the number of tokens, and
returns a `query` context, always the same. In this tree every token of the text occurs exactly once, in order: nothing the
parser skips, deletes or fails on is lost, and nothing is there twice. (Tokens that were made up, and `EOF`, aside.) The errors
reported on the way are those of C89, and the tree is not large: of the `k` tokens, at most `34 k + 35` contexts, and
`388 k + 358` nodes in all. -/
theorem C107_tree (q : PyStr) : ∃ t rs, (∀ n, 129 * (lexTokens q).length + 118 < n → queryTree n q = some (t, rs)) ∧
    t.tokens = lexTokens q ∧ (∃ failed cs, t = .node .query failed cs) ∧ (∃ u, AntlrReports q rs u) ∧
    t.contexts ≤ 34 * (lexTokens q).length + 35 ∧ t.nodes ≤ 388 * (lexTokens q).length + 358 := by
  obtain ⟨t, rs, h⟩ := queryTree_some q (129 * (lexTokens q).length + 119) (by omega)
  have hf := queryTree_facts h
  refine ⟨t, rs, fun n hn => queryTree_mono (by omega) h, hf.1, hf.2.1, ?_, hf.2.2.1, hf.2.2.2⟩
  have h1 := queryTree_callE (129 * (lexTokens q).length + 119) q
  rw [h] at h1
  cases hc : callE parserAtn (eofTok q) code (129 * (lexTokens q).length + 119) .query (tokenStream q) with
  | none => rw [hc] at h1; cases h1
  | some r =>
    rw [hc] at h1
    cases h1
    exact ⟨r.2, antlrReports_of_callE hc⟩

/-- **C107.** Whenever it returns a tree, these are its tokens. -/
theorem C107_tokens (q : PyStr) (n : Nat) (t : ETree) (rs : List Report) (h : queryTree n q = some (t, rs)) : t.tokens = lexTokens q :=
  (queryTree_facts h).1

mutual
theorem plain_sound : ∀ p : PTree, p.plain.sound = true
  | .leaf _ => rfl
  | .node _ cs => by rw [PTree.plain, ETree.sound, plainL_sound cs]; rfl
theorem plainL_sound : ∀ ps : List PTree, ETree.soundL (PTree.plainL ps) = true
  | [] => rfl
  | p :: ps => by rw [PTree.plainL, ETree.soundL, plain_sound p, plainL_sound ps]; rfl
end

/-- **C107.** If `antlr_parse` accepts the query the tree is the one it returns, and no error is reported. -/
theorem C107_accepted (q : PyStr) (p : PTree) (h : antlrParse q = .ok p) (n : Nat) (hn : 129 * (lexTokens q).length + 118 < n) :
    queryTree n q = some (p.plain, []) := by
  obtain ⟨t, rs, ht⟩ := queryTree_some q n hn
  rw [ht]
  obtain ⟨c, hc⟩ := (parseTokens_some _ _).1 (antlrParse_ok.1 h)
  obtain ⟨f, rfl⟩ := chosen_query_node hc
  obtain ⟨N, hN⟩ := ((C87_generated_parser q).1 f []).2 ⟨h, rfl⟩
  obtain ⟨s', h1, -, -, h2⟩ := exec_calm (eof := eofTok q) (max n N) [] (code .query) (EState.new (tokenStream q)) f [] rfl (hN _ (by omega))
  have h3 := queryTree_mono (Nat.le_max_left n N) ht
  unfold queryTree callN at h3
  rw [h1] at h3
  cases h3
  rw [h2]
  rfl

/-- **C107.** And the other way round: when it has come to its end without a report, `antlr_parse` accepts the query, with
this tree, which holds no repair. -/
theorem C107_silent (q : PyStr) (n : Nat) (t : ETree) (h : queryTree n q = some (t, [])) :
    t.sound = true ∧ ∃ p, antlrParse q = .ok p ∧ t = p.plain := by
  have h1 := queryTree_mono (Nat.le_max_left n (129 * (lexTokens q).length + 119)) h
  obtain ⟨t', rs', hall, -, -, ⟨u, hu⟩, -⟩ := C107_tree q
  have h2 := hall (max n (129 * (lexTokens q).length + 119)) (by omega)
  rw [h1] at h2
  cases h2
  obtain ⟨p, hp⟩ := (reports_nil hu).1 rfl
  have h3 := C107_accepted q p hp (max n (129 * (lexTokens q).length + 119)) (by omega)
  rw [h1] at h3
  cases h3
  exact ⟨plain_sound p, p, hp, rfl⟩

/-- **C107.** So a tree with a repair in it (a node without a token for a missing one, an error node, or a context that has
an exception) is never returned without a report, and `antlr_parse` raises for this text. -/
theorem C107_damaged (q : PyStr) (n : Nat) (t : ETree) (rs : List Report) (h : queryTree n q = some (t, rs)) (hd : t.sound = false) :
    rs ≠ [] ∧ antlrParse q = .error () := by
  constructor
  · rintro rfl
    rw [(C107_silent q n t h).1] at hd
    cases hd
  · cases hp : antlrParse q with
    | error e => rfl
    | ok p =>
      have h1 := C107_accepted q p hp (max n (129 * (lexTokens q).length + 119)) (by omega)
      rw [queryTree_mono (Nat.le_max_left n _) h] at h1
      cases h1
      rw [plain_sound] at hd
      cases hd

/-! ### Non-vacuity -/

-- an attribute without its value: the tokens are all there, and the tree shows the damage
example : (queryTree 1000 py!"[word = ] \"b\"").map (fun r => (decide (r.1.tokens = lexTokens py!"[word = ] \"b\""), r.1.sound, r.2.length)) =
    some (true, false, 1) := by decide +kernel

-- an accepted query
example : (queryTree 2000 py!"[a='b' & c='d'] within s").map (fun r => (r.1.sound, r.2.length)) = some (true, 0) := by decide +kernel

-- no text at all
example : (queryTree 200 py!"").map (fun r => (r.1.tokens, r.1.sound, r.2.length)) = some ([], false, 1) := by decide +kernel

end Fcsql
