/-
C06, C07, C48: tokenization.
-/
import Verif.Proofs.Tiling
import Verif.Props.Examples

set_option autoImplicit false
set_option linter.unusedSimpArgs false

namespace Fcsql

/-! ### C06 -/

theorem Splits.at {s : PyStr} {pos col : Nat} {ps : List Piece} (h : Splits s pos col ps) :
    ∀ p ∈ ps, pos ≤ p.start ∧
      ((∃ t, p.kind = kindOf t ∧ LongestMatch (s.drop (p.start - pos)) t p.text) ∨
        (p.kind = .err ∧ ErrorSpan (s.drop (p.start - pos)) p.text)) := by
  induction h with
  | nil => simp
  | @token w rest pos col t ps hm hs ih =>
    intro p hp
    rcases List.mem_cons.1 hp with rfl | hp
    · exact ⟨Nat.le_refl _, .inl ⟨t, rfl, by simpa using hm⟩⟩
    · obtain ⟨h1, h2⟩ := ih p hp
      refine ⟨by omega, ?_⟩
      have : (w ++ rest).drop (p.start - pos) = rest.drop (p.start - (pos + w.length)) := by
        rw [List.drop_append, List.drop_eq_nil_of_le (by omega)]
        simp; congr 1; omega
      rw [this]; exact h2
  | @error w rest pos col ps hm hs ih =>
    intro p hp
    rcases List.mem_cons.1 hp with rfl | hp
    · exact ⟨Nat.le_refl _, .inr ⟨rfl, by simpa using hm⟩⟩
    · obtain ⟨h1, h2⟩ := ih p hp
      refine ⟨by omega, ?_⟩
      have : (w ++ rest).drop (p.start - pos) = rest.drop (p.start - (pos + w.length)) := by
        rw [List.drop_append, List.drop_eq_nil_of_le (by omega)]
        simp; congr 1; omega
      rw [this]; exact h2

/-- **C06.** Every piece of a query is what maximal munch gives on the rest of the query at that offset:
the longest prefix any rule matches, with the first rule matching it (skipped if that rule is the
whitespace rule), or, exactly when no rule matches any non-empty prefix, an error span. -/
theorem C06_maximal_munch (q : PyStr) (p : Piece) (hp : p ∈ lexPieces q) :
    ((p.kind = .err ↔ NoMatch (q.drop p.start)) ∧ (p.kind = .err → ErrorSpan (q.drop p.start) p.text)) ∧
    (p.kind ≠ .err → ∃ t, LongestMatch (q.drop p.start) t p.text ∧
      p.kind = if t = .Space then .skip else .tok t) := by
  obtain ⟨_, h⟩ := (lexPieces_splits q).at p hp
  rw [Nat.sub_zero] at h
  rcases h with ⟨t, h1, h2⟩ | ⟨h1, h2⟩
  · have hne : p.kind ≠ .err := by rw [h1]; exact kindOf_err
    exact ⟨⟨⟨fun h => absurd h hne, fun h => absurd h h2.not_noMatch⟩, fun h => absurd h hne⟩, fun _ => ⟨t, h2, h1⟩⟩
  · exact ⟨⟨⟨fun _ => h2.noMatch, fun _ => h1⟩, fun _ => h2⟩, fun h => absurd h1 h⟩

/-- **C06.** This determines the pieces: the split of a query is the only maximal-munch split. -/
theorem C06_split_unique (q : PyStr) (ps : List Piece) : lexPieces q = ps ↔ Splits q 0 0 ps := lexPieces_iff q ps

-- `within` is a keyword, `withins` an identifier, `!=` one token, `s` a scope word, `ss` an identifier
example : (lexTokens py!"within withins != s ss i").map Tok.type =
    [.WITHIN, .IDENTIFIER, .OPERATOR_NE, .SIMPLE_WITHIN_SCOPE, .IDENTIFIER, .REGEXP_FLAGS] := by decide +kernel

/-! ### C07 -/

/-- **C07.** The pieces (tokens, skipped whitespace, error spans) tile the query: none is empty, each one
starts where the previous ones end, and together they are the query. -/
theorem C07_pieces_tile (q : PyStr) :
    (lexPieces q).flatMap Piece.text = q ∧
    ∀ a p b, lexPieces q = a ++ p :: b → p.text ≠ [] ∧ p.start = (a.flatMap Piece.text).length := by
  have h := lexPieces_splits q
  refine ⟨h.text, fun a p b e => ⟨h.nonempty p (by rw [e]; simp), ?_⟩⟩
  have := (h.start a p b e).1
  simpa [piecesText] using this

/-- **C07.** Tokens are non-empty, in bounds, strictly ordered, and their text is the text of the query at
their offsets. -/
theorem C07_tokens (q : PyStr) :
    (∀ t ∈ lexTokens q, 0 ≤ t.start ∧ t.start ≤ t.stop ∧ t.stop < q.length ∧
      t.text = substring q t.start (t.stop + 1) ∧ t.text ≠ []) ∧
    (lexTokens q).Pairwise fun a b => a.stop < b.start := by
  refine ⟨fun t ht => ?_, tokens_pairwise q⟩
  obtain ⟨h1, h2, h3, h4, h5⟩ := token_bounds ht
  refine ⟨h1, h2, h3, h4, fun h => ?_⟩
  rw [h] at h5
  simp at h5
  omega

theorem piece_covering (q : PyStr) (i : Nat) (hi : i < q.length) :
    ∃ p ∈ lexPieces q, p.start ≤ i ∧ i < p.start + p.text.length ∧ q[i]? = p.text[i - p.start]? := by
  have key : ∀ {s : PyStr} {pos col : Nat} {ps : List Piece}, Splits s pos col ps → ∀ i, i < s.length →
      ∃ p ∈ ps, p.start ≤ pos + i ∧ pos + i < p.start + p.text.length ∧ s[i]? = p.text[pos + i - p.start]? := by
    intro s pos col ps h
    have step : ∀ (w rest : PyStr) (pos : Nat) (p : Piece) (ps : List Piece), p.text = w → p.start = pos →
        (∀ i, i < rest.length → ∃ p ∈ ps, p.start ≤ pos + w.length + i ∧
          pos + w.length + i < p.start + p.text.length ∧ rest[i]? = p.text[pos + w.length + i - p.start]?) →
        ∀ i, i < (w ++ rest).length → ∃ p' ∈ p :: ps, p'.start ≤ pos + i ∧ pos + i < p'.start + p'.text.length ∧
          (w ++ rest)[i]? = p'.text[pos + i - p'.start]? := by
      intro w rest pos p ps h1 h2 ih i hi
      by_cases hlt : i < w.length
      · refine ⟨p, List.mem_cons_self, by omega, by rw [h1]; omega, ?_⟩
        rw [h1, h2, Nat.add_sub_cancel_left, List.getElem?_append_left hlt]
      · simp only [List.length_append] at hi
        obtain ⟨p', h3, h4, h5, h6⟩ := ih (i - w.length) (by omega)
        have : pos + w.length + (i - w.length) = pos + i := by omega
        rw [this] at h4 h5 h6
        refine ⟨p', List.mem_cons_of_mem _ h3, h4, h5, ?_⟩
        rw [List.getElem?_append_right (by omega), h6]
    induction h with
    | nil => simp
    | token hm hs ih => exact step _ _ _ _ _ rfl rfl ih
    | error hm hs ih => exact step _ _ _ _ _ rfl rfl ih
  obtain ⟨p, h1, h2, h3, h4⟩ := key (lexPieces_splits q) i hi
  rw [Nat.zero_add] at h2 h3 h4
  exact ⟨p, h1, h2, h3, h4⟩

/-- **C07.** Without lexical error every character outside the tokens is whitespace; with lexical errors
it may also belong to an error span. -/
theorem C07_outside_tokens (q : PyStr) (i : Nat) (hi : i < q.length)
    (hout : ∀ t ∈ lexTokens q, ¬ (t.start ≤ i ∧ (i : Int) ≤ t.stop)) :
    isWs q[i] = true ∨ ∃ p ∈ lexErrors q, p.start ≤ i ∧ i < p.start + p.text.length := by
  obtain ⟨p, h1, h2, h3, h4⟩ := piece_covering q i hi
  rcases (lexPieces_splits q).kinds p h1 with hk | ⟨t, hk, hf⟩
  · exact .inr ⟨p, by simp [lexErrors, h1, hk], h2, h3⟩
  · left
    by_cases ht : t = .Space
    · obtain ⟨c, hc, hw⟩ := skip_text hf ht
      rw [hc] at h3 h4
      simp only [List.length_singleton] at h3
      have : i - p.start = 0 := by omega
      rw [this] at h4
      rw [List.getElem?_eq_getElem hi] at h4
      simp only [List.getElem?_cons_zero, Option.some.injEq] at h4
      rw [h4]; exact hw
    · have hmem : ({ type := t, text := p.text, start := p.start, stop := p.start + p.text.length - 1 } : Tok) ∈
          lexTokens q := by
        refine List.mem_filterMap.2 ⟨p, h1, ?_⟩
        have : p.kind = .tok t := by rw [hk, kindOf_tok]; exact ⟨rfl, ht⟩
        simp [Piece.tok?, this]
      exact absurd ⟨by simp only; omega, by simp only; omega⟩ (hout _ hmem)

example : (lexPieces py!"[a $='b'").map (fun p => (p.kind, p.start, p.text)) =
    [(.tok .L_SQUARE_BRACKET, 0, py!"["), (.tok .IDENTIFIER, 1, py!"a"), (.skip, 2, py!" "), (.err, 3, py!"$"),
     (.tok .OPERATOR_EQ, 4, py!"="), (.tok .REGEXP, 5, py!"'b'")] := by decide +kernel

/-! ### C48 -/

/-- **C48.** If a query parses, every character that is not whitespace belongs to a token, and the tokens
are, in order and completely, the leaves of the parse tree (followed by `EOF`). -/
theorem C48_nothing_ignored (rt : Runtime) (cfg : Config) (q : PyStr) (n : Node)
    (h : (parseQuery rt cfg q).1 = .ok n) :
    (∀ i, (hi : i < q.length) → isWs q[i] = false →
      ∃ t ∈ lexTokens q, t.start ≤ i ∧ (i : Int) ≤ t.stop) ∧
    ∃ tree, antlrParse q = .ok tree ∧ tree.leaves = lexTokens q ++ [eofTok q] := by
  obtain ⟨hl, cst, hs, hd⟩ := (parse_ok rt cfg q n).1 h
  refine ⟨fun i hi hw => ?_, cst.toTree, ?_, hs.leaves⟩
  · refine Classical.byContradiction fun hout => ?_
    rcases C07_outside_tokens q i hi (fun t ht hc => hout ⟨t, ht, hc⟩) with h1 | ⟨p, h1, _⟩
    · rw [h1] at hw; cases hw
    · rw [hl] at h1; cases h1
  · simp [antlrParse, hs.parse]

/-- A character no lexical rule can end with (it may still occur inside a string literal or a name). -/
def Stray (c : Nat) : Prop := ∀ w, ¬ SomeRule lexRules (w ++ [c])

/-- A query ending with a stray character has a lexical error. -/
theorem C48_stray_end_is_error (q : PyStr) (c : Nat) (hc : Stray c) : lexErrors (q ++ [c]) ≠ [] := by
  intro hnil
  obtain ⟨p, h1, h2, h3, h4⟩ := piece_covering (q ++ [c]) q.length (by simp)
  have hb := piece_bounds h1
  have hlen : (q ++ [c]).length = q.length + 1 := by simp
  rw [hlen] at hb
  have hpl : p.text.length = q.length - p.start + 1 := by omega
  rw [List.getElem?_append_right (Nat.le_refl _), Nat.sub_self, List.getElem?_cons_zero] at h4
  have hend : ∃ w, p.text = w ++ [c] := by
    refine ⟨p.text.take (q.length - p.start), ?_⟩
    have hlt : q.length - p.start < p.text.length := by omega
    rw [List.getElem?_eq_getElem hlt] at h4
    have h5 := List.take_append_getElem hlt
    have h6 : p.text.take (q.length - p.start + 1) = p.text := List.take_of_length_le (by omega)
    rw [h6] at h5
    simp only [Option.some.injEq] at h4
    rw [h4]; exact h5.symm
  obtain ⟨w, hw⟩ := hend
  rcases (lexPieces_splits (q ++ [c])).kinds p h1 with hk | ⟨t, hk, hf⟩
  · have : p ∈ lexErrors (q ++ [c]) := by simp [lexErrors, h1, hk]
    rw [hnil] at this; cases this
  · rw [hw] at hf
    exact hc w hf.someRule

/-- **C48.** Any text followed by a stray character is rejected. -/
theorem C48_trailing_garbage (rt : Runtime) (cfg : Config) (q : PyStr) (c : Nat) (hc : Stray c) :
    ∀ n, (parseQuery rt cfg (q ++ [c])).1 ≠ .ok n := fun n h =>
  C48_stray_end_is_error q c hc ((parse_ok rt cfg _ n).1 h).1

/-- The characters that can end a token. -/
def tokenEnds : PyStr := py!"()[]|&!/{}+*?,=:'\""

theorem snoc_eq_singleton {w : PyStr} {c d : Nat} (h : w ++ [c] = [d]) : c = d := by
  have := List.append_inj' (s₁ := w) (s₂ := []) (t₁ := [c]) (t₂ := [d]) (by simpa using h) rfl
  simpa using this.2

theorem last_of_all {w : PyStr} {c : Nat} {P : Nat → Prop} (h : ∀ x ∈ w ++ [c], P x) : P c := h c (by simp)

/-- **C48.** Every character that is no ASCII letter or digit, no whitespace and none of
`()[]|&!/{}+*?,=:'"` is stray. -/
theorem C48_stray (c : Nat) (h1 : isAlnum c = false) (h2 : isWs c = false) (h3 : c ∉ tokenEnds) :
    Stray c := by
  rintro w ⟨p, hp, hm⟩
  simp only [tokenEnds, List.mem_cons, List.not_mem_nil, or_false, not_or] at h3
  simp only [lexRules, List.mem_cons, List.not_mem_nil, or_false] at hp
  have hletter : ¬ isLetter c = true := fun h => by simp [isAlnum, h] at h1
  have hchr : ∀ d, Matches (Rx.chr d) (w ++ [c]) → c = d := fun d h => snoc_eq_singleton (matches_chr.1 h)
  rcases hp with rfl | rfl | rfl | rfl | rfl | rfl | rfl | rfl | rfl | rfl | rfl | rfl | rfl | rfl | rfl | rfl | rfl |
    rfl | rfl | rfl | rfl | rfl | rfl | rfl | rfl
  case inr.inr.inr.inr.inr.inr.inr.inr.inr.inr.inr.inr.inr.inr.inr.inl =>
    have := (matches_str _).1 hm
    have := List.append_inj' (s₁ := w) (s₂ := [33]) (t₁ := [c]) (t₂ := [61]) (by simpa using this) rfl
    simp at this; omega
  all_goals try (have := hchr _ hm; omega)
  · have := (matches_str _).1 hm
    have := List.append_inj' (s₁ := w) (s₂ := py!"withi") (t₁ := [c]) (t₂ := [110]) (by simpa using this) rfl
    simp at this
    rw [this.2] at hletter
    exact hletter rfl
  · obtain ⟨sc, hs⟩ := matches_scope.1 hm
    exact hletter ((scopeWords_letters _ hs).2 c (by simp))
  · exact hletter (flagLetters c ((matches_flags.1 hm).2 c (by simp)))
  · rcases matches_identifier.1 hm with ⟨d, hd, hl⟩ | ⟨a, m, z, hd, _, _, hz⟩
    · rw [← snoc_eq_singleton hd] at hl; exact hletter hl
    · have := List.append_inj' (s₁ := w) (s₂ := a :: m) (t₁ := [c]) (t₂ := [z]) (by simpa using hd) rfl
      simp at this
      rw [← this.2, h1] at hz; cases hz
  · have := (matches_integer.1 hm).2
    simp only [List.all_append, List.all_cons, List.all_nil, Bool.and_true, Bool.and_eq_true] at this
    simp [isAlnum, this.2] at h1
  all_goals try (
    obtain ⟨q, ps, hlit⟩ := matches_quoted.1 hm
    have he := hlit.eq
    rw [litText, ← List.cons_append] at he
    have := (List.append_inj' he rfl).2
    simp at this
    rcases hlit.quote with hq | hq <;> omega)
  · obtain ⟨d, hd, hr⟩ := matches_cls.1 hm
    rw [← snoc_eq_singleton hd, ← isWs_eq, h2] at hr; cases hr

example : Stray 36 ∧ Stray 45 ∧ Stray 64 ∧ Stray 228 :=
  ⟨C48_stray _ rfl rfl (by decide), C48_stray _ rfl rfl (by decide), C48_stray _ rfl rfl (by decide),
    C48_stray _ rfl rfl (by decide)⟩

end Fcsql
