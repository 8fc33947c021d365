/-
C81: the `SyntaxError` of `antlr_parse`.
-/
import Verif.Model.AntlrParse
import Verif.Spec.Place
import Verif.Props.NeverLate
import Verif.Props.Exact

set_option autoImplicit false
set_option linter.unusedSimpArgs false

namespace Fcsql

attribute [local irreducible] parseQuery

variable {σ : Type}

/-- `antlr_parse(q)` returns this tree, or raises `SyntaxError` with this message (however large the bound on the number of
steps). -/
def AntlrEnds (S : Strategy σ) (m : σ) (msg : Tok → PyStr) (q : PyStr) (r : Except PyStr PTree) : Prop :=
  ∃ N, ∀ n, N ≤ n → antlrParseRun S m msg n q = some r

theorem advanceLine_eq (l : Nat) (w : PyStr) : advanceLine l w = l + w.count 10 := by
  unfold advanceLine
  induction w generalizing l with
  | nil => rfl
  | cons c w ih =>
    rw [List.foldl_cons, ih]
    by_cases hc : c = 10 <;> simp [hc]; omega

theorem advanceColumn_append (col : Nat) (v w : PyStr) : advanceColumn col (v ++ w) = advanceColumn (advanceColumn col v) w := by
  simp [advanceColumn, List.foldl_append]

theorem advanceLine_append (l : Nat) (v w : PyStr) : advanceLine l (v ++ w) = advanceLine (advanceLine l v) w := by
  simp [advanceLine, List.foldl_append]

/-- Lines and columns of the tokens. -/
theorem placeTokens_spec (eof : Tok) {s : PyStr} {pos col : Nat} {ps : List Piece} (h : Splits s pos col ps) :
    ∀ (v : PyStr), v.length = pos → col = advanceColumn 0 v → eof.start = ((v ++ s).length : Nat) →
    (placeTokens eof ps (advanceLine 1 v) col).map Prod.fst = ps.filterMap Piece.tok? ++ [eof] ∧
    ∀ p ∈ placeTokens eof ps (advanceLine 1 v) col, 0 ≤ p.1.start ∧
      p.2.1 = lineAt (v ++ s) p.1.start.toNat ∧ p.2.2 = columnAt (v ++ s) p.1.start.toNat := by
  have step : ∀ {w rest : PyStr} {pos col : Nat} {ps : List Piece} (k : PieceKind),
      (∀ (v : PyStr), v.length = pos + w.length → advanceColumn col w = advanceColumn 0 v →
        eof.start = ((v ++ rest).length : Nat) →
        (placeTokens eof ps (advanceLine 1 v) (advanceColumn col w)).map Prod.fst = ps.filterMap Piece.tok? ++ [eof] ∧
        ∀ p ∈ placeTokens eof ps (advanceLine 1 v) (advanceColumn col w), 0 ≤ p.1.start ∧
          p.2.1 = lineAt (v ++ rest) p.1.start.toNat ∧ p.2.2 = columnAt (v ++ rest) p.1.start.toNat) →
      ∀ (v : PyStr), v.length = pos → col = advanceColumn 0 v → eof.start = ((v ++ (w ++ rest)).length : Nat) →
      (placeTokens eof ({ kind := k, text := w, start := pos, column := col } :: ps) (advanceLine 1 v) col).map Prod.fst =
        ({ kind := k, text := w, start := pos, column := col } :: ps : List Piece).filterMap Piece.tok? ++ [eof] ∧
      ∀ p ∈ placeTokens eof ({ kind := k, text := w, start := pos, column := col } :: ps) (advanceLine 1 v) col,
        0 ≤ p.1.start ∧ p.2.1 = lineAt (v ++ (w ++ rest)) p.1.start.toNat ∧
        p.2.2 = columnAt (v ++ (w ++ rest)) p.1.start.toNat := by
    intro w rest pos col ps k ih v hv hc he
    obtain ⟨h1, h2⟩ := ih (v ++ w) (by simp [hv]) (by rw [advanceColumn_append, ← hc]) (by rw [he]; simp)
    rw [advanceLine_append] at h1 h2
    rw [List.append_assoc] at h2
    constructor
    · rw [placeTokens, List.map_append, h1]
      cases k <;> simp [Piece.tok?, List.filterMap_cons]
    · intro p hp
      rw [placeTokens, List.mem_append] at hp
      rcases hp with hp | hp
      · cases k with
        | tok t =>
          simp only [Piece.tok?, List.mem_singleton] at hp
          subst hp
          dsimp only
          have e : (v ++ (w ++ rest)).take pos = v := by rw [← hv, List.take_left]
          refine ⟨by omega, ?_, ?_⟩
          · rw [Int.toNat_natCast, lineAt, e, advanceLine_eq]
          · rw [Int.toNat_natCast, columnAt, e, hc, advanceColumn_eq]
        | _ => simp [Piece.tok?] at hp
      · exact h2 p hp
  induction h with
  | nil =>
    intro v hv hc he
    constructor
    · rfl
    · intro p hp
      simp only [placeTokens, List.mem_singleton] at hp
      subst hp
      rw [List.append_nil] at he ⊢
      dsimp only
      rw [he]
      refine ⟨by omega, ?_, ?_⟩
      · rw [Int.toNat_natCast, lineAt, List.take_length, advanceLine_eq]
      · rw [Int.toNat_natCast, columnAt, List.take_length, hc, advanceColumn_eq]
  | token _ _ ih => exact step _ ih
  | error _ _ ih => exact step _ ih

theorem placeOf_eq {q : PyStr} {t : Tok} (ht : t ∈ tokenStream q) :
    placeOf q t = (lineAt q t.start.toNat, columnAt q t.start.toNat) := by
  obtain ⟨h1, h2⟩ := placeTokens_spec (eofTok q) (lexPieces_splits q) [] rfl rfl (by simp [eofTok])
  have h1 : (placedStream q).map Prod.fst = tokenStream q := h1
  have h2 : ∀ p ∈ placedStream q, 0 ≤ p.1.start ∧ p.2.1 = lineAt q p.1.start.toNat ∧ p.2.2 = columnAt q p.1.start.toNat := h2
  rw [← h1] at ht
  obtain ⟨p, hp, rfl⟩ := List.mem_map.1 ht
  unfold placeOf
  cases hf : (placedStream q).find? fun p' => p'.1 = p.1 with
  | none =>
    have := List.find?_eq_none.1 hf p hp
    simp at this
  | some p' =>
    have e := List.find?_some hf
    simp only [decide_eq_true_eq] at e
    obtain ⟨-, h3, h4⟩ := h2 p' (List.mem_of_find?_eq_some hf)
    rw [e] at h3 h4
    exact Prod.ext h3 h4

/-! ### C81 -/

/-- **C81.** `antlr_parse` always comes to an end, in one way; it returns the tree of C09-C11, or raises `SyntaxError`; the
message begins with the line (from 1) and the column (from 0) of a token (or the end) of the query, and the tokens before it
are the beginning of some query. -/
theorem C81_antlr_parse (S : Strategy σ) (hS : S.Antlr) (m : σ) (msg : Tok → PyStr) (q : PyStr) :
    (∃ r, ∀ r', AntlrEnds S m msg q r' ↔ r' = r) ∧
    (∀ t, AntlrEnds S m msg q (.ok t) ↔ antlrParse q = .ok t) ∧
    (∀ s, AntlrEnds S m msg q (.error s) → ∃ us x vs, tokenStream q = us ++ x :: vs ∧ Begins us ∧
      s = py!"line " ++ decStr (lineAt q x.start.toNat) ++ py!":" ++ decStr (columnAt q x.start.toNat) ++ py!" " ++ msg x) := by
  obtain ⟨f, es, h, -⟩ := C79_antlr_terminates S hS m q
  have huniq : ∀ {r r'}, AntlrEnds S m msg q r → AntlrEnds S m msg q r' → r = r' := by
    rintro r r' ⟨N, h1⟩ ⟨N', h2⟩
    have := h1 (max N N') (by omega)
    rw [h2 (max N N') (by omega)] at this
    cases this
    rfl
  obtain ⟨N, hN⟩ := h
  cases es with
  | nil =>
    have hend : AntlrEnds S m msg q (.ok (.node .query f)) := ⟨N, fun n hn => by rw [antlrParseRun, hN n hn]⟩
    have hp := (C79_antlr_silent_iff_accepted S hS m q f).1 ⟨N, hN⟩
    refine ⟨⟨_, fun r' => ⟨fun h => huniq h hend, fun h => h ▸ hend⟩⟩, fun t => ⟨fun ht => ?_, fun ht => ?_⟩, fun s hs => ?_⟩
    · cases huniq hend ht
      exact hp
    · rw [hp] at ht
      cases ht
      exact hend
    · cases huniq hend hs
  | cons x es =>
    have hmem := (C79_reports S m q f _ ⟨N, hN⟩).1 x (by simp)
    have hend : AntlrEnds S m msg q (.error (py!"line " ++ decStr (lineAt q x.start.toNat) ++ py!":" ++
        decStr (columnAt q x.start.toNat) ++ py!" " ++ msg x)) :=
      ⟨N, fun n hn => by rw [antlrParseRun, hN n hn]; dsimp only; rw [placeOf_eq hmem]; rfl⟩
    refine ⟨⟨_, fun r' => ⟨fun h => huniq h hend, fun h => h ▸ hend⟩⟩, fun t => ⟨fun ht => ?_, fun ht => ?_⟩, fun s hs => ?_⟩
    · cases huniq hend ht
    · exfalso
      obtain ⟨c, hc⟩ := (parseTokens_some _ _).1 (antlrParse_ok.1 ht)
      obtain ⟨f', rfl⟩ := chosen_query_node hc
      have := Returns.unique ⟨N, hN⟩ ((C79_antlr_silent_iff_accepted S hS m q f').2 ht)
      cases this.2
    · cases huniq hend hs
      obtain ⟨us, vs, hq, hb⟩ := C80_not_late S hS m q f x es ⟨N, hN⟩
      exact ⟨us, x, vs, hq, hb, rfl⟩

/-- **C81.** In a query without newlines the column is the offset of the token, and the line is 1. -/
theorem C81_one_line (q : PyStr) (h : 10 ∉ q) (k : Nat) (hk : k ≤ q.length) : lineAt q k = 1 ∧ columnAt q k = k := by
  have h' : 10 ∉ q.take k := fun hm => h (List.mem_of_mem_take hm)
  refine ⟨?_, (columnAt_eq_iff q k hk).2 h'⟩
  unfold lineAt
  rw [List.count_eq_zero_of_not_mem h']

-- two lines; the error is at `|`, the fifth character of the second one
example (msg : Tok → PyStr) : ∃ x, x.text = py!"|" ∧ AntlrEnds antlrSkip () msg py!"'a'\n[b= | )" (.error (py!"line 2:4 " ++ msg x)) := by
  refine ⟨(tokenStream py!"'a'\n[b= | )")[4], by decide +kernel, ?_⟩
  have h : (callR antlrSkip () (eofTok py!"'a'\n[b= | )") code 60 .query (tokenStream py!"'a'\n[b= | )")).map (fun p => p.2.head?) =
      some (some (tokenStream py!"'a'\n[b= | )")[4]) := by decide +kernel
  cases hc : callR antlrSkip () (eofTok py!"'a'\n[b= | )") code 60 .query (tokenStream py!"'a'\n[b= | )") with
  | none => rw [hc] at h; cases h
  | some p =>
    obtain ⟨f, es⟩ := p
    rw [hc] at h
    simp only [Option.map_some, Option.some.injEq] at h
    obtain ⟨N, hN⟩ := returns_of_callR hc
    refine ⟨N, fun n hn => ?_⟩
    rw [antlrParseRun, hN n hn]
    cases es with
    | nil => cases h
    | cons y es =>
      cases h
      dsimp only
      rw [show placeOf py!"'a'\n[b= | )" (tokenStream py!"'a'\n[b= | )")[4] = (2, 4) by decide +kernel]
      rfl

-- and a query that is accepted
example (msg : Tok → PyStr) : ∃ t, AntlrEnds antlrSkip () msg py!"'a'" (.ok t) := by
  obtain ⟨t, ht⟩ := antlrParse_toBool (q := py!"'a'") (by decide +kernel)
  exact ⟨t, ((C81_antlr_parse antlrSkip antlrSkip_antlr () msg _).2.1 t).2 ht⟩

end Fcsql
