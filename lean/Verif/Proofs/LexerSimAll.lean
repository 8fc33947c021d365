/-
The runtime's lexer on a whole text.
-/
import Verif.Spec.LexerSim
import Verif.Proofs.LexerSimRun
import Verif.Proofs.Tiling

set_option autoImplicit false
set_option linter.unusedSimpArgs false

namespace Fcsql

/-- The first piece is the next one. -/
theorem Splits.next {s : PyStr} {pos col : Nat} {ps : List Piece} (h : Splits s pos col ps) (hs : s ≠ []) :
    ∃ ps', ps = { kind := (nextPiece s).1, text := s.take (nextPiece s).2, start := pos, column := col } :: ps' ∧
      Splits (s.drop (nextPiece s).2) (pos + (nextPiece s).2) (advanceColumn col (s.take (nextPiece s).2)) ps' := by
  cases h with
  | nil => exact absurd rfl hs
  | @token w rest _ _ t ps' hm h =>
    rw [nextPiece_of_longest hm]
    simp only [List.take_left, List.drop_left]
    exact ⟨ps', rfl, h⟩
  | @error w rest _ _ ps' hm h =>
    rw [nextPiece_of_error hm]
    simp only [List.take_left, List.drop_left]
    exact ⟨ps', rfl, h⟩

theorem lineAt_add (q : PyStr) (i n : Nat) : lineAt q (i + n) = lineAt q i + ((q.drop i).take n).count 10 := by
  unfold lineAt
  rw [List.take_add, List.count_append]
  omega

/-- At the end of the text. -/
theorem lexMatch_eof {m : Nat} (q : PyStr) (p : LexPos) (hm : 28 ≤ m) (hp : p.index = q.length) :
    lexMatch lexerAtn m q p = some (.accepted (-1) none p) := by
  obtain ⟨s0, h1, h2⟩ := isSet_start hm
  have hf : lexerAtn.firstStop s0 = none := by
    cases hf : lexerAtn.firstStop s0 with
    | none => rfl
    | some c =>
      obtain ⟨⟨i, s, _, hacc, _⟩, _⟩ := h2.firstStop_some hf
      exact absurd hacc (not_accepts_nil i)
  have hc : capture lexerAtn p s0 none = none := by unfold capture; rw [hf]
  have hla : inputLA q p.index = -1 := inputLA_none.2 (by omega)
  unfold lexMatch
  rw [lexerAtn_modes]
  simp only [h1]
  rw [hc]
  unfold lexExec
  rw [hla, h2.eof]
  simp [hla]

/-- Where the lexer is: at an offset of the text, with line and column to match. -/
structure AtPos (q : PyStr) (p : LexPos) : Prop where
  index : p.index ≤ q.length
  line : p.line = lineAt q p.index
  column : p.column = advanceColumn 0 (q.take p.index)

theorem AtPos.after {q : PyStr} {p : LexPos} (h : AtPos q p) (n : Nat) (hn : n ≤ (q.drop p.index).length) :
    AtPos q (posAfter p ((q.drop p.index).take n)) ∧ (posAfter p ((q.drop p.index).take n)).index = p.index + n := by
  have hl : ((q.drop p.index).take n).length = n := by rw [List.length_take]; omega
  have hi : (posAfter p ((q.drop p.index).take n)).index = p.index + n := by simp only [posAfter, hl]
  refine ⟨⟨?_, ?_, ?_⟩, hi⟩
  · rw [hi]
    rw [List.length_drop] at hn
    have := h.index
    omega
  · rw [hi, lineAt_add, ← h.line]
    rfl
  · rw [hi, List.take_add]
    simp only [posAfter, h.column, advanceColumn, List.foldl_append]

/-- **`Lexer.nextToken`.** -/
theorem lexNextToken_spec {m : Nat} (q : PyStr) (hm : 28 ≤ m) (n : Nat) :
    ∀ (lx : LexObj) (ps : List Piece), AtPos q lx.pos → (lx.hitEOF = true → lx.pos.index = q.length) →
      Splits (q.drop lx.pos.index) lx.pos.index lx.pos.column ps → q.length < lx.pos.index + n →
      (∃ rs lx', lexNextToken lexerAtn m q n lx = some (rs, eofRaw q, lx') ∧ ps.flatMap (Piece.events q) = rs.map .report) ∨
      (∃ rs t lx' ps', lexNextToken lexerAtn m q n lx = some (rs, t, lx') ∧ t.type ≠ -1 ∧
        ps.flatMap (Piece.events q) = rs.map .report ++ .token t :: ps'.flatMap (Piece.events q) ∧ AtPos q lx'.pos ∧
        (lx'.hitEOF = true → lx'.pos.index = q.length) ∧ Splits (q.drop lx'.pos.index) lx'.pos.index lx'.pos.column ps' ∧
        lx.pos.index < lx'.pos.index) := by
  induction n with
  | zero => intro lx ps hat _ _ hn; have := hat.index; omega
  | succ n ih =>
    intro lx ps hat heof hsp hn
    unfold lexNextToken
    have hEofTok : lx.pos.index = q.length → ({ type := -1, start := lx.pos.index, stop := (lx.pos.index : Int) - 1, line := lx.pos.line, column := lx.pos.column } : RawTok) = eofRaw q := by
      intro h
      rw [hat.line, hat.column, h]
      simp [eofRaw]
    have hnil : lx.pos.index = q.length → ps = [] := by
      intro h
      rw [h, List.drop_length] at hsp
      exact hsp.unique .nil
    split
    · rename_i hh
      left
      rw [hEofTok (heof hh), hnil (heof hh)]
      exact ⟨[], lx, rfl, rfl⟩
    · rcases Nat.lt_or_ge lx.pos.index q.length with hlt | hge
      · have hne : q.drop lx.pos.index ≠ [] := by
          intro h
          have := List.drop_eq_nil_iff.1 h
          omega
        obtain ⟨ps', rfl, hsp'⟩ := hsp.next hne
        obtain ⟨hpos, hle⟩ := nextPiece_pos _ hne
        obtain ⟨hat', hi'⟩ := hat.after _ hle
        have hsp'' : ∀ e b, LexObj.mk (posAfter lx.pos ((q.drop lx.pos.index).take (nextPiece (q.drop lx.pos.index)).2)) b = e →
            Splits (q.drop e.pos.index) e.pos.index e.pos.column ps' := by
          rintro e b rfl
          simp only [hi']
          rw [List.drop_drop] at hsp'
          exact hsp'
        have hpeof : ∀ p : LexPos, decide (inputLA q p.index = -1) = true → p.index ≤ q.length → p.index = q.length := by
          intro p h h'
          rw [decide_eq_true_eq, inputLA_none] at h
          omega
        rcases lexMatch_spec q lx.pos hm hlt with ⟨t, w, h1, h2, h3⟩ | ⟨u, h1, h2, h3⟩
        · have hnp := nextPiece_of_longest h1
          have hw : (q.drop lx.pos.index).take w.length = w := take_of_prefix h1.isPrefix
          rw [h3]
          simp only
          rw [hnp] at hat' hi' hsp'' hpos hle ⊢
          simp only at hat' hi' hsp'' hpos hle ⊢
          rw [hw] at hat' hi' hsp'' ⊢
          by_cases ht : t = .Space
          · subst ht
            simp only [if_pos]
            rcases ih { pos := posAfter lx.pos w, hitEOF := inputLA q (posAfter lx.pos w).index = -1 } ps' hat'
              (fun h => hpeof _ h hat'.index) (hsp'' _ _ rfl) (by simp only [hi']; omega) with ⟨rs, lx', k1, k2⟩ | ⟨rs, t', lx', ps'', k1, k2, k3, k4, k5, k6, k7⟩
            · left
              exact ⟨rs, lx', k1, by simpa [Piece.events, kindOf] using k2⟩
            · right
              refine ⟨rs, t', lx', ps'', k1, k2, by simpa [Piece.events, kindOf] using k3, k4, k5, k6, ?_⟩
              simp only [hi'] at k7
              omega
          · have hnum : t.num ≠ lexSkip := by cases t <;> decide
            have hnum' : t.num ≠ -1 := by cases t <;> first | decide | exact absurd rfl h2
            simp only [if_neg ht, if_neg hnum]
            right
            refine ⟨[], _, _, ps', rfl, hnum', ?_, hat', fun h => hpeof _ h hat'.index, hsp'' _ _ rfl, by simp only [hi']; omega⟩
            rw [List.flatMap_cons]
            simp only [Piece.events, kindOf, if_neg ht, List.map_nil, List.nil_append, List.singleton_append]
            congr 2
            rw [hat.line]
            simp only [posAfter]
            congr 1
        · have hnp := nextPiece_of_error h1
          rw [h3]
          simp only
          have hne1 : (q.drop lx.pos.index).take (u.length + 1) ≠ [] := h1.nonempty
          have htake : (q.drop lx.pos.index).take ((q.drop lx.pos.index).take (u.length + 1)).length = (q.drop lx.pos.index).take (u.length + 1) :=
            take_of_prefix h1.isPrefix
          rw [hnp] at hat' hi' hsp'' hpos hle ⊢
          simp only at hat' hi' hsp'' hpos hle ⊢
          rw [htake] at hat' hi' hsp'' ⊢
          have hidx : (posAfter lx.pos u).index = lx.pos.index + u.length := rfl
          have hcons : (if inputLA q (posAfter lx.pos u).index ≠ -1 then (posAfter lx.pos u).consume q else posAfter lx.pos u) =
              posAfter lx.pos ((q.drop lx.pos.index).take (u.length + 1)) := by
            rw [hidx]
            cases hq : q[lx.pos.index + u.length]? with
            | none =>
              have := List.getElem?_eq_none_iff.1 hq
              rw [if_neg (by rw [inputLA_none.2 this]; simp)]
              congr 1
              rw [List.take_of_length_le (by rw [List.length_drop]; omega)]
              refine h2.eq_of_length ?_
              have := h2.length_le
              rw [List.length_drop] at *
              omega
            | some k =>
              rw [if_pos (by rw [inputLA_some hq]; omega), consume_posAfter hq]
              congr 1
              have hk : (q.drop lx.pos.index)[u.length]? = some k := by rw [List.getElem?_drop]; exact hq
              rw [List.take_add_one, hk, take_of_prefix h2]
              rfl
          rw [hcons]
          have hlen : (posAfter lx.pos u).index + 1 - lx.pos.index = u.length + 1 := by rw [hidx]; omega
          rw [hlen]
          have hev : ∀ es, Piece.events q { kind := .err, text := (q.drop lx.pos.index).take (u.length + 1), start := lx.pos.index, column := lx.pos.column } ++ es =
              .report { line := lx.pos.line, column := lx.pos.column, text := (q.drop lx.pos.index).take (u.length + 1) } :: es := by
            intro es
            simp only [Piece.events, hat.line, List.singleton_append]
          rcases ih { pos := posAfter lx.pos ((q.drop lx.pos.index).take (u.length + 1)), hitEOF := inputLA q (posAfter lx.pos ((q.drop lx.pos.index).take (u.length + 1))).index = -1 } ps' hat'
              (fun h => hpeof _ h hat'.index) (hsp'' _ _ rfl) (by simp only [hi']; omega) with ⟨rs, lx', k1, k2⟩ | ⟨rs, t', lx', ps'', k1, k2, k3, k4, k5, k6, k7⟩
          · left
            rw [k1]
            refine ⟨_, lx', rfl, ?_⟩
            rw [List.flatMap_cons, hev, k2]
            rfl
          · right
            rw [k1]
            refine ⟨_, t', lx', ps'', rfl, k2, ?_, k4, k5, k6, ?_⟩
            · rw [List.flatMap_cons, hev, k3]
              rfl
            · simp only [hi'] at k7
              omega
      · have he : lx.pos.index = q.length := by have := hat.index; omega
        left
        rw [lexMatch_eof q lx.pos hm he]
        simp only
        rw [if_neg (by decide), hEofTok he]
        exact ⟨[], _, rfl, by rw [hnil he]; rfl⟩

/-- **`CommonTokenStream.fill`.** -/
theorem lexFill_spec {m : Nat} (q : PyStr) (hm : 28 ≤ m) (n : Nat) :
    ∀ (lx : LexObj) (ps : List Piece), AtPos q lx.pos → (lx.hitEOF = true → lx.pos.index = q.length) →
      Splits (q.drop lx.pos.index) lx.pos.index lx.pos.column ps → q.length < lx.pos.index + n →
      lexFill lexerAtn m q n lx = some (ps.flatMap (Piece.events q) ++ [.token (eofRaw q)]) := by
  induction n with
  | zero => intro lx ps hat _ _ hn; have := hat.index; omega
  | succ n ih =>
    intro lx ps hat heof hsp hn
    unfold lexFill
    rcases lexNextToken_spec q hm (q.length + 1) lx ps hat heof hsp (by omega) with ⟨rs, lx', k1, k2⟩ | ⟨rs, t', lx', ps'', k1, k2, k3, k4, k5, k6, k7⟩
    · rw [k1]
      simp only
      have : (eofRaw q).type = -1 := rfl
      rw [if_pos this, k2]
    · rw [k1]
      simp only
      rw [if_neg k2, ih lx' ps'' k4 k5 k6 (by omega), k3]
      simp

/-- The runtime's lexer does what the pieces say. -/
theorem runLexer_spec (q : PyStr) (m : Nat) (hm : 28 ≤ m) :
    runLexer lexerAtn m q = some ((lexPieces q).flatMap (Piece.events q) ++ [.token (eofRaw q)]) := by
  unfold runLexer
  refine lexFill_spec q hm _ _ _ ⟨Nat.zero_le _, rfl, rfl⟩ (by simp) ?_ (by simp)
  exact lexPieces_splits q

end Fcsql
