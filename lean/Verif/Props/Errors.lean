/-
C41: the details of syntax errors.
-/
import Verif.Proofs.Tiling
import Verif.Proofs.Parse
import Verif.Props.Examples

set_option autoImplicit false
set_option linter.unusedSimpArgs false

namespace Fcsql

/-- Assumption about ANTLR: a parser error is reported at a token of the token stream, a lexer error at an error
span of the lexer. -/
def ReportsOk (rt : Runtime) (q : PyStr) : Prop :=
  ∀ e ∈ (rt.syntaxErrors q).1 :: (rt.syntaxErrors q).2, match e with
    | .lexer p => p ∈ lexErrors q
    | .parser t _ => t ∈ tokenStream q

/-- What an error record says about a token. -/
structure AtToken (q : PyStr) (d : ErrorDetail) (t : Tok) : Prop where
  /-- position: the range of the token; no position for the end of an empty query -/
  position : d.position = if q = [] then .none else .loc ⟨t.start, t.stop + 1⟩
  /-- the range is in the query -/
  bounds : 0 ≤ t.start ∧ t.start ≤ t.stop + 1 ∧ t.stop + 1 ≤ q.length
  /-- fragment: the query up to and including the token -/
  fragment : d.fragment = some (q.take (t.stop + 1).toNat)
  /-- which ends with the token -/
  ends : t.type ≠ .EOF → t.text <:+ q.take (t.stop + 1).toNat

/-- A text as it is shown in messages: newline, tab and carriage return as escapes. -/
def visible : PyStr → PyStr
  | [] => []
  | c :: s => (match c with
      | 10 => py!"\\n"
      | 9 => py!"\\t"
      | 13 => py!"\\r"
      | c => [c]) ++ visible s

theorem errorDisplay_eq (s : PyStr) : errorDisplay s = visible s := by
  induction s with
  | nil => rfl
  | cons c s ih =>
    simp only [errorDisplay, List.flatMap_cons, visible] at ih ⊢
    rw [ih]
    congr 1
    split
    · next h => subst h; rfl
    split
    · next h => subst h; rfl
    split
    · next h => subst h; rfl
    split <;> simp_all

/-- What an error record says about an error span of the lexer. -/
structure AtPiece (q : PyStr) (d : ErrorDetail) (p : Piece) : Prop where
  message : d.message = py!"token recognition error at: '" ++ visible p.text ++ py!"'"
  /-- the text is in the query, at the offset -/
  text : p.text ≠ [] ∧ p.start + p.text.length ≤ q.length ∧ p.text = (q.drop p.start).take p.text.length
  /-- position: the distance to the beginning of the line -/
  position : ∃ line, line ≤ p.start ∧ d.position = .offset ((p.start - line : Nat) : Int) ∧
    (line = 0 ∨ q[line - 1]? = some 10) ∧ ∀ i, line ≤ i → i < p.start → q[i]? ≠ some 10
  fragment : d.fragment = none

theorem advanceColumn_line (w : PyStr) : ∀ col, ∃ line, line ≤ w.length ∧
    advanceColumn col w = (if line = 0 then col else 0) + (w.length - line) ∧
    (line = 0 ∨ w[line - 1]? = some 10) ∧ ∀ i, line ≤ i → i < w.length → w[i]? ≠ some 10 := by
  induction w with
  | nil => intro col; exact ⟨0, by simp, by simp [advanceColumn], .inl rfl, by simp⟩
  | cons c w ih =>
    intro col
    obtain ⟨l, h1, h2, h3, h4⟩ := ih (if c = 10 then 0 else col + 1)
    have e : advanceColumn col (c :: w) = advanceColumn (if c = 10 then 0 else col + 1) w := by
      simp [advanceColumn]
    rw [e, h2]
    by_cases hl : l = 0
    · subst hl
      by_cases hc : c = 10
      · refine ⟨1, by simp, by simp [hc], .inr (by simp [hc]), ?_⟩
        intro i hi hlt
        obtain ⟨j, rfl⟩ : ∃ j, i = j + 1 := ⟨i - 1, by omega⟩
        simpa using h4 j (by omega) (by simpa using hlt)
      · refine ⟨0, by simp, by simp [hc]; omega, .inl rfl, ?_⟩
        intro i hi hlt
        cases i with
        | zero => simpa using hc
        | succ j => simpa using h4 j (by omega) (by simpa using hlt)
    · refine ⟨l + 1, by simpa using h1, by simp [hl], .inr ?_, ?_⟩
      · rcases h3 with h3 | h3
        · exact absurd h3 hl
        · obtain ⟨k, rfl⟩ : ∃ k, l = k + 1 := ⟨l - 1, by omega⟩
          simpa using h3
      · intro i hi hlt
        obtain ⟨j, rfl⟩ : ∃ j, i = j + 1 := ⟨i - 1, by omega⟩
        simpa using h4 j (by omega) (by simpa using hlt)

theorem at_piece {q : PyStr} {p : Piece} (hp : p ∈ lexErrors q) : AtPiece q (listenerDetail q (.lexer p)) p := by
  have hp' : p ∈ lexPieces q := (List.mem_filter.1 hp).1
  refine ⟨by rw [← errorDisplay_eq]; rfl, piece_bounds hp', ?_, rfl⟩
  obtain ⟨a, b, e⟩ := List.append_of_mem hp'
  obtain ⟨h1, h2⟩ := (lexPieces_splits q).start a p b e
  obtain ⟨line, l1, l2, l3, l4⟩ := advanceColumn_line (piecesText a) 0
  have ht : q = piecesText a ++ (p.text ++ piecesText b) := by
    have := (lexPieces_splits q).text
    rw [e] at this
    rw [← this]; simp [piecesText]
  have hget : ∀ i, i < (piecesText a).length → q[i]? = (piecesText a)[i]? := by
    intro i hi; rw [ht, List.getElem?_append_left hi]
  simp only [Nat.zero_add] at h1
  refine ⟨line, by omega, ?_, ?_, ?_⟩
  · simp only [listenerDetail, h2, l2, h1]; simp
  · rcases l3 with l3 | l3
    · exact .inl l3
    · by_cases h0 : line = 0
      · exact .inl h0
      · exact .inr (by rw [hget _ (by omega)]; exact l3)
  · intro i hi hlt
    rw [hget i (by omega)]
    exact l4 i hi (by omega)

theorem at_token {q : PyStr} {t : Tok} (msg : PyStr) (ht : t ∈ tokenStream q) :
    AtToken q (listenerDetail q (.parser t msg)) t := by
  rcases List.mem_append.1 ht with h | h
  · obtain ⟨h1, h2, h3, h4, h5⟩ := token_bounds h
    have hq : q ≠ [] := by rintro rfl; simp at h3; omega
    have hstart : ∃ n : Nat, t.start = n := ⟨t.start.toNat, by omega⟩
    have hstop : ∃ n : Nat, t.stop + 1 = n := ⟨(t.stop + 1).toNat, by omega⟩
    obtain ⟨a, ha⟩ := hstart
    obtain ⟨b, hb⟩ := hstop
    have hsum : t.start + t.text.length = b := by omega
    refine ⟨?_, by omega, ?_, ?_⟩
    · have e1 : t.start ≠ -1 := by omega
      have e2 : t.stop ≠ -1 := by omega
      simp [listenerDetail, locFromToken, e1, e2, hq]
    · simp only [listenerDetail, slicePrefix, hsum, hb, Int.toNat_natCast]
      rw [sliceIdx_nat (by omega)]
    · intro _
      rw [h4, ha, hb, slice_nat (by omega) (by omega), Int.toNat_natCast]
      exact List.drop_suffix _ _
  · simp only [List.mem_singleton] at h
    subst h
    simp only [eofTok]
    refine ⟨?_, by simp, ?_, by simp [eofTok]⟩
    · by_cases hq : q = []
      · subst hq; rfl
      · have : 0 < q.length := List.length_pos_iff.2 hq
        have e1 : ((q.length : Nat) : Int) ≠ -1 := by omega
        have e2 : ((q.length : Nat) : Int) - 1 ≠ -1 := by omega
        simp [listenerDetail, locFromToken, eofTok, e1, e2, hq]
    · have e : sliceIdx q.length ((q.length : Int) + (py!"<EOF>".length : Nat)) = q.length := by
        unfold sliceIdx
        rw [if_neg (by omega)]
        omega
      simp only [listenerDetail, slicePrefix, e]
      simp

/-- **C41 (partial).** Every recorded syntax error points into the query: one at a token gives the range of the
token, and as fragment the query up to the end of the token; one of the lexer gives the message with the offending
text and, as position, the offset of that text from the beginning of its line. Missing (and false, see
`C41_lexer_position_refuted`): that the latter is the offset in the query, if this has several lines. -/
theorem C41_details_partial (rt : Runtime) (cfg : Config) (q : PyStr) (h : ReportsOk rt q) :
    ∀ d ∈ (parseQuery rt cfg q).2, (∃ p ∈ lexErrors q, AtPiece q d p) ∨ ∃ t ∈ tokenStream q, AtToken q d t := by
  intro d hd
  by_cases hg : lexErrors q = [] ∧ Grammatical (tokenStream q)
  · obtain ⟨cst, hs⟩ := (grammatical_iff_syntax q).1 hg.2
    rw [parseQuery_syntax rt cfg q hs hg.1] at hd
    cases hd
  · obtain ⟨e, es, he, hr⟩ := parseQuery_error rt cfg q hg
    rw [hr, ← List.map_cons] at hd
    obtain ⟨x, hx, rfl⟩ := List.mem_map.1 hd
    rw [← he] at hx
    unfold rawErrors at hx
    split at hx
    · obtain ⟨p, hp, rfl⟩ := List.mem_map.1 hx
      exact .inl ⟨p, hp, at_piece hp⟩
    · have := h x hx
      cases x with
      | lexer p => exact .inl ⟨p, this, at_piece this⟩
      | parser t msg => exact .inr ⟨t, this, at_token msg this⟩

/-- **C41.** For a query with lexical errors only (the tokens are grammatical), the recorded errors are exactly the
error spans of the lexer, in order. -/
theorem C41_lexical_errors (rt : Runtime) (cfg : Config) (q : PyStr) (hg : Grammatical (tokenStream q)) :
    (parseQuery rt cfg q).2.length = (lexErrors q).length ∧
      ∀ (i : Nat) (d : ErrorDetail) (p : Piece), (parseQuery rt cfg q).2[i]? = some d → (lexErrors q)[i]? = some p → AtPiece q d p := by
  have key : (parseQuery rt cfg q).2 = (lexErrors q).map fun p => listenerDetail q (.lexer p) := by
    by_cases hl : lexErrors q = []
    · obtain ⟨cst, hs⟩ := (grammatical_iff_syntax q).1 hg
      rw [parseQuery_syntax rt cfg q hs hl, hl]; rfl
    · obtain ⟨e, es, he, hr⟩ := parseQuery_error rt cfg q fun h => hl h.1
      rw [hr, ← List.map_cons, ← he]
      obtain ⟨t, ht⟩ := (grammatical_iff _).1 hg
      unfold rawErrors
      rw [ht]
      simp
  rw [key]
  refine ⟨by simp, ?_⟩
  intro i d p h1 h2
  rw [List.getElem?_map, h2] at h1
  simp only [Option.map_some, Option.some.injEq] at h1
  subst h1
  exact at_piece (List.mem_of_getElem? h2)

/-- **C41, single-line queries.** Without a newline before it, the position of a lexical error is its offset. -/
theorem C41_single_line_partial (q : PyStr) (d : ErrorDetail) (p : Piece) (h : AtPiece q d p)
    (hq : ∀ i, i < p.start → q[i]? ≠ some 10) : d.position = .offset p.start := by
  obtain ⟨line, h1, h2, h3, -⟩ := h.position
  rcases h3 with h3 | h3
  · rw [h2, h3]; simp
  · by_cases h0 : line = 0
    · rw [h2, h0]; simp
    · exact absurd h3 (hq _ (by omega))

/-- **C41 is false for several lines.** The error of `'a'⏎$` is at offset 4, but the position is 0. -/
theorem C41_lexer_position_refuted : ∃ p, lexErrors py!"'a'\n$" = [p] ∧ p.start = 4 ∧
    (parseQuery rt0 defaultConfig py!"'a'\n$").2 =
      [{ message := py!"token recognition error at: '$'", type := some py!"syntax-error", position := .offset 0,
         fragment := none }] := by
  refine ⟨⟨.err, py!"$", 4, 0⟩, by decide +kernel, rfl, by decide +kernel⟩

-- the hypotheses are met; an error at the end of the query
example : ReportsOk rt0 py!"'a' [b='c'" ∧ (parseQuery rt0 defaultConfig py!"'a' [b='c'").2 =
    [{ message := py!"mismatched input", type := some py!"syntax-error", position := .loc ⟨10, 10⟩,
       fragment := some py!"'a' [b='c'" }] := by
  refine ⟨?_, by decide +kernel⟩
  intro e he
  simp only [rt0, List.mem_cons, List.not_mem_nil, or_false] at he
  subst he
  simp [tokenStream]

end Fcsql
