/-
Lexing a text in which everything that is not recognised is blanked out.
-/
import Verif.Spec.Blanked
import Verif.Proofs.LaidAt

set_option autoImplicit false
set_option linter.unusedSimpArgs false

namespace Fcsql

/-- The character after a longest match does not stick to it, unless it is `-`. -/
theorem longest_not_sticks {w rest : PyStr} {t : TokType} {c : Nat} (hm : LongestMatch (w ++ rest) t w) (ht : TokenText t w)
    (hc : rest.head? = some c) (hne : c ≠ 45) : ¬ Sticks t c := by
  intro hst
  obtain ⟨rest', rfl⟩ : ∃ r, rest = c :: r := by
    cases rest with
    | nil => cases hc
    | cons d r => simp only [List.head?_cons, Option.some.injEq] at hc; exact ⟨r, by rw [hc]⟩
  have longer : SomeRule lexRules (w ++ [c]) → False := fun hs =>
    hm.longest (w ++ [c]) ⟨rest', by simp⟩ (by simp) hs
  have word : IsName w → (isAlnum c = true ∨ c = 45) → False := by
    rintro hn (ha | h)
    · exact longer ⟨(.IDENTIFIER, rxIdentifier), by simp [lexRules], matches_identifier.2 (hn.snoc ha)⟩
    · exact hne h
  rcases ht.class with ⟨hf, -⟩ | ⟨h1, h2, ⟨rfl, -⟩ | ⟨rfl, -⟩ | ⟨rfl, -⟩⟩ | ⟨rfl, -⟩ | ⟨rfl, -⟩
  · cases t <;> simp only [Sticks] at hst
    case NOT =>
      have : w = py!"!" := by simpa [fixedTokens] using hf
      subst this; subst hst
      exact longer (TokenText.fixed (ty := .OPERATOR_NE) (by simp [fixedTokens])).someRule
    case WITHIN =>
      have : w = py!"within" := by simpa [fixedTokens] using hf
      subst this
      exact word isName_within hst
    all_goals simp [fixedTokens] at hf
  · exact word h1 hst
  · exact word h1 hst
  · exact word h1 hst
  · cases ht with
    | fixed hf => simp [fixedTokens] at hf
    | integer h1 h2 => exact longer (TokenText.integer (by simp) (by rw [List.all_append, h2]; simpa using (show isDigit c = true from hst))).someRule
  · exact hst

/-- `Unrecognised`, for pieces of a text. -/
def InErr (ps : List Piece) (i : Nat) : Prop := ∃ p ∈ ps, p.kind = .err ∧ p.start ≤ i ∧ i < p.start + p.text.length

/-- The pieces of a text begin at or after its position. -/
theorem splits_low {s : PyStr} {pos col : Nat} {ps : List Piece} (h : Splits s pos col ps) : ∀ p ∈ ps, pos ≤ p.start := by
  intro p hp
  obtain ⟨a, b, rfl⟩ := List.append_of_mem hp
  have := (h.start a p b rfl).1
  omega

theorem not_inErr_low {s : PyStr} {pos col : Nat} {ps : List Piece} (h : Splits s pos col ps) {i : Nat} (hi : i < pos) :
    ¬ InErr ps i := by
  rintro ⟨p, hp, -, h1, -⟩
  have := splits_low h p hp
  omega

/-- A text that begins with `-` is not recognised there. -/
theorem splits_dash {s : PyStr} {pos col : Nat} {ps : List Piece} (h : Splits s pos col ps) (hs : s.head? = some 45) : InErr ps pos := by
  cases h with
  | nil => cases hs
  | @token w rest _ _ t ps hm h' =>
    exfalso
    obtain ⟨a, v, rfl, hcase⟩ := (someRule_text (hm.first.someRule)).head
    simp only [List.cons_append, List.head?_cons, Option.some.injEq] at hs
    subst hs
    revert hcase
    simp [isLetter, isDigit, isWs_eq, wsRanges, inRanges]
  | @error w rest _ _ ps he h' =>
    refine ⟨_, List.mem_cons_self, rfl, Nat.le_refl _, ?_⟩
    have := List.length_pos_iff.2 he.nonempty
    simp only
    omega

theorem laidAt_blanked {s : PyStr} {pos col : Nat} {ps : List Piece} (h : Splits s pos col ps) : ∀ s' : PyStr,
    s'.length = s.length → (∀ i, i < s.length → InErr ps (pos + i) → ∃ c, s'[i]? = some c ∧ isWs c = true) →
    (∀ i, ¬ InErr ps (pos + i) → s'[i]? = s[i]?) → LaidAt pos (ps.filterMap Piece.tok?) s' := by
  induction h with
  | nil =>
    intro s' hl _ _
    have : s' = [] := List.length_eq_zero_iff.1 (by simpa using hl)
    subst this
    exact .nil (by simp)
  | @token w rest pos col t ps hm hs ih =>
    intro s' hl hb hsame
    have hskip : ∀ i, InErr ({ kind := kindOf t, text := w, start := pos, column := col } :: ps) i ↔ InErr ps i := by
      intro i
      constructor
      · rintro ⟨p, hp, hk, hr⟩
        rcases List.mem_cons.1 hp with rfl | hp
        · exact absurd hk kindOf_err
        · exact ⟨p, hp, hk, hr⟩
      · rintro ⟨p, hp, hk, hr⟩
        exact ⟨p, List.mem_cons_of_mem _ hp, hk, hr⟩
    simp only [hskip] at hb hsame
    obtain ⟨r', rfl⟩ : ∃ r', s' = w ++ r' := by
      refine ⟨s'.drop w.length, ?_⟩
      have : s'.take w.length = w := by
        apply List.ext_getElem?
        intro i
        by_cases hi : i < w.length
        · rw [List.getElem?_take, if_pos hi, hsame i (not_inErr_low hs (by omega)), List.getElem?_append_left hi]
        · rw [List.getElem?_eq_none (by simp; omega), List.getElem?_eq_none (by omega)]
      conv => lhs; rw [← List.take_append_drop w.length s', this]
    simp only [List.length_append, Nat.add_left_cancel_iff] at hl
    have hr := ih r' hl
      (fun i hi he => by
        have := hb (w.length + i) (by simp; omega) (by rwa [← Nat.add_assoc])
        rwa [List.getElem?_append_right (by omega), Nat.add_sub_cancel_left] at this)
      (fun i he => by
        have := hsame (w.length + i) (by rwa [← Nat.add_assoc])
        rwa [List.getElem?_append_right (by omega), List.getElem?_append_right (by omega), Nat.add_sub_cancel_left] at this)
    rcases tokenText_of_first hm.first with ht | ⟨rfl, c, rfl, hc⟩
    · have hne : t ≠ .Space := by rintro rfl; exact TokenText.ne_space ht
      have e : kindOf t = .tok t := by simp [kindOf, hne]
      simp only [List.filterMap_cons, e, Piece.tok?]
      have := LaidAt.cons (k := pos) (ws := []) (by simp) ht (by simpa using hr) ?_
      · simpa [tokAt] using this
      · intro c hc
        rw [List.head?_eq_getElem?] at hc
        by_cases he : InErr ps (pos + w.length)
        · have hlt : 0 < rest.length := by
            have : 0 < r'.length := (List.getElem?_eq_some_iff.1 hc).1
            omega
          obtain ⟨d, hd, hw⟩ := hb w.length (by simp; omega) he
          rw [List.getElem?_append_right (by omega), Nat.sub_self, hc] at hd
          cases hd
          exact not_sticks_ws hw
        · have hrest := hsame w.length he
          rw [List.getElem?_append_right (by omega), List.getElem?_append_right (by omega), Nat.sub_self, hc,
            ← List.head?_eq_getElem?] at hrest
          refine longest_not_sticks hm ht hrest.symm ?_
          rintro rfl
          exact he (splits_dash hs hrest.symm)
    · have e : kindOf .Space = .skip := by simp [kindOf]
      simp only [List.filterMap_cons, e, Piece.tok?]
      exact LaidAt.pre_ws hr (by simpa using hc)
  | @error w rest pos col ps he hs ih =>
    intro s' hl hb hsame
    have hin : ∀ i, i < w.length → InErr ({ kind := .err, text := w, start := pos, column := col } :: ps) (pos + i) := by
      intro i hi
      exact ⟨_, List.mem_cons_self, rfl, by simp, by simpa using hi⟩
    have hout : ∀ i, InErr ({ kind := .err, text := w, start := pos, column := col } :: ps) (pos + w.length + i) ↔
        InErr ps (pos + w.length + i) := by
      intro i
      constructor
      · rintro ⟨p, hp, hk, h1, h2⟩
        rcases List.mem_cons.1 hp with rfl | hp
        · simp only at h2; omega
        · exact ⟨p, hp, hk, h1, h2⟩
      · rintro ⟨p, hp, hk, hr⟩
        exact ⟨p, List.mem_cons_of_mem _ hp, hk, hr⟩
    have hlen : s'.length = w.length + rest.length := by simpa using hl
    have hsplit : s' = s'.take w.length ++ s'.drop w.length := (List.take_append_drop _ _).symm
    have hr := ih (s'.drop w.length) (by simp; omega)
      (fun i hi h => by
        rw [List.getElem?_drop]
        exact hb (w.length + i) (by simp; omega) (by rw [← Nat.add_assoc]; exact (hout i).2 h))
      (fun i h => by
        rw [List.getElem?_drop, hsame (w.length + i) (by rw [← Nat.add_assoc]; exact fun h' => h ((hout i).1 h')),
          List.getElem?_append_right (by omega), Nat.add_sub_cancel_left])
    rw [hsplit]
    simp only [List.filterMap_cons, Piece.tok?]
    refine LaidAt.pre_ws ?_ ?_
    · have : (s'.take w.length).length = w.length := by simp; omega
      rw [this]; exact hr
    · intro c hc
      obtain ⟨i, hi⟩ := List.mem_iff_getElem?.1 hc
      rw [List.getElem?_take] at hi
      split at hi
      · rename_i hlt
        obtain ⟨d, hd, hw⟩ := hb i (by simp; omega) (hin i hlt)
        rw [hi] at hd
        cases hd
        exact hw
      · cases hi

theorem inErr_iff (q : PyStr) (i : Nat) : InErr (lexPieces q) i ↔ Unrecognised q i := by
  simp only [InErr, Unrecognised, lexErrors, List.mem_filter, decide_eq_true_eq, and_assoc]

theorem Blanked.laid {q q' : PyStr} (h : Blanked q q') : LaidAt 0 (lexTokens q) q' := by
  refine laidAt_blanked (lexPieces_splits q) q' h.length ?_ ?_
  · intro i _ he
    rw [Nat.zero_add, inErr_iff] at he
    exact h.blank i he
  · intro i he
    rw [Nat.zero_add, inErr_iff] at he
    exact h.same i he

end Fcsql
