/-
Pieces and tokens tile the query.
-/
import Verif.Proofs.Py
import Verif.Proofs.Parse

set_option autoImplicit false
set_option linter.unusedSimpArgs false

namespace Fcsql

/-- The text of a list of pieces. -/
def piecesText (ps : List Piece) : PyStr := ps.flatMap Piece.text

theorem Splits.text {s : PyStr} {pos col : Nat} {ps : List Piece} (h : Splits s pos col ps) : piecesText ps = s := by
  induction h with
  | nil => rfl
  | token _ _ ih => simpa [piecesText] using ih
  | error _ _ ih => simpa [piecesText] using ih

theorem Splits.nonempty {s : PyStr} {pos col : Nat} {ps : List Piece} (h : Splits s pos col ps) :
    ∀ p ∈ ps, p.text ≠ [] := by
  induction h with
  | nil => simp
  | token hm _ ih =>
    intro p hp
    rcases List.mem_cons.1 hp with rfl | hp
    · exact hm.nonempty
    · exact ih p hp
  | error hm _ ih =>
    intro p hp
    rcases List.mem_cons.1 hp with rfl | hp
    · exact hm.nonempty
    · exact ih p hp

theorem Splits.start {s : PyStr} {pos col : Nat} {ps : List Piece} (h : Splits s pos col ps) :
    ∀ a p b, ps = a ++ p :: b → p.start = pos + (piecesText a).length ∧
      p.column = advanceColumn col (piecesText a) := by
  induction h with
  | nil => simp
  | token hm _ ih =>
    intro a p b e
    cases a with
    | nil => cases e; simp [piecesText, advanceColumn]
    | cons x a =>
      simp only [List.cons_append, List.cons.injEq] at e
      obtain ⟨rfl, e⟩ := e
      obtain ⟨h1, h2⟩ := ih a p b e
      simp only [piecesText, List.flatMap_cons, List.length_append] at h1 h2 ⊢
      refine ⟨by omega, ?_⟩
      rw [h2]
      simp [advanceColumn, List.foldl_append]
  | error hm _ ih =>
    intro a p b e
    cases a with
    | nil => cases e; simp [piecesText, advanceColumn]
    | cons x a =>
      simp only [List.cons_append, List.cons.injEq] at e
      obtain ⟨rfl, e⟩ := e
      obtain ⟨h1, h2⟩ := ih a p b e
      simp only [piecesText, List.flatMap_cons, List.length_append] at h1 h2 ⊢
      refine ⟨by omega, ?_⟩
      rw [h2]
      simp [advanceColumn, List.foldl_append]

/-- Every piece that is not an error is a longest match of its rule on its own text. -/
theorem Splits.kinds {s : PyStr} {pos col : Nat} {ps : List Piece} (h : Splits s pos col ps) :
    ∀ p ∈ ps, p.kind = .err ∨ ∃ t, p.kind = kindOf t ∧ FirstRule lexRules t p.text := by
  induction h with
  | nil => simp
  | token hm _ ih =>
    intro p hp
    rcases List.mem_cons.1 hp with rfl | hp
    · exact .inr ⟨_, rfl, hm.first⟩
    · exact ih p hp
  | error hm _ ih =>
    intro p hp
    rcases List.mem_cons.1 hp with rfl | hp
    · exact .inl rfl
    · exact ih p hp

theorem kindOf_skip {t : TokType} : kindOf t = .skip ↔ t = .Space := by
  unfold kindOf; split <;> simp_all

theorem kindOf_tok {t t' : TokType} : kindOf t = .tok t' ↔ t = t' ∧ t ≠ .Space := by
  unfold kindOf
  split
  · rename_i h; subst h; simp
  · simp_all

theorem kindOf_err {t : TokType} : kindOf t ≠ .err := by unfold kindOf; split <;> simp

/-- The whitespace of the lexer is the 25 code points. -/
theorem isWs_eq (c : Nat) : isWs c = inRanges c wsRanges := by
  rw [Bool.eq_iff_iff]
  simp only [isWs, List.contains_eq_mem, decide_eq_true_eq, wsRanges, inRanges, Bool.or_false, Bool.or_eq_true,
    Bool.and_eq_true, List.mem_cons, List.not_mem_nil, or_false]
  omega

/-- A piece that is skipped is one whitespace character. -/
theorem skip_text {t : TokType} {w : PyStr} (h : FirstRule lexRules t w) (ht : t = .Space) :
    ∃ c, w = [c] ∧ isWs c = true := by
  obtain ⟨r, hr, hm⟩ := h.mem
  subst ht
  simp [lexRules] at hr
  subst hr
  obtain ⟨c, hc, hw⟩ := matches_cls.1 hm
  exact ⟨c, hc, by rw [isWs_eq]; exact hw⟩

/-! ### Offsets of tokens -/

theorem piece_tok {p : Piece} {t : Tok} (h : p.tok? = some t) :
    p.kind = .tok t.type ∧ p.text = t.text ∧ t.start = p.start ∧ t.stop = p.start + p.text.length - 1 := by
  unfold Piece.tok? at h
  split at h
  · rename_i ty hk
    simp only [Option.some.injEq] at h
    subst h
    exact ⟨hk, rfl, rfl, rfl⟩
  · cases h

theorem splits_pairwise {s : PyStr} {pos col : Nat} {ps : List Piece} (h : Splits s pos col ps) :
    ps.Pairwise fun a b => a.start + a.text.length ≤ b.start := by
  have hlow : ∀ {s : PyStr} {pos col : Nat} {ps : List Piece}, Splits s pos col ps → ∀ p ∈ ps, pos ≤ p.start := by
    intro s pos col ps h p hp
    obtain ⟨a, b, rfl⟩ := List.append_of_mem hp
    have := (h.start a p b rfl).1
    omega
  induction h with
  | nil => exact List.Pairwise.nil
  | token hm hs ih =>
    refine List.Pairwise.cons ?_ ih
    intro p hp
    exact hlow hs p hp
  | error hm hs ih =>
    refine List.Pairwise.cons ?_ ih
    intro p hp
    exact hlow hs p hp

/-- The tokens are strictly ordered. -/
theorem tokens_pairwise (q : PyStr) : (lexTokens q).Pairwise fun a b => a.stop < b.start := by
  unfold lexTokens
  rw [List.pairwise_filterMap]
  refine (splits_pairwise (lexPieces_splits q)).imp ?_
  intro a b hab x hx y hy
  obtain ⟨_, _, h1, h2⟩ := piece_tok hx
  obtain ⟨_, _, h3, h4⟩ := piece_tok hy
  rw [h2, h3]
  omega

theorem piece_bounds {q : PyStr} {p : Piece} (hp : p ∈ lexPieces q) :
    p.text ≠ [] ∧ p.start + p.text.length ≤ q.length ∧ p.text = (q.drop p.start).take p.text.length := by
  have hs := lexPieces_splits q
  refine ⟨hs.nonempty p hp, ?_⟩
  obtain ⟨a, b, e⟩ := List.append_of_mem hp
  have h1 := (hs.start a p b e).1
  have h2 := hs.text
  rw [e] at h2
  simp only [piecesText, List.flatMap_append, List.flatMap_cons] at h2 h1
  have hq : q = a.flatMap Piece.text ++ (p.text ++ b.flatMap Piece.text) := h2.symm
  have hlen : p.start = (a.flatMap Piece.text).length := by omega
  refine ⟨?_, ?_⟩
  · rw [hq, List.length_append, List.length_append]; omega
  · rw [hlen, hq]
    simp

theorem sliceIdx_nat {len n : Nat} (h : n ≤ len) : sliceIdx len (n : Int) = n := by
  unfold sliceIdx
  rw [if_neg (by omega)]
  simp [Nat.min_eq_left h]

theorem slice_nat {s : PyStr} {a b : Nat} (ha : a ≤ s.length) (hb : b ≤ s.length) :
    substring s a b = (s.take b).drop a := by
  rw [← slice_eq]
  unfold slice
  rw [sliceIdx_nat ha, sliceIdx_nat hb]

/-- A token is a non-empty stretch of the query, at its offsets. -/
theorem token_bounds {q : PyStr} {t : Tok} (ht : t ∈ lexTokens q) :
    0 ≤ t.start ∧ t.start ≤ t.stop ∧ t.stop < q.length ∧ t.text = substring q t.start (t.stop + 1) ∧
    t.text.length = t.stop + 1 - t.start := by
  obtain ⟨p, hp, hpt⟩ := List.mem_filterMap.1 ht
  obtain ⟨_, h1, h2, h3⟩ := piece_tok hpt
  obtain ⟨h4, h5, h6⟩ := piece_bounds hp
  have h7 : 0 < p.text.length := List.length_pos_iff.2 h4
  refine ⟨by omega, by omega, by omega, ?_, ?_⟩
  · rw [h2, h3, ← h1]
    have : ((p.start : Int) + p.text.length - 1 + 1) = ((p.start + p.text.length : Nat) : Int) := by omega
    rw [this, slice_nat (by omega) h5, List.drop_take]
    rw [Nat.add_sub_cancel_left]
    exact h6
  · rw [← h1]; omega

/-! ### Lexing a part of a query -/

theorem longest_shorten {w rest x : PyStr} {t : TokType} (h : LongestMatch (w ++ (rest ++ x)) t w) :
    LongestMatch (w ++ rest) t w := by
  refine ⟨h.nonempty, ⟨rest, rfl⟩, h.first, ?_⟩
  intro w' hw' hlt
  refine h.longest w' (hw'.trans ?_) hlt
  exact ⟨x, by simp⟩

/-- The pieces of the beginning of a text, cut at a piece boundary. -/
theorem Splits.prefix {s : PyStr} {pos col : Nat} {ps : List Piece} (h : Splits s pos col ps) :
    ∀ a b, ps = a ++ b → (∀ p ∈ a, p.kind ≠ .err) → Splits (piecesText a) pos col a := by
  induction h with
  | nil =>
    intro a b e _
    have : a = [] := by
      cases a with
      | nil => rfl
      | cons x a => simp at e
    subst this
    exact .nil
  | @token w rest pos col t ps hm hs ih =>
    intro a b e hk
    cases a with
    | nil => exact .nil
    | cons x a =>
      simp only [List.cons_append, List.cons.injEq] at e
      obtain ⟨rfl, e⟩ := e
      have ih := ih a b e fun p hp => hk p (List.mem_cons_of_mem _ hp)
      have hrest : rest = piecesText a ++ piecesText b := by
        rw [← hs.text, e]; simp [piecesText]
      rw [hrest] at hm
      have : piecesText ({ kind := kindOf t, text := w, start := pos, column := col } :: a) = w ++ piecesText a := by
        simp [piecesText]
      rw [this]
      exact .token (longest_shorten hm) ih
  | error hm hs ih =>
    intro a b e hk
    cases a with
    | nil => exact .nil
    | cons x a =>
      simp only [List.cons_append, List.cons.injEq] at e
      obtain ⟨rfl, e⟩ := e
      exact absurd rfl (hk _ List.mem_cons_self)

/-- The pieces of the end of a text, cut at a piece boundary. -/
theorem Splits.suffix {s : PyStr} {pos col : Nat} {ps : List Piece} (h : Splits s pos col ps) :
    ∀ a b, ps = a ++ b → ∃ pos' col', Splits (piecesText b) pos' col' b := by
  induction h with
  | nil =>
    intro a b e
    have : b = [] := by
      cases b with
      | nil => rfl
      | cons x a => simp at e
    subst this
    exact ⟨0, 0, .nil⟩
  | @token w rest pos col t ps hm hs ih =>
    intro a b e
    cases a with
    | nil =>
      simp only [List.nil_append] at e
      subst e
      have h' : Splits (w ++ rest) pos col ({ kind := kindOf t, text := w, start := pos, column := col } :: ps) :=
        .token hm hs
      exact ⟨pos, col, by rw [h'.text]; exact h'⟩
    | cons x a =>
      simp only [List.cons_append, List.cons.injEq] at e
      obtain ⟨rfl, e⟩ := e
      exact ih a b e
  | @error w rest pos col ps hm hs ih =>
    intro a b e
    cases a with
    | nil =>
      simp only [List.nil_append] at e
      subst e
      have h' : Splits (w ++ rest) pos col ({ kind := .err, text := w, start := pos, column := col } :: ps) :=
        .error hm hs
      exact ⟨pos, col, by rw [h'.text]; exact h'⟩
    | cons x a =>
      simp only [List.cons_append, List.cons.injEq] at e
      obtain ⟨rfl, e⟩ := e
      exact ih a b e

/-- Kind and text of pieces, forgetting offsets. -/
def Piece.what (p : Piece) : PieceKind × PyStr := (p.kind, p.text)

/-- The pieces of a text do not depend on where the text is, except for offsets. -/
theorem Splits.shift {s : PyStr} {pos col : Nat} {ps : List Piece} (h : Splits s pos col ps) :
    ∀ {pos' col' : Nat} {ps' : List Piece}, Splits s pos' col' ps' → ps'.map Piece.what = ps.map Piece.what := by
  have key : ∀ (n : Nat) (s : PyStr), s.length ≤ n → ∀ {pos col : Nat} {ps : List Piece}, Splits s pos col ps →
      ∀ {pos' col' : Nat} {ps' : List Piece}, Splits s pos' col' ps' → ps'.map Piece.what = ps.map Piece.what := by
    intro n
    induction n with
    | zero =>
      intro s hs pos col ps h pos' col' ps' h'
      have h0 : ∀ {pos col : Nat} {ps : List Piece}, Splits s pos col ps → ps = [] := by
        intro pos col ps h
        cases ps with
        | nil => rfl
        | cons p ps =>
          have h1 := h.text
          have h2 := h.nonempty p List.mem_cons_self
          have : s = [] := by simpa using hs
          rw [this] at h1
          simp [piecesText, h2] at h1
      rw [h0 h, h0 h']
    | succ n ih =>
      intro s hs pos col ps h pos' col' ps' h'
      cases h with
      | nil =>
        cases ps' with
        | nil => rfl
        | cons p ps' =>
          have h1 := h'.text
          have h2 := h'.nonempty p List.mem_cons_self
          simp [piecesText, h2] at h1
      | @token w rest _ _ t ps hm hr =>
        have hl : 0 < w.length := List.length_pos_iff.2 hm.nonempty
        have hlen : rest.length ≤ n := by simp at hs; omega
        generalize hs' : w ++ rest = s' at h' hm
        cases h' with
        | nil => simp at hs'; exact absurd hs'.1 hm.nonempty
        | @token w' rest' _ _ t' ps' hm' hr' =>
          obtain ⟨ht, hw⟩ := hm.unique hm'
          subst hw; subst ht
          have : rest = rest' := by simpa using hs'
          subst this
          simp only [List.map_cons, ih rest hlen hr hr', Piece.what]
        | @error w' rest' _ _ ps' hm' hr' => exact absurd hm'.noMatch hm.not_noMatch
      | @error w rest _ _ ps hm hr =>
        have hl : 0 < w.length := List.length_pos_iff.2 hm.nonempty
        have hlen : rest.length ≤ n := by simp at hs; omega
        generalize hs' : w ++ rest = s' at h' hm
        cases h' with
        | nil => simp at hs'; exact absurd hs'.1 hm.nonempty
        | @token w' rest' _ _ t' ps' hm' hr' => exact absurd hm.noMatch hm'.not_noMatch
        | @error w' rest' _ _ ps' hm' hr' =>
          have hw := hm.unique hm'
          subst hw
          have : rest = rest' := by simpa using hs'
          subst this
          simp only [List.map_cons, ih rest hlen hr hr', Piece.what]
  intro pos' col' ps' h'
  exact key s.length s (Nat.le_refl _) h h'

/-- Type and text of a token, forgetting offsets. -/
def Tok.what (t : Tok) : TokType × PyStr := (t.type, t.text)

theorem toks_what {ps qs : List Piece} (h : ps.map Piece.what = qs.map Piece.what) :
    (ps.filterMap Piece.tok?).map Tok.what = (qs.filterMap Piece.tok?).map Tok.what := by
  induction ps generalizing qs with
  | nil => cases qs <;> simp_all
  | cons p ps ih =>
    cases qs with
    | nil => simp at h
    | cons q qs =>
      simp only [List.map_cons, List.cons.injEq] at h
      have ih := ih h.2
      obtain ⟨k, tx, st, co⟩ := p
      obtain ⟨k', tx', st', co'⟩ := q
      simp only [Piece.what, Prod.mk.injEq] at h
      obtain ⟨⟨rfl, rfl⟩, _⟩ := h
      cases k with
      | tok t => simp only [List.filterMap_cons, Piece.tok?, List.map_cons, ih, Tok.what]
      | skip => simpa only [List.filterMap_cons, Piece.tok?] using ih
      | err => simpa only [List.filterMap_cons, Piece.tok?] using ih

/-- Lexing a stretch of whole pieces gives those pieces. -/
theorem lex_infix {q : PyStr} {a b c : List Piece} (h : lexPieces q = a ++ b ++ c) (hk : ∀ p ∈ b, p.kind ≠ .err) :
    (lexPieces (piecesText b)).map Piece.what = b.map Piece.what := by
  have hs := lexPieces_splits q
  rw [h] at hs
  obtain ⟨pos, col, h1⟩ := hs.suffix a (b ++ c) (by simp)
  exact (h1.prefix b c rfl hk).shift (lexPieces_splits _)

end Fcsql
