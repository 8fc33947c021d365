/-
Reading the text of a parse tree back.
-/
import Verif.Spec.TreeText
import Verif.Proofs.Layout
import Verif.Proofs.Str

set_option autoImplicit false
set_option linter.unusedSimpArgs false

namespace Fcsql

/-! ### Literals -/

/-- Tab and newline as escapes. -/
def LitPiece.norm : LitPiece → LitPiece
  | .plain c => if c = 9 then .esc 116 else if c = 10 then .esc 110 else .plain c
  | p => p

theorem LitPiece.norm_value (p : LitPiece) : p.norm.value = p.value := by
  cases p with
  | plain c =>
    simp only [LitPiece.norm]
    split
    · subst c; decide
    · split
      · subst c; decide
      · rfl
  | esc c => rfl
  | hex l ds => rfl

theorem LitPiece.norm_wf {q : Nat} {p : LitPiece} (h : p.WF q) : p.norm.WF q := by
  cases p with
  | plain c =>
    simp only [LitPiece.norm]
    split
    · show 116 ∈ escapeChars; decide
    · split
      · show 110 ∈ escapeChars; decide
      · exact h
  | esc c => exact h
  | hex l ds => exact h

theorem shown_self {w : PyStr} (h : ∀ c ∈ w, c ≠ 9 ∧ c ≠ 10 ∧ c ≠ 13) : shown w = w := by
  induction w with
  | nil => rfl
  | cons c w ih =>
    have hc := h c (by simp)
    have := ih fun d hd => h d (by simp [hd])
    simp only [shown, List.flatMap_cons] at this ⊢
    rw [this, shownChar, if_neg hc.1, if_neg hc.2.1, if_neg hc.2.2]
    rfl

theorem shown_append (a b : PyStr) : shown (a ++ b) = shown a ++ shown b := List.flatMap_append

theorem shown_piece {q : Nat} {p : LitPiece} (h : p.WF q) :
    (p.norm = .plain 13 ∧ shown p.text = [92, 114]) ∨ (p.norm ≠ .plain 13 ∧ shown p.text = p.norm.text) := by
  have hesc : ∀ c ∈ escapeChars, c ≠ 9 ∧ c ≠ 10 ∧ c ≠ 13 := by decide
  cases p with
  | plain c =>
    by_cases h9 : c = 9
    · subst h9; right; decide
    by_cases h10 : c = 10
    · subst h10; right; decide
    by_cases h13 : c = 13
    · subst h13; left; decide
    · right
      simp only [LitPiece.norm, if_neg h9, if_neg h10, LitPiece.text, shown, List.flatMap_cons, List.flatMap_nil, shownChar, if_neg h13]
      exact ⟨by simpa using h13, by simp⟩
  | esc c =>
    right
    refine ⟨by simp [LitPiece.norm], shown_self ?_⟩
    intro d hd
    simp only [LitPiece.text, List.mem_cons, List.not_mem_nil, or_false] at hd
    rcases hd with rfl | rfl
    · decide
    · exact hesc _ h
  | hex l ds =>
    right
    refine ⟨by simp [LitPiece.norm], shown_self ?_⟩
    intro d hd
    simp only [LitPiece.text, List.mem_cons] at hd
    rcases hd with rfl | rfl | hd
    · decide
    · have := h.1; omega
    · have := (List.all_eq_true.1 h.2) d hd
      simp only [isHexDigit, Bool.or_eq_true, Bool.and_eq_true, decide_eq_true_eq] at this
      omega

theorem shown_piece_head {q : Nat} {p p' : LitPiece} (h : p.WF q) (h' : p'.WF q) {x y : PyStr}
    (e : shown p.text ++ x = shown p'.text ++ y) : p.norm = p'.norm ∧ shown p.text = shown p'.text ∧ x = y := by
  have bad : ∀ {p : LitPiece} {x y : PyStr}, p.WF q → p ≠ .plain 13 → [92, 114] ++ x ≠ p.text ++ y := by
    intro p x y hw hp e
    have hesc : (114 : Nat) ∉ escapeChars := by decide
    cases p with
    | plain c =>
      simp [LitPiece.text] at e
      exact hw.2.2 e.1.symm
    | esc c => simp [LitPiece.text] at e; exact hesc (e.1 ▸ hw)
    | hex l ds => simp [LitPiece.text] at e; have := hw.1; omega
  rcases shown_piece h with ⟨h1, h2⟩ | ⟨h1, h2⟩ <;> rcases shown_piece h' with ⟨h1', h2'⟩ | ⟨h1', h2'⟩ <;> rw [h2, h2'] at e ⊢
  · exact ⟨by rw [h1, h1'], rfl, by simpa using e⟩
  · exact absurd e (bad (LitPiece.norm_wf h') h1')
  · exact absurd e.symm (bad (LitPiece.norm_wf h) h1)
  · obtain ⟨e1, e2⟩ := piece_head (LitPiece.norm_wf h) (LitPiece.norm_wf h') e
    exact ⟨e1, by rw [e1], e2⟩

theorem shown_piece_ne_quote {q : Nat} (hq : q = 34 ∨ q = 39) {p : LitPiece} (h : p.WF q) {x y : PyStr} :
    shown p.text ++ x ≠ q :: y := by
  rcases shown_piece h with ⟨h1, h2⟩ | ⟨h1, h2⟩ <;> rw [h2]
  · intro e; simp at e; omega
  · exact piece_ne_quote hq (LitPiece.norm_wf h)

theorem shown_pieces {q : Nat} (hq : q = 34 ∨ q = 39) : ∀ (ps ps' : List LitPiece), (∀ p ∈ ps, p.WF q) →
    (∀ p ∈ ps', p.WF q) → ∀ x y, shown (ps.flatMap LitPiece.text) ++ q :: x = shown (ps'.flatMap LitPiece.text) ++ q :: y →
    piecesValue ps = piecesValue ps' ∧ shown (ps.flatMap LitPiece.text) = shown (ps'.flatMap LitPiece.text) ∧ x = y
  | [], [], _, _, x, y, e => ⟨rfl, rfl, by simpa [shown] using e⟩
  | [], p :: ps', _, h', x, y, e => by
    simp only [List.flatMap_nil, List.flatMap_cons, shown_append, List.append_assoc] at e
    exact absurd e.symm (shown_piece_ne_quote hq (h' p (by simp)))
  | p :: ps, [], h, _, x, y, e => by
    simp only [List.flatMap_nil, List.flatMap_cons, shown_append, List.append_assoc] at e
    exact absurd e (shown_piece_ne_quote hq (h p (by simp)))
  | p :: ps, p' :: ps', h, h', x, y, e => by
    simp only [List.flatMap_cons, shown_append, List.append_assoc] at e ⊢
    obtain ⟨e1, e2, e'⟩ := shown_piece_head (h p (by simp)) (h' p' (by simp)) e
    obtain ⟨e3, e4, e5⟩ := shown_pieces hq ps ps' (fun x hx => h x (by simp [hx])) (fun x hx => h' x (by simp [hx])) x y e'
    refine ⟨?_, by rw [e2, e4], e5⟩
    simp only [piecesValue]
    rw [← p.norm_value, e1, p'.norm_value, e3]

/-- Literals that are shown alike have the same value. -/
theorem shown_lit {w w' x y : PyStr} {q q' : Nat} {ps ps' : List LitPiece} (h : IsLit w q ps) (h' : IsLit w' q' ps')
    (e : shown w ++ x = shown w' ++ y) : piecesValue ps = piecesValue ps' ∧ shown w = shown w' ∧ x = y := by
  have hs : ∀ {q : Nat}, q = 34 ∨ q = 39 → ∀ ps, shown (litText q ps) = q :: (shown (ps.flatMap LitPiece.text) ++ [q]) := by
    intro q hq ps
    have h1 : shown [q] = [q] := shown_self (by intro c hc; simp at hc; omega)
    have h2 : litText q ps = [q] ++ (ps.flatMap LitPiece.text ++ [q]) := rfl
    rw [h2, shown_append, shown_append, h1]; rfl
  rw [h.eq, h'.eq, hs h.quote, hs h'.quote] at e ⊢
  simp only [List.cons_append, List.cons.injEq, List.append_assoc, List.nil_append] at e
  obtain ⟨rfl, e⟩ := e
  obtain ⟨e1, e2, e3⟩ := shown_pieces h.quote _ _ h.wf h'.wf x y e
  exact ⟨e1, by rw [e2], e3⟩

/-! ### Tokens -/

/-- The text of a leaf of a parse tree. -/
def LeafText (t : TokType) (w : PyStr) : Prop := TokenText t w ∨ (t = .EOF ∧ w = py!"<EOF>")

/-- What may follow a token or tree: a space, `)` or nothing. -/
def Stop (x : PyStr) : Prop := ∀ c, x.head? = some c → c = 32 ∨ c = 41

/-- Texts without whitespace and, but for `)`, without `)`. -/
structure Compact (w : PyStr) : Prop where
  head : ∃ a v, w = a :: v ∧ a ≠ 34 ∧ a ≠ 39
  chars : ∀ c ∈ w, c ≠ 9 ∧ c ≠ 10 ∧ c ≠ 13 ∧ c ≠ 32
  paren : w = [41] ∨ 41 ∉ w

theorem compact_name {w : PyStr} (h : IsName w) : Compact w := by
  obtain ⟨a, v, e, ha⟩ := h.head
  have hc := h.chars
  have hb : ∀ c, isAlnum c = true ∨ c = 45 → 45 ≤ c := by
    intro c h
    rcases h with h | h
    · simp only [isAlnum, isLetter, isDigit, Bool.or_eq_true, Bool.and_eq_true, decide_eq_true_eq] at h; omega
    · omega
  refine ⟨⟨a, v, e, ?_⟩, fun c h => ?_, .inr fun h => ?_⟩
  · have := hb a (hc a (by simp [e])); omega
  · have := hb c (hc c h); omega
  · have := hb 41 (hc 41 h); omega

theorem leaf_compact {t : TokType} {w : PyStr} (h : LeafText t w) :
    (Compact w ∧ t ≠ .REGEXP) ∨ (t = .REGEXP ∧ ∃ q ps, IsLit w q ps) := by
  rcases h with h | ⟨rfl, rfl⟩
  · cases h with
    | @fixed t w hf =>
      left
      have hd : ∀ p ∈ fixedTokens, (p.2.head? ≠ none ∧ p.2.head? ≠ some 34 ∧ p.2.head? ≠ some 39) ∧
          (∀ c ∈ p.2, c ≠ 9 ∧ c ≠ 10 ∧ c ≠ 13 ∧ c ≠ 32) ∧ (p.2 = [41] ∨ 41 ∉ p.2) ∧ p.1 ≠ .REGEXP := by decide
      obtain ⟨⟨h0, h1, h2⟩, h3, h4, h5⟩ := hd _ hf
      refine ⟨⟨?_, h3, h4⟩, h5⟩
      cases w with
      | nil => exact absurd rfl h0
      | cons a v => exact ⟨a, v, rfl, by simpa using h1, by simpa using h2⟩
    | scope h => exact .inl ⟨compact_name h.isName, by simp⟩
    | flags h => exact .inl ⟨compact_name h.isName, by simp⟩
    | identifier h => exact .inl ⟨compact_name h, by simp⟩
    | @integer w h1 h2 =>
      left
      have hb : ∀ c ∈ w, 48 ≤ c ∧ c ≤ 57 := by
        intro c hc
        have := (List.all_eq_true.1 h2) c hc
        simpa only [isDigit, Bool.and_eq_true, decide_eq_true_eq] using this
      refine ⟨⟨?_, fun c h => ?_, .inr fun h => ?_⟩, by simp⟩
      · cases w with
        | nil => exact absurd rfl h1
        | cons a v => have := hb a (by simp); exact ⟨a, v, rfl, by omega, by omega⟩
      · have := hb c h; omega
      · have := hb 41 h; omega
    | literal h => exact .inr ⟨rfl, _, _, h⟩
  · exact .inl ⟨⟨⟨60, py!"EOF>", rfl, by decide⟩, by decide, by decide⟩, by decide⟩

theorem LeafText.type_unique {t t' : TokType} {w : PyStr} (h : LeafText t w) (h' : LeafText t' w) : t = t' := by
  have bad : ∀ {t : TokType}, ¬ TokenText t py!"<EOF>" := by
    intro t h
    rcases h.class with ⟨-, a, v, e, h⟩ | ⟨h, -⟩ | ⟨-, a, v, e, h⟩ | ⟨-, a, v, e, h⟩
    · simp only [List.cons.injEq] at e
      obtain ⟨rfl, rfl⟩ := e
      revert h; decide
    · obtain ⟨a, v, e, h⟩ := h.head
      simp only [List.cons.injEq] at e
      obtain ⟨rfl, rfl⟩ := e
      revert h; decide
    · simp only [List.cons.injEq] at e
      obtain ⟨rfl, rfl⟩ := e
      revert h; decide
    · simp only [List.cons.injEq] at e
      obtain ⟨rfl, rfl⟩ := e
      revert h; decide
  rcases h with h | ⟨rfl, rfl⟩ <;> rcases h' with h' | ⟨rfl, h'⟩
  · exact h.type_unique h'
  · subst h'; exact absurd h bad
  · exact absurd h' bad
  · rfl

theorem Compact.shown {w : PyStr} (h : Compact w) : shown w = w := shown_self fun c hc => by
  have := h.chars c hc; omega

theorem lit_head {w : PyStr} {q : Nat} {ps : List LitPiece} (h : IsLit w q ps) : ∃ v, shown w = q :: v := by
  rw [h.eq, litText, shown, List.flatMap_cons, shownChar]
  rcases h.quote with rfl | rfl <;> exact ⟨_, rfl⟩

/-- Tokens that are shown alike. -/
theorem leaf_head {t t' : TokType} {w w' x y : PyStr} (h : LeafText t w) (h' : LeafText t' w') (hx : Stop x) (hy : Stop y)
    (e : shown w ++ x = shown w' ++ y) : t = t' ∧ shown w = shown w' ∧ x = y := by
  rcases leaf_compact h with ⟨hc, ht⟩ | ⟨rfl, q, ps, hl⟩ <;> rcases leaf_compact h' with ⟨hc', ht'⟩ | ⟨rfl, q', ps', hl'⟩
  · rw [hc.shown, hc'.shown] at e ⊢
    have main : w = w' ∧ x = y := by
      have one : ∀ {w w' x y : PyStr}, Compact w' → w = [41] → w ++ x = w' ++ y → w = w' ∧ x = y := by
        intro w w' x y hc' hw e
        subst hw
        obtain ⟨a, v, rfl, -⟩ := hc'.head
        simp only [List.cons_append, List.nil_append, List.cons.injEq] at e
        obtain ⟨rfl, e⟩ := e
        rcases hc'.paren with h | h
        · simp only [List.cons.injEq, true_and] at h
          subst h
          exact ⟨rfl, by simpa using e⟩
        · simp at h
      by_cases h1 : w = [41]
      · exact one hc' h1 e
      by_cases h2 : w' = [41]
      · have := one hc h2 e.symm; exact ⟨this.1.symm, this.2.symm⟩
      refine until_inj (fun c => c = 32 ∨ c = 41) ?_ ?_ hx hy e
      · intro c hm hcc
        have := (hc.chars c hm).2.2.2
        rcases hcc with rfl | rfl
        · exact this rfl
        · exact (hc.paren.resolve_left h1) hm
      · intro c hm hcc
        have := (hc'.chars c hm).2.2.2
        rcases hcc with rfl | rfl
        · exact this rfl
        · exact (hc'.paren.resolve_left h2) hm
    obtain ⟨rfl, rfl⟩ := main
    exact ⟨h.type_unique h', rfl, rfl⟩
  · obtain ⟨a, v, e1, e2⟩ := hc.head
    obtain ⟨v', e3⟩ := lit_head hl'
    rw [hc.shown, e1, e3] at e
    simp only [List.cons_append, List.cons.injEq] at e
    rcases hl'.quote with hq | hq <;> omega
  · obtain ⟨a, v, e1, e2⟩ := hc'.head
    obtain ⟨v', e3⟩ := lit_head hl
    rw [hc'.shown, e1, e3] at e
    simp only [List.cons_append, List.cons.injEq] at e
    rcases hl.quote with hq | hq <;> omega
  · obtain ⟨-, e1, e2⟩ := shown_lit hl hl' e
    exact ⟨rfl, e1, e2⟩

/-! ### Trees -/

theorem ruleName_chars (r : Rule) : ∀ c ∈ ruleName r, ¬ (c = 32 ∨ c = 41) := by
  cases r <;> decide

theorem ruleName_inj {r r' : Rule} (h : ruleName r = ruleName r') : r = r' := by
  revert h
  cases r <;> cases r' <;> first | exact fun _ => rfl | decide

theorem ruleName_ne (r : Rule) : ruleName r ≠ [] := by cases r <;> decide

theorem printedL_stop (ks : List PTree) (x : PyStr) : Stop (PTree.printedL ks ++ (41 :: x)) := by
  cases ks with
  | nil => intro c h; simp [PTree.printedL] at h; omega
  | cons k ks => intro c h; simp [PTree.printedL] at h; omega

theorem leaf_not_node {t : TokType} {w x y : PyStr} {r : Rule} (h : LeafText t w) (hx : Stop x) :
    shown w ++ x ≠ 40 :: (ruleName r ++ y) := by
  intro e
  rcases leaf_compact h with ⟨hc, -⟩ | ⟨rfl, q, ps, hl⟩
  · rw [hc.shown] at e
    have h40 : ∀ {t : TokType} {v : PyStr}, LeafText t (40 :: v) → v = [] := by
      intro t v h
      rcases h with h | ⟨-, h⟩
      · rcases h.class with ⟨h, -⟩ | ⟨h, -⟩ | ⟨-, a, v, e, h⟩ | ⟨-, a, v, e, h⟩
        · have : ∀ p ∈ fixedTokens, p.2.head? = some 40 → p.2.tail = [] := by decide
          exact this _ h rfl
        · obtain ⟨a, v', e, h⟩ := h.head
          simp only [List.cons.injEq] at e
          obtain ⟨rfl, rfl⟩ := e
          exact absurd h (by decide)
        · simp only [List.cons.injEq] at e
          obtain ⟨rfl, rfl⟩ := e
          exact absurd h (by decide)
        · simp only [List.cons.injEq] at e
          obtain ⟨rfl, rfl⟩ := e
          exact absurd h (by decide)
      · simp at h
    obtain ⟨a, v, rfl, -⟩ := hc.head
    simp only [List.cons_append, List.cons.injEq] at e
    obtain ⟨rfl, e⟩ := e
    have hv := h40 h
    subst hv
    rw [List.nil_append] at e
    cases hn : ruleName r with
    | nil => exact ruleName_ne r hn
    | cons c m =>
      have := ruleName_chars r c (by simp [hn])
      exact this (hx c (by rw [e, hn]; rfl))
  · obtain ⟨v, e'⟩ := lit_head hl
    rw [e'] at e
    simp only [List.cons_append, List.cons.injEq] at e
    rcases hl.quote with hq | hq <;> omega

mutual
theorem printed_head : ∀ (t t' : PTree), (∀ x ∈ t.leaves, LeafText x.type x.text) → (∀ x ∈ t'.leaves, LeafText x.type x.text) →
    ∀ x y, Stop x → Stop y → t.printed ++ x = t'.printed ++ y → t.seen = t'.seen ∧ x = y
  | .leaf a, .leaf b, h, h', x, y, hx, hy, e => by
    simp only [PTree.printed] at e
    obtain ⟨e1, e2, e3⟩ := leaf_head (h a (by simp [PTree.leaves])) (h' b (by simp [PTree.leaves])) hx hy e
    exact ⟨by simp only [PTree.seen, e1, e2], e3⟩
  | .leaf a, .node r ks, h, _, x, y, hx, _, e => by
    simp only [PTree.printed, List.append_assoc, List.cons_append, List.nil_append] at e
    exact absurd e (leaf_not_node (h a (by simp [PTree.leaves])) hx)
  | .node r ks, .leaf a, _, h', x, y, _, hy, e => by
    simp only [PTree.printed, List.append_assoc, List.cons_append, List.nil_append] at e
    exact absurd e.symm (leaf_not_node (h' a (by simp [PTree.leaves])) hy)
  | .node r ks, .node r' ks', h, h', x, y, hx, hy, e => by
    simp only [PTree.printed, List.append_assoc, List.cons_append, List.nil_append, List.cons.injEq, true_and] at e
    obtain ⟨e1, e2⟩ := until_inj (fun c => c = 32 ∨ c = 41) (ruleName_chars r) (ruleName_chars r') (printedL_stop ks x)
      (printedL_stop ks' y) e
    obtain ⟨e3, e4⟩ := printedL_head ks ks' (fun z hz => h z (by rw [PTree.leaves]; exact hz))
      (fun z hz => h' z (by rw [PTree.leaves]; exact hz)) x y e2
    exact ⟨by rw [PTree.seen, PTree.seen, ruleName_inj e1, e3], e4⟩
theorem printedL_head : ∀ (ks ks' : List PTree), (∀ x ∈ PTree.leavesL ks, LeafText x.type x.text) →
    (∀ x ∈ PTree.leavesL ks', LeafText x.type x.text) → ∀ x y, PTree.printedL ks ++ (41 :: x) = PTree.printedL ks' ++ (41 :: y) →
    PTree.seenL ks = PTree.seenL ks' ∧ x = y
  | [], [], _, _, x, y, e => ⟨rfl, by simpa [PTree.printedL] using e⟩
  | [], k :: ks, _, _, x, y, e => by simp [PTree.printedL] at e
  | k :: ks, [], _, _, x, y, e => by simp [PTree.printedL] at e
  | k :: ks, k' :: ks', h, h', x, y, e => by
    simp only [PTree.printedL, List.append_assoc, List.cons_append, List.nil_append, List.cons.injEq, true_and] at e
    obtain ⟨e1, e2⟩ := printed_head k k' (fun z hz => h z (by rw [PTree.leavesL]; exact List.mem_append_left _ hz))
      (fun z hz => h' z (by rw [PTree.leavesL]; exact List.mem_append_left _ hz)) _ _ (printedL_stop ks x) (printedL_stop ks' y) e
    obtain ⟨e3, e4⟩ := printedL_head ks ks' (fun z hz => h z (by rw [PTree.leavesL]; exact List.mem_append_right _ hz))
      (fun z hz => h' z (by rw [PTree.leavesL]; exact List.mem_append_right _ hz)) x y e2
    exact ⟨by rw [PTree.seenL, PTree.seenL, e1, e3], e4⟩
end

theorem Splits.texts {s : PyStr} {pos col : Nat} {ps : List Piece} (h : Splits s pos col ps) :
    ∀ t ∈ ps.filterMap Piece.tok?, TokenText t.type t.text := by
  induction h with
  | nil => simp
  | @token w rest pos col t ps hm _ ih =>
    intro x hx
    simp only [List.filterMap_cons] at hx
    rcases tokenText_of_first hm.first with ht | ⟨rfl, -⟩
    · have hne : t ≠ .Space := by rintro rfl; exact TokenText.ne_space ht
      have e : kindOf t = .tok t := by simp [kindOf, hne]
      simp only [e, Piece.tok?] at hx
      rcases List.mem_cons.1 hx with rfl | hx
      · exact ht
      · exact ih x hx
    · simp only [kindOf, if_true, Piece.tok?] at hx
      exact ih x hx
  | error _ _ ih => simpa [Piece.tok?] using ih

theorem tokenStream_texts (q : PyStr) : ∀ t ∈ tokenStream q, LeafText t.type t.text := by
  intro t ht
  rcases List.mem_append.1 ht with h | h
  · exact .inl ((lexPieces_splits q).texts t h)
  · rcases List.mem_singleton.1 h with rfl
    exact .inr ⟨rfl, rfl⟩

mutual
theorem seen_leaves : ∀ t : PTree, t.seen.leaves = t.leaves.map fun x => { type := x.type, text := shown x.text, start := 0, stop := 0 }
  | .leaf x => rfl
  | .node r ks => by rw [PTree.seen, PTree.leaves, PTree.leaves, seenL_leaves]
theorem seenL_leaves : ∀ ks : List PTree, PTree.leavesL (PTree.seenL ks) =
    (PTree.leavesL ks).map fun x => { type := x.type, text := shown x.text, start := 0, stop := 0 }
  | [] => rfl
  | k :: ks => by rw [PTree.seenL, PTree.leavesL, PTree.leavesL, seen_leaves, seenL_leaves, List.map_append]
end

end Fcsql
