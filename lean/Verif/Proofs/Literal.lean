import Verif.Spec.Literal
import Verif.Proofs.Lexer

set_option autoImplicit false
set_option linter.unusedSimpArgs false

namespace Fcsql

/-! ### The decoder on pieces -/

/-- The exception for a rejected piece. -/
def LitPiece.exc (rt : PyRuntime) : LitPiece → Exc
  | .plain _ => .other
  | .esc c => .builder (py!"invalid escape sequence: \\" ++ [c])
  | .hex _ ds =>
    if hexValue ds < 2 ^ 31 ∨ rt.chrOverflowIsValueError = true then
      .builder (py!"invalid codepoint: U+" ++ hexStr (hexValue ds))
    else .other

theorem unescapeLoop_skip (rt : PyRuntime) : ∀ (xs rest : PyStr),
    unescapeLoop rt xs.length (xs ++ rest) = unescapeLoop rt 0 rest
  | [], rest => by simp
  | x :: xs, rest => by
    simp only [List.length_cons, List.cons_append, unescapeLoop]
    exact unescapeLoop_skip rt xs rest

theorem hexDigit_cases {c : Nat} (h : isHexDigit c = true) (rt : PyRuntime) :
    parseHexChar rt c = .ok (hexDigitValue c) ∧ hexDigitValue c < 16 := by
  simp only [isHexDigit, Bool.or_eq_true, Bool.and_eq_true, decide_eq_true_eq] at h
  unfold parseHexChar hexDigitValue
  rcases h with (h | h) | h
  · have h2 : c ≤ 57 := h.2
    rw [if_pos h, if_pos h2]
    exact ⟨rfl, by omega⟩
  · have h1 : ¬ (48 ≤ c ∧ c ≤ 57) := by omega
    have h2 : ¬ c ≤ 57 := by omega
    have h3 : ¬ c ≤ 70 := by omega
    rw [if_neg h1, if_pos h, if_neg h2, if_neg h3]
    exact ⟨rfl, by omega⟩
  · have h1 : ¬ (48 ≤ c ∧ c ≤ 57) := by omega
    have h4 : ¬ (97 ≤ c ∧ c ≤ 102) := by omega
    have h2 : ¬ c ≤ 57 := by omega
    have h3 : c ≤ 70 := by omega
    rw [if_neg h1, if_neg h4, if_pos h, if_neg h2, if_pos h3]
    exact ⟨rfl, by omega⟩

theorem shift_or (cp d : Nat) (h : d < 16) : cp <<< 4 ||| d = cp * 16 + d := by
  have := Nat.shiftLeft_add_eq_or_of_lt (i := 4) (b := d) (by simpa using h) cp
  rw [← this, Nat.shiftLeft_eq]

theorem hexLoop_false (rt : PyRuntime) : ∀ (ds : PyStr) (cp : Nat), ds.all isHexDigit = true →
    hexLoop rt false cp ds = .ok (ds.foldl (fun a c => a * 16 + hexDigitValue c) cp)
  | [], cp, _ => rfl
  | d :: ds, cp, h => by
    simp only [List.all_cons, Bool.and_eq_true] at h
    obtain ⟨h1, h2⟩ := hexDigit_cases h.1 rt
    simp [hexLoop, h1, Bind.bind, Except.bind, shift_or _ _ h2, hexLoop_false rt ds _ h.2]

theorem hexLoop_true (rt : PyRuntime) (ds : PyStr) (h : ds.all isHexDigit = true) :
    hexLoop rt true 0 ds = .ok (hexValue ds) := by
  cases ds with
  | nil => rfl
  | cons d ds =>
    simp only [List.all_cons, Bool.and_eq_true] at h
    obtain ⟨h1, h2⟩ := hexDigit_cases h.1 rt
    simp [hexLoop, h1, Bind.bind, Except.bind, hexLoop_false rt ds _ h.2, hexValue]

theorem pyChr_eq (rt : PyRuntime) (l : Nat) (ds : PyStr) :
    pyChr rt (hexValue ds) = match (LitPiece.hex l ds).value with
      | some v => .ok v
      | none => .error ((LitPiece.hex l ds).exc rt) := by
  unfold pyChr LitPiece.value LitPiece.exc
  by_cases h : hexValue ds < 0x110000
  · simp [h]
  · simp only [h, if_false]
    by_cases h2 : hexValue ds < 2 ^ 31 ∨ rt.chrOverflowIsValueError = true
    · simp only [h2, if_true]
      simp only [Bool.or_eq_true, decide_eq_true_eq, h2, if_true]
    · simp only [h2, if_false]
      simp only [Bool.or_eq_true, decide_eq_true_eq, h2, if_false]

theorem unescapeUnicode_eq (rt : PyRuntime) (l : Nat) (ds rest : PyStr) (n : Nat) (hn : ds.length = n)
    (h : ds.all isHexDigit = true) :
    unescapeUnicode rt l (ds ++ rest) n = match (LitPiece.hex l ds).value with
      | some v => .ok v
      | none => .error ((LitPiece.hex l ds).exc rt) := by
  subst hn
  rw [← pyChr_eq rt l ds]
  simp [unescapeUnicode, hexLoop_true rt ds h, Bind.bind, Except.bind]

/-- One step of the decoder takes exactly one piece. -/
theorem unescapeLoop_piece (rt : PyRuntime) (q : Nat) (p : LitPiece) (hp : p.WF q) (rest : PyStr) :
    unescapeLoop rt 0 (p.text ++ rest) = match p.value with
      | none => .error (p.exc rt)
      | some a => match unescapeLoop rt 0 rest with
        | .error e => .error e
        | .ok r => .ok (a ++ r) := by
  cases p with
  | plain c =>
    have : c ≠ 92 := hp.2.2
    simp only [LitPiece.text, LitPiece.value, List.cons_append, List.nil_append, unescapeLoop, this, if_false,
      Bind.bind, Except.bind]
    cases unescapeLoop rt 0 rest <;> rfl
  | esc c =>
    have hs : ∀ rest, unescapeLoop rt 1 (c :: rest) = unescapeLoop rt 0 rest := fun rest => by
      simp only [unescapeLoop]
    simp only [LitPiece.WF, escapeChars, List.mem_cons, List.not_mem_nil, or_false] at hp
    simp only [LitPiece.text, List.cons_append, List.nil_append, unescapeLoop, if_true, Bind.bind, Except.bind]
    rcases hp with h | h | h | h | h | h | h | h | h | h | h | h | h | h | h | h | h | h <;> subst h <;>
      simp [unescapeOne, LitPiece.value, LitPiece.exc, unescapeLoop] <;>
      cases unescapeLoop rt 0 rest <;> rfl
  | hex l ds =>
    obtain ⟨hl, hd⟩ := hp
    simp only [LitPiece.text, List.cons_append, unescapeLoop, if_true, Bind.bind, Except.bind]
    rcases hl with ⟨h, hn⟩ | ⟨h, hn⟩ | ⟨h, hn⟩ <;> subst h <;>
      simp only [unescapeOne, unescapeUnicode_eq rt _ ds rest _ hn hd, Bind.bind, Except.bind] <;>
      simp only [Nat.reduceEqDiff, if_true, if_false] <;>
      rcases (LitPiece.hex _ ds).value with _ | v
    · rfl
    · have := unescapeLoop_skip rt (120 :: ds) rest
      simp only [List.length_cons, hn, List.cons_append] at this
      simp only [this]
      cases unescapeLoop rt 0 rest <;> rfl
    · rfl
    · have := unescapeLoop_skip rt (117 :: ds) rest
      simp only [List.length_cons, hn, List.cons_append] at this
      simp only [this]
      cases unescapeLoop rt 0 rest <;> rfl
    · rfl
    · have := unescapeLoop_skip rt (85 :: ds) rest
      simp only [List.length_cons, hn, List.cons_append] at this
      simp only [this]
      cases unescapeLoop rt 0 rest <;> rfl

/-- The values of all pieces, or the exception of the first rejected one. -/
def piecesExcept (rt : PyRuntime) : List LitPiece → Except Exc PyStr
  | [] => .ok []
  | p :: ps =>
    match p.value with
    | none => .error (p.exc rt)
    | some a => match piecesExcept rt ps with
      | .error e => .error e
      | .ok r => .ok (a ++ r)

theorem unescapeLoop_pieces (rt : PyRuntime) (q : Nat) : ∀ (ps : List LitPiece), (∀ p ∈ ps, p.WF q) →
    unescapeLoop rt 0 (ps.flatMap LitPiece.text) = piecesExcept rt ps
  | [], _ => rfl
  | p :: ps, h => by
    have ih := unescapeLoop_pieces rt q ps fun p hp => h p (by simp [hp])
    rw [List.flatMap_cons, unescapeLoop_piece rt q p (h p (by simp)), ih]
    rfl

theorem piecesExcept_ok (rt : PyRuntime) (ps : List LitPiece) (v : PyStr) :
    piecesExcept rt ps = .ok v ↔ piecesValue ps = some v := by
  induction ps generalizing v with
  | nil => simp [piecesExcept, piecesValue]
  | cons p ps ih =>
    simp only [piecesExcept, piecesValue]
    rcases p.value with _ | a
    · simp
    · rcases h1 : piecesExcept rt ps with e | r <;> rcases h2 : piecesValue ps with _ | b
      · simp
      · simp [(ih b).2 h2] at h1
      · simp [(ih r).1 h1] at h2
      · have := (ih r).1 h1
        rw [h2] at this
        simp_all

theorem piecesExcept_error (rt : PyRuntime) (ps : List LitPiece) (e : Exc)
    (h : piecesExcept rt ps = .error e) : ∃ p ∈ ps, p.value = none ∧ e = p.exc rt := by
  induction ps with
  | nil => simp [piecesExcept] at h
  | cons p ps ih =>
    simp only [piecesExcept] at h
    rcases hp : p.value with _ | a
    · simp only [hp, Except.error.injEq] at h
      exact ⟨p, by simp, hp, h.symm⟩
    · simp only [hp] at h
      rcases h1 : piecesExcept rt ps with e' | r
      · simp only [h1, Except.error.injEq] at h
        obtain ⟨p', h2, h3⟩ := ih (h ▸ h1)
        exact ⟨p', by simp [h2], h3⟩
      · simp [h1] at h

theorem litText_not_contains {q : Nat} {ps : List LitPiece} (hwf : ∀ p ∈ ps, p.WF q)
    (h : (ps.flatMap LitPiece.text).contains 92 = false) :
    piecesValue ps = some (ps.flatMap LitPiece.text) := by
  induction ps with
  | nil => rfl
  | cons p ps ih =>
    simp only [List.flatMap_cons, List.contains_eq_mem, List.mem_append, decide_eq_false_iff_not, not_or] at h
    have ih := ih (fun p hp => hwf p (by simp [hp])) (by simpa using h.2)
    cases p with
    | plain c => simp [piecesValue, LitPiece.value, ih, LitPiece.text]
    | esc c => simp [LitPiece.text] at h
    | hex l ds => simp [LitPiece.text] at h

theorem isSuffixOf_snoc (xs : PyStr) (q : Nat) : List.isSuffixOf [q] (xs ++ [q]) = true := by
  simp [List.isSuffixOf_iff_suffix]

theorem stripQuotes_litText {q : Nat} (hq : q = 34 ∨ q = 39) (ps : List LitPiece) :
    stripQuotes (litText q ps) = .ok (ps.flatMap LitPiece.text) := by
  have hend : endsWith (litText q ps) [q] = true := by
    rw [endsWith, litText, ← List.cons_append]
    exact isSuffixOf_snoc _ _
  have hslice : slice (litText q ps) 1 (-1) = ps.flatMap LitPiece.text := by
    have h1 : sliceIdx (litText q ps).length 1 = 1 := by simp [sliceIdx, litText]
    have h2 : sliceIdx (litText q ps).length (-1) = (ps.flatMap LitPiece.text).length + 1 := by
      simp [sliceIdx, litText]
      omega
    simp only [slice, h1, h2]
    simp only [litText, List.take_succ_cons, List.drop_succ_cons, List.drop_zero]
    simp
  have hs : startsWith (litText q ps) [q] = true := by simp [startsWith, litText, List.isPrefixOf]
  rcases hq with h | h <;> subst h
  · simp only [stripQuotes, hs, hend, hslice, if_true]
  · have hs' : startsWith (litText 39 ps) [34] = false := by simp [startsWith, litText, List.isPrefixOf]
    simp only [stripQuotes, hs, hs', hend, hslice, if_true, Bool.false_eq_true, if_false]

/-- What `visitRegexp` computes from a literal token. -/
theorem regexValue_lit (rt : PyRuntime) (cfg : Config) {text : PyStr} {q : Nat} {ps : List LitPiece}
    (h : IsLit text q ps) :
    regexValue rt cfg text = match piecesExcept rt ps with
      | .ok v => .ok (cfg.norm rt v)
      | .error e => .error e := by
  obtain ⟨hq, hwf, rfl⟩ := h
  have hn : ∀ v, (match cfg.normForm with
      | some f => Except.ok (rt.normalize f v)
      | none => (Except.ok v : Except Exc PyStr)) = .ok (cfg.norm rt v) := by
    intro v; unfold Config.norm; cases cfg.normForm <;> rfl
  simp only [regexValue, stripQuotes_litText hq, Bind.bind, Except.bind]
  by_cases hc : (ps.flatMap LitPiece.text).contains 92 = true
  · simp only [hc, if_true, unescapeString, unescapeLoop_pieces rt q ps hwf]
    rcases piecesExcept rt ps with e | v
    · rfl
    · exact hn _
  · have hc' : (ps.flatMap LitPiece.text).contains 92 = false := by simpa using hc
    simp only [hc', (piecesExcept_ok rt ps _).2 (litText_not_contains hwf hc'), Bool.false_eq_true, if_false]
    exact hn _

end Fcsql
