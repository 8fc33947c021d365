/-
The first objection to the tokens of a query is what the tree builder raises.
-/
import Verif.Spec.Complaint
import Verif.Proofs.Accept
import Verif.Proofs.Layout
import Verif.Proofs.Str

set_option autoImplicit false
set_option linter.unusedSimpArgs false

namespace Fcsql

/-! ### Numbers -/

theorem eq_nil_or_snoc' {α : Type} (l : List α) : l = [] ∨ ∃ k d, l = k ++ [d] := by
  rcases List.eq_nil_or_concat l with h | ⟨k, d, h⟩
  · exact .inl h
  · exact .inr ⟨k, d, by rw [h, List.concat_eq_append]⟩

/-- The value of a list of digits, most significant first. -/
def digitsValue (b : Nat) (l : List Nat) : Nat := l.foldl (fun a d => a * b + d) 0

theorem digitsValue_snoc (b : Nat) (l : List Nat) (d : Nat) : digitsValue b (l ++ [d]) = digitsValue b l * b + d := by
  simp [digitsValue]

theorem digits_unique' (b : Nat) (hb : 0 < b) : ∀ (n : Nat) (l l' : List Nat), l.length ≤ n → (∀ d ∈ l, d < b) → (∀ d ∈ l', d < b) →
    l.head? ≠ some 0 → l'.head? ≠ some 0 → digitsValue b l = digitsValue b l' → l = l' := by
  intro n
  induction n with
  | zero =>
    intro l l' hn _ _ _ h0 e
    have : l = [] := List.length_eq_zero_iff.1 (by omega)
    subst this
    -- a value of 0 needs no digits
    have zero : ∀ m (l : List Nat), l.length ≤ m → l.head? ≠ some 0 → digitsValue b l = 0 → l = [] := by
      intro m
      induction m with
      | zero => intro l h _ _; exact List.length_eq_zero_iff.1 (by omega)
      | succ m ih =>
        intro l hl h0 hv
        rcases eq_nil_or_snoc' l with rfl | ⟨k, d, rfl⟩
        · rfl
        · rw [digitsValue_snoc] at hv
          have h1 : digitsValue b k = 0 := by
            rcases Nat.eq_zero_or_pos (digitsValue b k) with h | h
            · exact h
            · have := Nat.mul_pos h hb; omega
          have h2 : k.head? ≠ some 0 := by
            cases k with
            | nil => simp
            | cons x k => simpa using h0
          have hk := ih k (by simp at hl; omega) h2 h1
          subst hk
          have : d = 0 := by omega
          subst this
          simp at h0
    exact (zero _ l' (Nat.le_refl _) h0 (by simpa [digitsValue] using e.symm)).symm
  | succ n ih =>
    intro l l' hn hl hl' h h' e
    rcases eq_nil_or_snoc' l with rfl | ⟨k, d, rfl⟩
    · exact ih [] l' (by simp) (by simp) hl' (by simp) h' e
    · rcases eq_nil_or_snoc' l' with rfl | ⟨k', d', rfl⟩
      · -- the other way round
        exfalso
        have h1 : digitsValue b (k ++ [d]) = 0 := e
        rw [digitsValue_snoc] at h1
        have h2 : digitsValue b k = 0 := by
          rcases Nat.eq_zero_or_pos (digitsValue b k) with h | h
          · exact h
          · have := Nat.mul_pos h hb; omega
        have h3 : k.head? ≠ some 0 := by
          cases k with
          | nil => simp
          | cons x k => simpa using h
        have hk := ih k [] (by simp at hn; omega) (fun x hx => hl x (by simp [hx])) (by simp) h3 (by simp) h2
        subst hk
        have : d = 0 := by omega
        subst this
        simp at h
      · rw [digitsValue_snoc, digitsValue_snoc] at e
        have hd : d < b := hl d (by simp)
        have hd' : d' < b := hl' d' (by simp)
        have e1 : d = d' := by
          have := congrArg (· % b) e
          simp only [Nat.mul_add_mod_self_right, Nat.mul_comm _ b, Nat.mul_add_mod, Nat.mod_eq_of_lt hd, Nat.mod_eq_of_lt hd'] at this
          exact this
        have e2 : digitsValue b k = digitsValue b k' := by
          subst e1
          exact Nat.eq_of_mul_eq_mul_right hb (by omega)
        have g : ∀ {k : List Nat} {d : Nat}, (k ++ [d]).head? ≠ some 0 → k.head? ≠ some 0 := by
          intro k d h
          cases k with
          | nil => simp
          | cons x k => simpa using h
        rw [ih k k' (by simp at hn; omega) (fun x hx => hl x (by simp [hx])) (fun x hx => hl' x (by simp [hx])) (g h) (g h') e2, e1]

theorem digits_unique (b : Nat) (hb : 0 < b) {l l' : List Nat} (hl : ∀ d ∈ l, d < b) (hl' : ∀ d ∈ l', d < b)
    (hn : l ≠ []) (hn' : l' ≠ []) (h : l.head? = some 0 → l = [0]) (h' : l'.head? = some 0 → l' = [0])
    (e : digitsValue b l = digitsValue b l') : l = l' := by
  by_cases z : l.head? = some 0 <;> by_cases z' : l'.head? = some 0
  · rw [h z, h' z']
  · exfalso
    rw [h z] at e
    exact hn' (digits_unique' b hb 0 [] l' (by simp) (by simp) hl' (by simp) z' (by simpa [digitsValue] using e)).symm
  · exfalso
    rw [h' z'] at e
    exact hn (digits_unique' b hb 0 [] l (by simp) (by simp) hl (by simp) z (by simpa [digitsValue] using e.symm)).symm
  · exact digits_unique' b hb _ l l' (Nat.le_refl _) hl hl' z z' e

theorem map_inj_on {f : Nat → Nat} {P : Nat → Prop} (hf : ∀ a b, P a → P b → f a = f b → a = b) :
    ∀ {l l' : List Nat}, (∀ x ∈ l, P x) → (∀ x ∈ l', P x) → l.map f = l'.map f → l = l'
  | [], [], _, _, _ => rfl
  | [], _ :: _, _, _, e => by simp at e
  | _ :: _, [], _, _, e => by simp at e
  | x :: l, y :: l', h, h', e => by
    simp only [List.map_cons, List.cons.injEq] at e
    rw [hf x y (h x (by simp)) (h' y (by simp)) e.1,
      map_inj_on hf (fun z hz => h z (by simp [hz])) (fun z hz => h' z (by simp [hz])) e.2]

theorem Decimal.unique {s s' : PyStr} {n : Nat} (h : Decimal s n) (h' : Decimal s' n) : s = s' := by
  have val : ∀ s : PyStr, decimalValue s = digitsValue 10 (s.map (· - 48)) := by
    intro s
    rw [← decValue_eq, digitsValue, List.foldl_map]; rfl
  have lead : ∀ {s : PyStr} {n}, Decimal s n → (s.map (· - 48)).head? = some 0 → s.map (· - 48) = [0] := by
    intro s n h e
    cases s with
    | nil => simp at e
    | cons c s =>
      have := h.digits c (by simp)
      simp at e
      have hc : c = 48 := by omega
      subst hc
      rw [h.leading rfl]; rfl
  refine map_inj_on (f := (· - 48)) (P := fun c => 48 ≤ c ∧ c ≤ 57) (fun a b ha hb e => by omega) h.digits h'.digits
    (digits_unique 10 (by omega) ?_ ?_ (by simpa using h.nonempty) (by simpa using h'.nonempty) (lead h) (lead h') ?_)
  · intro d hd
    obtain ⟨c, hc, rfl⟩ := List.mem_map.1 hd
    have := h.digits c hc; omega
  · intro d hd
    obtain ⟨c, hc, rfl⟩ := List.mem_map.1 hd
    have := h'.digits c hc; omega
  · rw [← val, ← val, h.value, h'.value]

theorem UpperHex.unique {s s' : PyStr} {n : Nat} (h : UpperHex s n) (h' : UpperHex s' n) : s = s' := by
  have val : ∀ s : PyStr, hexValue s = digitsValue 16 (s.map hexDigitValue) := by
    intro s
    rw [digitsValue, List.foldl_map]; rfl
  have inj : ∀ a b, ((48 ≤ a ∧ a ≤ 57) ∨ (65 ≤ a ∧ a ≤ 70)) → ((48 ≤ b ∧ b ≤ 57) ∨ (65 ≤ b ∧ b ≤ 70)) →
      hexDigitValue a = hexDigitValue b → a = b := by
    intro a b ha hb e
    simp only [hexDigitValue] at e
    split at e <;> split at e <;> (try split at e) <;> (try split at e) <;> omega
  have lead : ∀ {s : PyStr} {n}, UpperHex s n → (s.map hexDigitValue).head? = some 0 → s.map hexDigitValue = [0] := by
    intro s n h e
    cases s with
    | nil => simp at e
    | cons c s =>
      have hc := h.digits c (by simp)
      simp at e
      have : c = 48 := inj c 48 hc (by omega) (by rw [e]; rfl)
      subst this
      rw [h.leading rfl]; rfl
  have lt : ∀ {s : PyStr} {n}, UpperHex s n → ∀ d ∈ s.map hexDigitValue, d < 16 := by
    intro s n h d hd
    obtain ⟨c, hc, rfl⟩ := List.mem_map.1 hd
    have := h.digits c hc
    simp only [hexDigitValue]
    split
    · omega
    · split <;> omega
  refine map_inj_on (f := hexDigitValue) inj h.digits h'.digits
    (digits_unique 16 (by omega) (lt h) (lt h') (by simpa using h.nonempty) (by simpa using h'.nonempty) (lead h) (lead h') ?_)
  rw [← val, ← val, h.value, h'.value]

theorem decDigitsAux_lead : ∀ (fuel n : Nat) (acc : PyStr), n < fuel → ∃ c ds, decDigitsAux fuel n acc = c :: ds ++ acc ∧
    (c = 48 → n = 0 ∧ ds = [])
  | 0, n, acc, h => absurd h (by omega)
  | fuel + 1, n, acc, h => by
    unfold decDigitsAux
    split
    · exact ⟨48 + n, [], rfl, fun _ => ⟨by omega, rfl⟩⟩
    · obtain ⟨c, ds, e, hc⟩ := decDigitsAux_lead fuel (n / 10) ((48 + n % 10) :: acc) (by omega)
      refine ⟨c, ds ++ [48 + n % 10], by simp [e], fun h => ?_⟩
      have := (hc h).1
      omega

theorem decimal_decStr (n : Nat) : Decimal (decStr n) n := by
  obtain ⟨h1, h2⟩ := decStr_spec n
  obtain ⟨c, ds, e, hc⟩ := decDigitsAux_lead (n + 1) n [] (by omega)
  have e' : decStr n = c :: ds := by rw [decStr, e]; simp
  refine ⟨by rw [e']; simp, h1, fun h => ?_, by rw [← decValue_eq, h2]⟩
  rw [e'] at h ⊢
  simp at h
  rw [h, (hc h).2]

theorem decimal_intStr (n : Nat) : Decimal (intStr (n : Int)) n := by
  have : intStr (n : Int) = decStr n := by
    rw [intStr, if_neg (by omega)]; rfl
  rw [this]; exact decimal_decStr n

theorem hexDigitsAux_lead : ∀ (fuel n : Nat) (acc : PyStr), n < fuel → ∃ c ds, hexDigitsAux fuel n acc = c :: ds ++ acc ∧
    (c = 48 → n = 0 ∧ ds = []) ∧ (∀ x ∈ c :: ds, (48 ≤ x ∧ x ≤ 57) ∨ (65 ≤ x ∧ x ≤ 70)) ∧ hexValue (c :: ds) = n
  | 0, n, acc, h => absurd h (by omega)
  | fuel + 1, n, acc, h => by
    have hup : ∀ d, d < 16 → ((48 ≤ hexDigitUpper d ∧ hexDigitUpper d ≤ 57) ∨ (65 ≤ hexDigitUpper d ∧ hexDigitUpper d ≤ 70)) ∧
        hexDigitValue (hexDigitUpper d) = d ∧ (hexDigitUpper d = 48 → d = 0) := by
      intro d hd
      simp only [hexDigitUpper, hexDigitValue]
      split
      · refine ⟨by omega, ?_, by omega⟩
        rw [if_pos (by omega)]; omega
      · refine ⟨by omega, ?_, by omega⟩
        rw [if_neg (by omega), if_pos (by omega)]; omega
    unfold hexDigitsAux
    split
    · rename_i hlt
      obtain ⟨u1, u2, u3⟩ := hup n hlt
      exact ⟨hexDigitUpper n, [], rfl, fun h => ⟨u3 h, rfl⟩, by simpa using u1, by simp [hexValue, u2]⟩
    · obtain ⟨c, ds, e, hc, hd, hv⟩ := hexDigitsAux_lead fuel (n / 16) (hexDigitUpper (n % 16) :: acc) (by omega)
      obtain ⟨u1, u2, u3⟩ := hup (n % 16) (by omega)
      refine ⟨c, ds ++ [hexDigitUpper (n % 16)], by simp [e], fun h => ?_, ?_, ?_⟩
      · have := (hc h).1; omega
      · intro x hx
        rw [← List.cons_append] at hx
        rcases List.mem_append.1 hx with hx | hx
        · exact hd x hx
        · simp only [List.mem_singleton] at hx; subst hx; exact u1
      · rw [← List.cons_append, hexValue, List.foldl_append, ← hexValue, hv]
        simp [u2]; omega

theorem upperHex_hexStr (n : Nat) : UpperHex (hexStr n) n := by
  obtain ⟨c, ds, e, hc, hd, hv⟩ := hexDigitsAux_lead (n + 1) n [] (by omega)
  have e' : hexStr n = c :: ds := by rw [hexStr, e]; simp
  rw [e']
  refine ⟨by simp, hd, fun h => ?_, hv⟩
  simp at h
  rw [h, (hc h).2]

/-! ### Pieces -/

section
variable {rt : PyRuntime}

theorem PieceObjection.rejected {p : LitPiece} {m : PyStr} (h : PieceObjection rt p m) : p.value = none := by
  cases h with
  | @escape c h =>
    have : ∀ c ∈ py!"}]", (LitPiece.esc c).value = none := by decide
    exact this c h
  | codepoint h => simp only [LitPiece.value]; rw [if_neg (by omega)]
  | overflow h => simp only [LitPiece.value]; rw [if_neg (by omega)]

theorem objection_of_rejected {p : LitPiece} {q : Nat} (hw : p.WF q) (h : p.value = none) :
    ∃ m, wrapExc (p.exc rt) = ⟨m⟩ ∧ PieceObjection rt p m := by
  cases p with
  | plain c => simp [LitPiece.value] at h
  | esc c =>
    refine ⟨_, rfl, .escape ?_⟩
    have : ∀ c ∈ escapeChars, (LitPiece.esc c).value = none → c ∈ py!"}]" := by decide
    exact this c hw h
  | hex l ds =>
    have hv : 0x10FFFF < hexValue ds := by
      simp only [LitPiece.value] at h
      split at h
      · cases h
      · omega
    by_cases hc : hexValue ds < 2 ^ 31 ∨ rt.chrOverflowIsValueError = true
    · refine ⟨_, ?_, .codepoint hv hc (upperHex_hexStr _)⟩
      simp only [LitPiece.exc, if_pos hc, wrapExc]
    · rw [not_or] at hc
      refine ⟨_, ?_, .overflow (by omega) (by simpa using hc.2)⟩
      simp only [LitPiece.exc]
      rw [if_neg (by rw [not_or]; exact hc)]
      rfl

theorem PieceObjection.unique {p : LitPiece} {m m' : PyStr} (h : PieceObjection rt p m) (h' : PieceObjection rt p m') : m = m' := by
  cases h with
  | escape h => cases h'; rfl
  | codepoint h1 h2 h3 =>
    cases h' with
    | codepoint h1' h2' h3' => rw [h3.unique h3']
    | overflow h1' h2' =>
      rcases h2 with h2 | h2
      · omega
      · rw [h2] at h2'; cases h2'
  | overflow h1 h2 =>
    cases h' with
    | codepoint h1' h2' h3' =>
      rcases h2' with h2' | h2'
      · omega
      · rw [h2'] at h2; cases h2
    | overflow h1' h2' => rfl

theorem piecesExcept_first (ps : List LitPiece) (e : Exc) (h : piecesExcept rt ps = .error e) :
    ∃ A p B, ps = A ++ p :: B ∧ (∀ x ∈ A, x.value ≠ none) ∧ p.value = none ∧ e = p.exc rt := by
  induction ps with
  | nil => simp [piecesExcept] at h
  | cons p ps ih =>
    simp only [piecesExcept] at h
    rcases hp : p.value with _ | a
    · simp only [hp, Except.error.injEq] at h
      exact ⟨[], p, ps, rfl, by simp, hp, h.symm⟩
    · simp only [hp] at h
      rcases h1 : piecesExcept rt ps with e' | r
      · simp only [h1, Except.error.injEq] at h
        obtain ⟨A, p', B, rfl, hA, hp', he⟩ := ih (by rw [h1, h])
        refine ⟨p :: A, p', B, rfl, ?_, hp', he⟩
        intro x hx
        rcases List.mem_cons.1 hx with rfl | hx
        · simp [hp]
        · exact hA x hx
      · simp [h1] at h

theorem piecesValue_some {ps : List LitPiece} {v : PyStr} (h : piecesValue ps = some v) : ∀ p ∈ ps, p.value ≠ none := by
  induction ps generalizing v with
  | nil => simp
  | cons p ps ih =>
    simp only [piecesValue] at h
    rcases hp : p.value with _ | a
    · simp [hp] at h
    · rcases hr : piecesValue ps with _ | b
      · simp [hp, hr] at h
      · intro x hx
        rcases List.mem_cons.1 hx with rfl | hx
        · simp [hp]
        · exact ih hr x hx

theorem IsLit.unique {w : PyStr} {q q' : Nat} {ps ps' : List LitPiece} (h : IsLit w q ps) (h' : IsLit w q' ps') : ps = ps' := by
  have e := h.eq.symm.trans h'.eq
  simp only [litText, List.cons.injEq] at e
  obtain ⟨rfl, e⟩ := e
  exact (pieces_prefixFree h.quote _ _ h.wf h'.wf [] [] e).1

/-! ### Objections -/

theorem first_unique {α : Type} {P : α → Prop} {A A' B B' : List α} {p p' : α} (hA : ∀ x ∈ A, ¬ P x) (hp : P p)
    (hA' : ∀ x ∈ A', ¬ P x) (hp' : P p') (e : A ++ p :: B = A' ++ p' :: B') : A = A' ∧ p = p' ∧ B = B' := by
  induction A generalizing A' with
  | nil =>
    cases A' with
    | nil => simpa using e
    | cons x A' =>
      simp only [List.nil_append, List.cons_append, List.cons.injEq] at e
      exact absurd (e.1 ▸ hp) (hA' x (by simp))
  | cons x A ih =>
    cases A' with
    | nil =>
      simp only [List.nil_append, List.cons_append, List.cons.injEq] at e
      exact absurd (e.1 ▸ hp') (hA x (by simp))
    | cons y A' =>
      simp only [List.cons_append, List.cons.injEq] at e
      obtain ⟨rfl, e⟩ := e
      obtain ⟨rfl, rfl, rfl⟩ := ih (fun z hz => hA z (by simp [hz])) (fun z hz => hA' z (by simp [hz])) e
      exact ⟨rfl, rfl, rfl⟩

theorem Objection.unique {pre : List Tok} {t : Tok} {m m' : PyStr} (h : Objection rt pre t m) (h' : Objection rt pre t m') :
    m = m' := by
  cases h with
  | literal h1 h2 h3 h4 =>
    cases h' with
    | literal h1' h2' h3' h4' =>
      obtain ⟨-, rfl, -⟩ := first_unique (P := fun p => ∃ m, PieceObjection rt p m) (fun x hx => fun ⟨m, hm⟩ => h3 x hx m hm)
        ⟨_, h4⟩ (fun x hx => fun ⟨m, hm⟩ => h3' x hx m hm) ⟨_, h4'⟩ (h2.unique h2')
      exact h4.unique h4'
    | caseFlags _ _ h => rw [h1] at h; cases h
    | literalFlag _ _ h => rw [h1] at h; cases h
    | tooLong h => rw [h1] at h; cases h
    | range _ _ _ h => rw [h1] at h; cases h
  | caseFlags h1 h2 h3 h4 h5 =>
    cases h' with
    | literal h => rw [h3] at h; cases h
    | caseFlags => rfl
    | literalFlag _ _ _ h => exact absurd ⟨h4, h5⟩ h
    | tooLong h => rw [h3] at h; cases h
    | range _ _ _ h => rw [h3] at h; cases h
  | literalFlag h1 h2 h3 h4 =>
    cases h' with
    | literal h => rw [h3] at h; cases h
    | caseFlags _ _ _ h5 h6 => exact absurd ⟨h5, h6⟩ h4
    | literalFlag => rfl
    | tooLong h => rw [h3] at h; cases h
    | range _ _ _ h => rw [h3] at h; cases h
  | tooLong h1 h2 h3 =>
    cases h' with
    | literal h => rw [h1] at h; cases h
    | caseFlags _ _ h => rw [h1] at h; cases h
    | literalFlag _ _ h => rw [h1] at h; cases h
    | tooLong => rfl
    | range _ _ _ _ h => omega
  | range h1 h2 h3 h4 h5 h6 h7 h8 =>
    cases h' with
    | literal h => rw [h4] at h; cases h
    | caseFlags _ _ h => rw [h4] at h; cases h
    | literalFlag _ _ h => rw [h4] at h; cases h
    | tooLong _ h9 h10 => omega
    | range h1' h2' h3' h4' h5' h6' h7' h8' =>
      have : [_, _] = [_, _] := (List.suffix_of_suffix_length_le h1 h1' (by simp)).eq_of_length rfl
      simp only [List.cons.injEq, and_true] at this
      obtain ⟨rfl, rfl⟩ := this
      rw [h7.unique h7', h8.unique h8']

theorem Complaint.unique {ts : List Tok} {m m' : PyStr} (h : Complaint rt ts m) (h' : Complaint rt ts m') : m = m' := by
  obtain ⟨A, t, B, rfl, h1, h2⟩ := h
  obtain ⟨A', t', B', e, h1', h2'⟩ := h'
  have cmp : ∀ {A A' B B' : List Tok} {t t' : Tok} {m : PyStr}, A ++ t :: B = A' ++ t' :: B' → Objection rt A t m → Clean rt A' →
      A'.length ≤ A.length := by
    intro A A' B B' t t' m e h1 h2
    by_cases hl : A'.length ≤ A.length
    · exact hl
    · exfalso
      have hp : A <+: A' := List.prefix_of_prefix_length_le ⟨t :: B, rfl⟩ (by rw [e]; exact ⟨_, rfl⟩) (by omega)
      obtain ⟨C, rfl⟩ := hp
      rw [List.append_assoc] at e
      have e := List.append_cancel_left e
      cases C with
      | nil => simp at hl
      | cons c C =>
        simp only [List.cons_append, List.cons.injEq] at e
        obtain ⟨rfl, -⟩ := e
        exact h2 A t C m rfl h1
  have l1 := cmp e h1 h2'
  have l2 := cmp e.symm h1' h2
  have e1 := (List.append_inj e (by omega)).1
  have e2 := (List.append_inj e (by omega)).2
  subst e1
  obtain ⟨rfl, -⟩ := List.cons.inj e2
  exact h1.unique h1'

/-! ### Concatenation -/

theorem suffix_one {a A : List Tok} {s : Tok} (h : [s] <:+ a ++ A) : [s] <:+ A ∨ (A = [] ∧ a.getLast? = some s) := by
  rcases eq_nil_or_snoc' A with rfl | ⟨A', x, rfl⟩
  · right
    obtain ⟨p, hp⟩ := h
    rw [List.append_nil] at hp
    exact ⟨rfl, by rw [← hp]; simp⟩
  · left
    obtain ⟨p, hp⟩ := h
    rw [← List.append_assoc] at hp
    have := List.append_inj_right' hp rfl
    simp only [List.cons.injEq, and_true] at this
    subst this
    exact ⟨A', rfl⟩

theorem suffix_two {a A : List Tok} {s c : Tok} (h : [s, c] <:+ a ++ A) :
    [s, c] <:+ A ∨ a.getLast? = some s ∨ a.getLast? = some c := by
  rcases eq_nil_or_snoc' A with rfl | ⟨A', x, rfl⟩
  · obtain ⟨p, hp⟩ := h
    rw [List.append_nil] at hp
    exact .inr (.inr (by rw [← hp]; simp))
  · obtain ⟨p, hp⟩ := h
    rw [← List.append_assoc, show p ++ [s, c] = p ++ [s] ++ [c] by simp] at hp
    have h1 := List.append_inj_right' hp rfl
    have h2 := List.append_inj_left' hp rfl
    simp only [List.cons.injEq, and_true] at h1
    subst h1
    rcases suffix_one (a := a) (A := A') (s := s) ⟨p, h2⟩ with h | ⟨-, h⟩
    · left
      obtain ⟨k, rfl⟩ := h
      exact ⟨k, by simp⟩
    · exact .inr (.inl h)

theorem objection_shift {a A : List Tok} {t : Tok} {m : PyStr} (ha : EndsOk a) :
    Objection rt (a ++ A) t m ↔ Objection rt A t m := by
  constructor
  · intro h
    cases h with
    | literal h1 h2 h3 h4 => exact .literal h1 h2 h3 h4
    | caseFlags h1 h2 h3 h4 h5 =>
      rcases suffix_one h1 with h | ⟨-, h⟩
      · exact .caseFlags h h2 h3 h4 h5
      · exact absurd h2 (ha _ h).1
    | literalFlag h1 h2 h3 h4 h5 h6 h7 =>
      rcases suffix_one h1 with h | ⟨-, h⟩
      · exact .literalFlag h h2 h3 h4 h5 h6 h7
      · exact absurd h2 (ha _ h).1
    | tooLong h1 h2 h3 => exact .tooLong h1 h2 h3
    | range h1 h2 h3 h4 h5 h6 h7 h8 =>
      rcases suffix_two h1 with h | h | h
      · exact .range h h2 h3 h4 h5 h6 h7 h8
      · exact absurd h2 (ha _ h).2.1
      · exact absurd h3 (ha _ h).2.2
  · intro h
    cases h with
    | literal h1 h2 h3 h4 => exact .literal h1 h2 h3 h4
    | caseFlags h1 h2 h3 h4 h5 => exact .caseFlags (h1.trans (List.suffix_append _ _)) h2 h3 h4 h5
    | literalFlag h1 h2 h3 h4 h5 h6 h7 => exact .literalFlag (h1.trans (List.suffix_append _ _)) h2 h3 h4 h5 h6 h7
    | tooLong h1 h2 h3 => exact .tooLong h1 h2 h3
    | range h1 h2 h3 h4 h5 h6 h7 h8 => exact .range (h1.trans (List.suffix_append _ _)) h2 h3 h4 h5 h6 h7 h8

theorem clean_nil : Clean rt [] := by intro A t B m h; simp at h

theorem clean_append {a b : List Tok} (ha : EndsOk a) (h : Clean rt a) (h' : Clean rt b) : Clean rt (a ++ b) := by
  intro A t B m e ho
  rcases List.append_eq_append_iff.1 e with ⟨C, rfl, hC⟩ | ⟨C, rfl, hC⟩
  · exact h' C t B m hC ((objection_shift ha).1 ho)
  · cases C with
    | nil =>
      rw [List.append_nil] at ha
      exact h' [] t B m (by simpa using hC.symm) ((objection_shift (A := []) ha).1 (by simpa using ho))
    | cons c C =>
      simp only [List.cons_append, List.cons.injEq] at hC
      obtain ⟨rfl, -⟩ := hC
      exact h A t C m rfl ho

theorem complaint_left {a b : List Tok} {m : PyStr} (h : Complaint rt a m) : Complaint rt (a ++ b) m := by
  obtain ⟨A, t, B, rfl, h1, h2⟩ := h
  exact ⟨A, t, B ++ b, by simp, h1, h2⟩

theorem complaint_right {a b : List Tok} {m : PyStr} (ha : EndsOk a) (hc : Clean rt a) (h : Complaint rt b m) :
    Complaint rt (a ++ b) m := by
  obtain ⟨A, t, B, rfl, h1, h2⟩ := h
  exact ⟨a ++ A, t, B, by simp, (objection_shift ha).2 h1, clean_append ha hc h2⟩

theorem clean_single {t : Tok} (h : Plain t) : Clean rt [t] := by
  intro A x B m e ho
  have : A = [] ∧ t = x := by
    cases A with
    | nil => exact ⟨rfl, (List.cons.inj e).1⟩
    | cons y A => simp at e
  obtain ⟨rfl, rfl⟩ := this
  cases ho with
  | literal h1 => exact h.2.2.2 h1
  | caseFlags h1 => have := h1.length_le; simp at this
  | literalFlag h1 => have := h1.length_le; simp at this
  | tooLong h1 => exact h.2.1 h1
  | range h1 => have := h1.length_le; simp at this

theorem endsOk_plain {t : Tok} (h : Plain t) : EndsOk [t] := endsOk_single ⟨h.1, h.2.1, h.2.2.1⟩

theorem clean_cons {t : Tok} {b : List Tok} (h : Plain t) (hb : Clean rt b) : Clean rt (t :: b) :=
  clean_append (a := [t]) (endsOk_plain h) (clean_single h) hb

/-- What a computation on the part `ts` of a query tells about it. -/
structure Tells {α : Type} (rt : PyRuntime) (ts : List Tok) (r : Except Exc α) : Prop where
  ok : ∀ x, r = .ok x → Clean rt ts
  error : ∀ e, r = .error e → ∃ m, wrapExc e = ⟨m⟩ ∧ Complaint rt ts m

theorem Tells.more {α : Type} {a b : List Tok} {r : Except Exc α} (h : Tells rt a r) (ha : EndsOk a) (hb : Clean rt b) :
    Tells rt (a ++ b) r :=
  ⟨fun x hx => clean_append ha (h.ok x hx) hb, fun e he => (h.error e he).imp fun _ h => ⟨h.1, complaint_left h.2⟩⟩

theorem Tells.cons {α : Type} {t : Tok} {b : List Tok} {r : Except Exc α} (ht : Plain t) (h : Tells rt b r) : Tells rt (t :: b) r :=
  ⟨fun x hx => clean_cons ht (h.ok x hx), fun e he => (h.error e he).imp fun _ h =>
    ⟨h.1, complaint_right (a := [t]) (endsOk_plain ht) (clean_single ht) h.2⟩⟩

/-- One computation after another. -/
theorem Tells.then {α β : Type} {a b : List Tok} {r : Except Exc α} {s : Except Exc β} (h : Tells rt a r) (ha : EndsOk a)
    (he : ∀ e, r = .error e → s = .error e) (ho : ∀ x, r = .ok x → Tells rt b s) : Tells rt (a ++ b) s := by
  cases hr : r with
  | error e =>
    refine ⟨fun x hx => ?_, fun e' he' => ?_⟩
    · rw [he e hr] at hx; cases hx
    · rw [he e hr] at he'
      cases he'
      exact (h.error e hr).imp fun _ h => ⟨h.1, complaint_left h.2⟩
  | ok x =>
    exact ⟨fun y hy => clean_append ha (h.ok x hr) ((ho x hr).ok y hy), fun e he => ((ho x hr).error e he).imp fun _ g =>
      ⟨g.1, complaint_right ha (h.ok x hr) g.2⟩⟩

/-- The outcome matters only as far as it is an error. -/
theorem Tells.of {α β : Type} {a : List Tok} {r : Except Exc α} {s : Except Exc β} (h : Tells rt a r)
    (he : ∀ e, s = .error e → r = .error e) (ho : ∀ y, s = .ok y → ∃ x, r = .ok x) : Tells rt a s :=
  ⟨fun y hy => (ho y hy).elim h.ok, fun e h' => h.error e (he e h')⟩

/-! ### Single parts -/

theorem clean_snoc {ts : List Tok} {t : Tok} : Clean rt (ts ++ [t]) ↔ Clean rt ts ∧ ∀ m, ¬ Objection rt ts t m := by
  constructor
  · intro h
    exact ⟨fun A x B m e => h A x (B ++ [t]) m (by rw [e]; simp), fun m => h ts t [] m rfl⟩
  · rintro ⟨h1, h2⟩ A x B m e
    rcases eq_nil_or_snoc' B with rfl | ⟨B', y, rfl⟩
    · have e1 := List.append_inj_left' e rfl
      have e2 := List.append_inj_right' e rfl
      subst e1
      obtain ⟨rfl, -⟩ := List.cons.inj e2
      exact h2 m
    · have e' : ts ++ [t] = (A ++ x :: B') ++ [y] := by rw [e]; simp
      exact h1 A x B' m (List.append_inj_left' e' rfl)

theorem complaint_snoc {ts rest : List Tok} {t : Tok} {m : PyStr} (h : Clean rt ts) (ho : Objection rt ts t m) :
    Complaint rt (ts ++ t :: rest) m := ⟨ts, t, rest, rfl, ho, h⟩

theorem Objection.type {pre : List Tok} {t : Tok} {m : PyStr} (h : Objection rt pre t m) :
    t.type = .REGEXP ∨ t.type = .REGEXP_FLAGS ∨ t.type = .INTEGER := by
  cases h with
  | literal h => exact .inl h
  | caseFlags _ _ h => exact .inr (.inl h)
  | literalFlag _ _ h => exact .inr (.inl h)
  | tooLong h => exact .inr (.inr h)
  | range _ _ _ h => exact .inr (.inr h)

/-- A literal. -/
theorem tells_literal (cfg : Config) {pat : Tok} (ht : pat.type = .REGEXP) (hl : pat.Lexed) :
    Tells rt [pat] (regexValue rt cfg pat.text) := by
  obtain ⟨q, ps, hlit⟩ := lexed_regexp hl ht
  have hr := regexValue_lit rt cfg hlit
  constructor
  · intro x hx
    rw [show [pat] = [] ++ [pat] from rfl, clean_snoc]
    refine ⟨clean_nil, fun m ho => ?_⟩
    cases ho with
    | literal h1 h2 h3 h4 =>
      have := hlit.unique h2
      subst this
      rcases hp : piecesExcept rt _ with e | v
      · rw [hp] at hr; rw [hr] at hx; cases hx
      · exact piecesValue_some ((piecesExcept_ok rt _ v).1 hp) _ (by simp) h4.rejected
    | caseFlags _ _ h => rw [ht] at h; cases h
    | literalFlag _ _ h => rw [ht] at h; cases h
    | tooLong h => rw [ht] at h; cases h
    | range _ _ _ h => rw [ht] at h; cases h
  · intro e he
    rcases hp : piecesExcept rt ps with e' | v
    · rw [hp] at hr
      rw [hr] at he
      cases he
      obtain ⟨A, p, B, rfl, hA, hp', rfl⟩ := piecesExcept_first ps e hp
      obtain ⟨m, hm, ho⟩ := objection_of_rejected (rt := rt) (hlit.wf p (by simp)) hp'
      exact ⟨m, hm, complaint_snoc (ts := []) (rest := []) clean_nil
        (.literal ht hlit (fun x hx m' hm' => hA x hx hm'.rejected) ho)⟩
    · rw [hp] at hr
      rw [hr] at he
      cases he

/-- The flags after a literal. -/
theorem tells_flags {pat s f : Tok} (hc : Clean rt [pat]) (hs : s.type = .FWD_SLASH) (hf : f.type = .REGEXP_FLAGS) (hl : f.Lexed) :
    Tells rt [pat, s, f] (regexFlags f.text) := by
  have hc2 : Clean rt [pat, s] := by
    rw [show [pat, s] = [pat] ++ [s] from rfl, clean_snoc]
    refine ⟨hc, fun m ho => ?_⟩
    rcases ho.type with h | h | h <;> rw [hs] at h <;> cases h
  have hsuf : [s] <:+ [pat, s] := ⟨[pat], rfl⟩
  obtain ⟨fs, h1, h2⟩ := flagLoop_ok f.text FlagSet.empty (lexed_flags hl hf).2
  have hn : ∀ g, HasFlag f.text g ↔ fs.has g = true := by
    intro g
    rw [h2 g]
    cases g <;> simp [FlagSet.empty, FlagSet.has, HasFlag]
  have hb : regexFlags f.text = if fs.has .CASE_SENSITIVE && fs.has .CASE_INSENSITIVE then
        .error (.builder py!"invalid combination of regex modifier flags: 'i' or 'c' and 'I' or 'C' are mutually exclusive")
      else if fs.has .LITERAL_MATCHING &&
          (fs.has .CASE_SENSITIVE || fs.has .CASE_INSENSITIVE || fs.has .IGNORE_DIACRITICS) then
        .error (.builder py!"invalid combination of regex modifier flags: 'l' is mutually exclusive with 'i', 'c', 'I', 'C' or 'd'")
      else .ok fs := by
    simp only [regexFlags, h1, Bind.bind, Except.bind]
  rw [show [pat, s, f] = [pat, s] ++ [f] from rfl, hb]
  split
  · rename_i ha
    simp only [Bool.and_eq_true] at ha
    refine ⟨fun x hx => (by cases hx), fun e he => ?_⟩
    cases he
    exact ⟨_, rfl, complaint_snoc (rest := []) hc2 (.caseFlags hsuf hs hf ((hn _).2 ha.1) ((hn _).2 ha.2))⟩
  · rename_i ha
    simp only [Bool.and_eq_true] at ha
    have ha' : ¬ (HasFlag f.text .CASE_SENSITIVE ∧ HasFlag f.text .CASE_INSENSITIVE) := by rwa [hn, hn]
    split
    · rename_i hb
      simp only [Bool.and_eq_true, Bool.or_eq_true] at hb
      refine ⟨fun x hx => (by cases hx), fun e he => ?_⟩
      cases he
      have : ∃ g, g ≠ .LITERAL_MATCHING ∧ fs.has g = true := by
        rcases hb.2 with (h | h) | h
        · exact ⟨_, by decide, h⟩
        · exact ⟨_, by decide, h⟩
        · exact ⟨_, by decide, h⟩
      obtain ⟨g, hg, hg'⟩ := this
      exact ⟨_, rfl, complaint_snoc (rest := []) hc2 (.literalFlag hsuf hs hf ha' ((hn _).2 hb.1) hg ((hn _).2 hg'))⟩
    · rename_i hb
      simp only [Bool.and_eq_true, Bool.or_eq_true] at hb
      refine ⟨fun x hx => clean_snoc.2 ⟨hc2, fun m ho => ?_⟩, fun e he => by cases he⟩
      cases ho with
      | literal h => rw [hf] at h; cases h
      | caseFlags _ _ _ h3 h4 => exact ha' ⟨h3, h4⟩
      | @literalFlag _ g _ _ _ _ h5 h6 h7 =>
        refine hb ⟨(hn _).1 h5, ?_⟩
        have := (hn _).1 h7
        cases g with
        | LITERAL_MATCHING => exact absurd rfl h6
        | CASE_SENSITIVE => exact .inl (.inl this)
        | CASE_INSENSITIVE => exact .inl (.inr this)
        | IGNORE_DIACRITICS => exact .inr this
      | tooLong h => rw [hf] at h; cases h
      | range _ _ _ h => rw [hf] at h; cases h

theorem tells_regexp (cfg : Config) {r : CRegexp} (h : r.WF) (hl : ∀ x ∈ r.toTree.leaves, x.Lexed) :
    Tells rt r.toTree.leaves (regexpMean rt cfg r) := by
  obtain ⟨pat, fl⟩ := r
  have hp : pat.type = .REGEXP := h.1
  have hpat := tells_literal (rt := rt) cfg hp (hl pat (by
    rcases fl with _ | ⟨s, f⟩ <;> simp [CRegexp.toTree, PTree.leaves, PTree.leavesL]))
  rcases fl with _ | ⟨s, f⟩
  · have e : (CRegexp.mk pat none).toTree.leaves = [pat] := by simp [CRegexp.toTree, PTree.leaves, PTree.leavesL]
    rw [e]
    simp only [regexpMean]
    rcases hv : regexValue rt cfg pat.text with e | v
    · exact ⟨fun x hx => (by cases hx), fun e' he => hpat.error e' (by cases he; exact hv)⟩
    · exact ⟨fun x hx => hpat.ok v hv, fun e' he => by cases he⟩
  · have hs := h.2 s f rfl
    have e : (CRegexp.mk pat (some (s, f))).toTree.leaves = [pat, s, f] := by
      simp [CRegexp.toTree, PTree.leaves, PTree.leavesL]
    rw [e] at hl ⊢
    simp only [regexpMean]
    rcases hv : regexValue rt cfg pat.text with e | v
    · refine ⟨fun x hx => (by cases hx), fun e' he => ?_⟩
      cases he
      exact (hpat.error e hv).imp fun m hm => ⟨hm.1, complaint_left (a := [pat]) (b := [s, f]) hm.2⟩
    · have ht := tells_flags (hpat.ok v hv) hs.1 hs.2 (hl f (by simp))
      rcases hfl : regexFlags f.text with e | fs
      · rw [hfl] at ht; exact ⟨fun x hx => (by cases hx), fun e' he => ht.error e' (by cases he; rfl)⟩
      · rw [hfl] at ht; exact ⟨fun x hx => ht.ok fs rfl, fun e' he => by cases he⟩

theorem clean_attr {a : CAttr} (h : a.WF) : Clean rt a.toTree.leaves := by
  obtain ⟨q, i⟩ := a
  have hi : Plain i := h.1.plain
  rcases q with _ | ⟨q, c⟩
  · have e : (CAttr.mk none i).toTree.leaves = [i] := by simp [CAttr.toTree, PTree.leaves, PTree.leavesL]
    rw [e]; exact clean_single hi
  · have h2 := h.2 q c rfl
    have hc : Plain c := by simp [Plain, h2.2]
    have e : (CAttr.mk (some (q, c)) i).toTree.leaves = [q, c, i] := by simp [CAttr.toTree, PTree.leaves, PTree.leavesL]
    rw [e]
    exact clean_cons h2.1.plain (clean_cons hc (clean_single hi))

/-- A number, when no range has been begun. -/
theorem tells_int {pre : List Tok} {n : Tok} (hc : Clean rt pre) (ht : n.type = .INTEGER) (hl : n.Lexed)
    (hpre : ∀ a c, [a, c] <:+ pre → a.type ≠ .INTEGER) : Tells rt (pre ++ [n]) (parseInt rt n.text) := by
  rw [parseInt_digits rt (lexed_integer hl ht)]
  split
  · rename_i h
    refine ⟨fun x hx => clean_snoc.2 ⟨hc, fun m ho => ?_⟩, fun e he => by cases he⟩
    cases ho with
    | literal h => rw [ht] at h; cases h
    | caseFlags _ _ h => rw [ht] at h; cases h
    | literalFlag _ _ h => rw [ht] at h; cases h
    | tooLong _ h1 h2 => omega
    | range h1 h2 => exact hpre _ _ h1 h2
  · rename_i h
    refine ⟨fun x hx => (by cases hx), fun e he => ?_⟩
    cases he
    exact ⟨_, rfl, complaint_snoc (rest := []) hc (.tooLong ht (by omega) (by omega))⟩

theorem clean_plain_snoc {ts : List Tok} {t : Tok} (h : Clean rt ts)
    (ht : t.type ≠ .REGEXP ∧ t.type ≠ .REGEXP_FLAGS ∧ t.type ≠ .INTEGER) : Clean rt (ts ++ [t]) :=
  clean_snoc.2 ⟨h, fun m ho => by
    rcases ho.type with g | g | g
    · exact ht.1 g
    · exact ht.2.1 g
    · exact ht.2.2 g⟩

theorem Tells.snoc {α : Type} {a : List Tok} {t : Tok} {r : Except Exc α} (h : Tells rt a r)
    (ht : t.type ≠ .REGEXP ∧ t.type ≠ .REGEXP_FLAGS ∧ t.type ≠ .INTEGER) : Tells rt (a ++ [t]) r :=
  ⟨fun x hx => clean_plain_snoc (h.ok x hx) ht, fun e he => (h.error e he).imp fun _ h => ⟨h.1, complaint_left h.2⟩⟩

theorem suffix_two_of {x y : Tok} {pre : List Tok} {a c : Tok} (h : [a, c] <:+ pre ++ [x, y]) : a = x ∧ c = y := by
  have : [a, c] = [x, y] :=
    (List.suffix_of_suffix_length_le h (List.suffix_append pre [x, y]) (by simp)).eq_of_length rfl
  simpa using this

theorem tells_quant {q : CQuant} (h : q.WF) (hl : ∀ x ∈ PTree.leavesL q.forest, x.Lexed) :
    Tells rt (PTree.leavesL q.forest) (processRepetition rt q.forest) := by
  rw [processRepetition_eq rt q h]
  rcases q with t | ⟨lb, n, rb⟩ | ⟨lb, n, c, m, rb⟩
  · have e : PTree.leavesL (CQuant.sym t).forest = [] ++ [t] := by simp [CQuant.forest, PTree.leaves, PTree.leavesL]
    rw [e]
    exact ⟨fun x hx => clean_plain_snoc clean_nil (by rcases h with h | h | h <;> simp [h]), fun e he => by cases he⟩
  · obtain ⟨h1, h2, h3⟩ := h
    have e : PTree.leavesL (CQuant.exactly lb n rb).forest = ([lb] ++ [n]) ++ [rb] := by
      simp [CQuant.forest, PTree.leaves, PTree.leavesL]
    rw [e] at hl ⊢
    refine Tells.snoc ?_ (by simp [h3])
    have ht := tells_int (rt := rt) (pre := [lb]) (n := n) (clean_single (by simp [Plain, h1])) h2 (hl n (by simp))
      (fun a c hs => by have := hs.length_le; simp at this)
    refine Tells.of ht (fun e he => ?_) (fun y hy => ?_)
    · rcases hp : parseInt rt n.text with e' | v <;> simp_all
    · rcases hp : parseInt rt n.text with e' | v <;> simp_all
  · obtain ⟨h1, h2, h3, h4, h5, h6⟩ := h
    have clb : Clean rt [lb] := clean_single (by simp [Plain, h1])
    have hlc : ∀ t : Tok, Clean rt ([lb] ++ [t]) → Clean rt (([lb] ++ [t]) ++ [c]) :=
      fun t ht => clean_plain_snoc ht (by simp [h2])
    rcases n with _ | n <;> rcases m with _ | m
    · simp at h6
    · have e : PTree.leavesL (CQuant.range lb none c (some m) rb).forest = (([lb] ++ [c]) ++ [m]) ++ [rb] := by
        simp [CQuant.forest, optLeaf, PTree.leaves, PTree.leavesL]
      rw [e] at hl ⊢
      refine Tells.snoc ?_ (by simp [h3])
      have ht := tells_int (rt := rt) (pre := [lb] ++ [c]) (n := m) (clean_plain_snoc clb (by simp [h2])) (h5 m rfl) (hl m (by simp))
        (fun a c' hs => by
          obtain ⟨rfl, -⟩ := suffix_two_of (pre := []) hs
          simp [h1])
      refine Tells.of ht (fun e he => ?_) (fun y hy => ?_)
      · rcases hp : parseInt rt m.text with e' | v <;> simp_all
      · rcases hp : parseInt rt m.text with e' | v <;> simp_all
    · have e : PTree.leavesL (CQuant.range lb (some n) c none rb).forest = (([lb] ++ [n]) ++ [c]) ++ [rb] := by
        simp [CQuant.forest, optLeaf, PTree.leaves, PTree.leavesL]
      rw [e] at hl ⊢
      refine Tells.snoc (Tells.snoc ?_ (by simp [h2])) (by simp [h3])
      have ht := tells_int (rt := rt) (pre := [lb]) (n := n) clb (h4 n rfl) (hl n (by simp))
        (fun a c hs => by have := hs.length_le; simp at this)
      refine Tells.of ht (fun e he => ?_) (fun y hy => ?_)
      · rcases hp : parseInt rt n.text with e' | v <;> simp_all
      · rcases hp : parseInt rt n.text with e' | v <;> simp_all
    · have e : PTree.leavesL (CQuant.range lb (some n) c (some m) rb).forest = ((([lb] ++ [n]) ++ [c]) ++ [m]) ++ [rb] := by
        simp [CQuant.forest, optLeaf, PTree.leaves, PTree.leavesL]
      rw [e] at hl ⊢
      refine Tells.snoc ?_ (by simp [h3])
      have hn := h4 n rfl
      have hm := h5 m rfl
      have ht := tells_int (rt := rt) (pre := [lb]) (n := n) clb hn (hl n (by simp))
        (fun a c hs => by have := hs.length_le; simp at this)
      have pn := parseInt_digits rt (lexed_integer (hl n (by simp)) hn)
      have pm := parseInt_digits rt (lexed_integer (hl m (by simp)) hm)
      rcases hp : parseInt rt n.text with e' | a
      · simp only [hp]
        refine ⟨fun x hx => (by cases hx), fun e he => ?_⟩
        cases he
        exact (ht.error _ hp).imp fun _ h => ⟨h.1, complaint_left (complaint_left h.2)⟩
      · simp only [hp]
        have hc := hlc n (ht.ok a hp)
        have hav : a = (decimalValue n.text : Int) := by
          rw [hp] at pn
          split at pn
          · cases pn; rfl
          · cases pn
        have hsuf : [n, c] <:+ ([lb] ++ [n]) ++ [c] := ⟨[lb], rfl⟩
        rw [pm]
        by_cases hd : rt.intMaxStrDigits = 0 ∨ m.text.length ≤ rt.intMaxStrDigits
        · simp only [if_pos hd]
          by_cases hlt : a > (decimalValue m.text : Int)
          · rw [if_pos hlt]
            refine ⟨fun x hx => (by cases hx), fun e he => ?_⟩
            cases he
            refine ⟨_, rfl, complaint_snoc (rest := []) hc (.range hsuf hn h2 hm hd (by omega) ?_ (decimal_intStr _))⟩
            rw [hav]; exact decimal_intStr _
          · rw [if_neg hlt]
            refine ⟨fun x _ => clean_snoc.2 ⟨hc, fun mm ho => ?_⟩, fun e he => by cases he⟩
            cases ho with
            | literal h => rw [hm] at h; cases h
            | caseFlags _ _ h => rw [hm] at h; cases h
            | literalFlag _ _ h => rw [hm] at h; cases h
            | tooLong _ h1 h2 => omega
            | range g1 g2 g3 g4 g5 g6 =>
              obtain ⟨rfl, rfl⟩ := suffix_two_of (pre := [lb]) g1
              omega
        · simp only [if_neg hd]
          refine ⟨fun x hx => (by cases hx), fun e he => ?_⟩
          cases he
          exact ⟨_, rfl, complaint_snoc (rest := []) hc (.tooLong hm (by omega) (by omega))⟩

theorem tells_optQuant {q : Option CQuant} (h : optQuantWF q) (hl : ∀ x ∈ PTree.leavesL (optQuant q), x.Lexed) :
    Tells rt (PTree.leavesL (optQuant q)) (quantMean rt q) := by
  cases q with
  | none => exact ⟨fun x _ => clean_nil, fun e he => by cases he⟩
  | some q =>
    have e : PTree.leavesL (optQuant (some q)) = PTree.leavesL q.forest := by
      simp [optQuant, PTree.leavesL, PTree.leaves]
    rw [e] at hl ⊢
    exact tells_quant (h q rfl) hl

/-! ### Whole queries -/

/-- Two computations one after the other, as the builder runs them. -/
theorem Tells.bind {α β γ : Type} {a b : List Tok} {r : Except Exc α} {s : α → Except Exc β} {t : Except Exc γ}
    (h : Tells rt a r) (ha : EndsOk a) (h' : ∀ x, r = .ok x → Tells rt b (s x))
    (he : ∀ e, r = .error e → t = .error e)
    (he' : ∀ x e, r = .ok x → s x = .error e → t = .error e)
    (ho : ∀ x y, r = .ok x → s x = .ok y → ∃ z, t = .ok z) : Tells rt (a ++ b) t := by
  refine h.then ha he fun x hx => (h' x hx).of (fun e h1 => ?_) (fun y h1 => ?_)
  · rcases hs : s x with e' | y
    · rw [he' x e' hx hs] at h1; cases h1; rfl
    · obtain ⟨z, hz⟩ := ho x y hx hs
      rw [hz] at h1; cases h1
  · rcases hs : s x with e' | z
    · rw [he' x e' hx hs] at h1; cases h1
    · exact ⟨z, rfl⟩

/-- Only the value is different. -/
theorem Tells.map {α β : Type} {a : List Tok} {r : Except Exc α} {t : Except Exc β} (h : Tells rt a r)
    (he : ∀ e, r = .error e → t = .error e) (ho : ∀ x, r = .ok x → ∃ z, t = .ok z) : Tells rt a t := by
  refine h.of (fun e h1 => ?_) (fun y h1 => ?_)
  · rcases hr : r with e' | y
    · rw [he e' hr] at h1; cases h1; rfl
    · obtain ⟨z, hz⟩ := ho y hr
      rw [hz] at h1; cases h1
  · rcases hr : r with e' | z
    · rw [he e' hr] at h1; cases h1
    · exact ⟨z, rfl⟩

variable (cfg : Config)

mutual
theorem tells_expr : ∀ (e : CExpr), e.WF → (∀ x ∈ e.toTree.leaves, x.Lexed) →
    Tells rt e.toTree.leaves (e.mean pureAlloc rt cfg ())
  | .basic a op r, hwf, hl => by
    simp only [CExpr.WF] at hwf
    have e : (CExpr.basic a op r).toTree.leaves = a.toTree.leaves ++ op :: r.toTree.leaves := by
      simp [CExpr.toTree, PTree.leaves, PTree.leavesL]
    have ha := CAttr.localChecks rt hwf.1
    have hop : Plain op := by rcases hwf.2.1 with h | h <;> simp [Plain, h]
    have hr := tells_regexp (rt := rt) cfg hwf.2.2 (fun x hx => hl x (by rw [e]; simp [hx]))
    rw [e]
    have h0 : Tells rt a.toTree.leaves (Except.ok () : Except Exc Unit) := ⟨fun _ _ => clean_attr hwf.1, fun e he => by cases he⟩
    refine h0.then ha.2 (fun e he => by cases he) fun _ _ => Tells.cons hop ?_
    refine hr.map (fun e he => ?_) (fun x hx => ?_)
    · simp only [CExpr.mean, he]
    · simp [CExpr.mean, hx]
  | .group lp e rp, hwf, hl => by
    simp only [CExpr.WF] at hwf
    have he : (CExpr.group lp e rp).toTree.leaves = lp :: (e.toTree.leaves ++ [rp]) := by
      simp [CExpr.toTree, PTree.leaves, PTree.leavesL]
    have hl' : ∀ x ∈ e.toTree.leaves, x.Lexed := fun x hx => hl x (by rw [he]; simp [hx])
    have ih := tells_expr e hwf.2.1 hl'
    have ends := (decides_expr rt cfg e hwf.2.1 hl').ends
    have h1 : Plain lp := by simp [Plain, hwf.1]
    have h2 : Plain rp := by simp [Plain, hwf.2.2]
    rw [he]
    refine Tells.cons h1 (Tells.more ?_ ends (clean_single h2))
    refine ih.map (fun e he => ?_) (fun x hx => ?_)
    · simp only [CExpr.mean, he]
    · simp [CExpr.mean, hx]
  | .or f rest, hwf, hl => by
    simp only [CExpr.WF] at hwf
    have he : (CExpr.or f rest).toTree.leaves = f.toTree.leaves ++ PTree.leavesL rest.forest := by
      simp [CExpr.toTree, PTree.leaves, PTree.leavesL]
    have hl1 : ∀ x ∈ f.toTree.leaves, x.Lexed := fun x hx => hl x (by rw [he]; simp [hx])
    have ih := tells_expr f hwf.1 hl1
    have ih' := tells_tail rest .OR _ (by simp) hwf.2.2.2 (fun x hx => hl x (by rw [he]; simp [hx]))
    rw [he]
    refine Tells.bind (s := fun _ => rest.mean pureAlloc rt cfg ()) ih (decides_expr rt cfg f hwf.1 hl1).ends (fun _ _ => ih')
      (fun e he => ?_) (fun x e hx he => ?_) (fun x y hx hy => ?_)
    · simp only [CExpr.mean, he]
    · simp only [CExpr.mean, hx, he]
    · simp [CExpr.mean, hx, hy]
  | .and f rest, hwf, hl => by
    simp only [CExpr.WF] at hwf
    have he : (CExpr.and f rest).toTree.leaves = f.toTree.leaves ++ PTree.leavesL rest.forest := by
      simp [CExpr.toTree, PTree.leaves, PTree.leavesL]
    have hl1 : ∀ x ∈ f.toTree.leaves, x.Lexed := fun x hx => hl x (by rw [he]; simp [hx])
    have ih := tells_expr f hwf.1 hl1
    have ih' := tells_tail rest .AND _ (by simp) hwf.2.2.2.2 (fun x hx => hl x (by rw [he]; simp [hx]))
    rw [he]
    refine Tells.bind (s := fun _ => rest.mean pureAlloc rt cfg ()) ih (decides_expr rt cfg f hwf.1 hl1).ends (fun _ _ => ih')
      (fun e he => ?_) (fun x e hx he => ?_) (fun x y hx hy => ?_)
    · simp only [CExpr.mean, he]
    · simp only [CExpr.mean, hx, he]
    · simp [CExpr.mean, hx, hy]
  | .not b e, hwf, hl => by
    simp only [CExpr.WF] at hwf
    have he : (CExpr.not b e).toTree.leaves = b :: e.toTree.leaves := by
      simp [CExpr.toTree, PTree.leaves, PTree.leavesL]
    have ih := tells_expr e hwf.2 (fun x hx => hl x (by rw [he]; simp [hx]))
    have h1 : Plain b := by simp [Plain, hwf.1]
    rw [he]
    refine Tells.cons h1 (ih.map (fun e he => ?_) (fun x hx => ?_))
    · simp only [CExpr.mean, he]
    · simp [CExpr.mean, hx]
theorem tells_tail : ∀ (t : CTail) (op : TokType) (no : Rule), op = .OR ∨ op = .AND → t.WF op no →
    (∀ x ∈ PTree.leavesL t.forest, x.Lexed) → Tells rt (PTree.leavesL t.forest) (t.mean pureAlloc rt cfg ())
  | .nil, op, no, hop, hwf, hl => by
    refine ⟨fun x _ => ?_, fun e he => by simp [CTail.mean] at he⟩
    simp only [CTail.forest, PTree.leavesL]
    exact clean_nil
  | .cons o e rest, op, no, hop, hwf, hl => by
    simp only [CTail.WF] at hwf
    have he : PTree.leavesL (CTail.cons o e rest).forest = o :: (e.toTree.leaves ++ PTree.leavesL rest.forest) := by
      simp [CTail.forest, PTree.leaves, PTree.leavesL]
    have hl1 : ∀ x ∈ e.toTree.leaves, x.Lexed := fun x hx => hl x (by rw [he]; simp [hx])
    have ih := tells_expr e hwf.2.1 hl1
    have ih' := tells_tail rest op no hop hwf.2.2.2 (fun x hx => hl x (by rw [he]; simp [hx]))
    have h1 : Plain o := by rcases hop with h | h <;> simp [Plain, hwf.1, h]
    rw [he]
    refine Tells.cons h1 (Tells.bind (s := fun _ => rest.mean pureAlloc rt cfg ()) ih (decides_expr rt cfg e hwf.2.1 hl1).ends
      (fun _ _ => ih') (fun e he => ?_) (fun x e hx he => ?_) (fun x y hx hy => ?_))
    · simp only [CTail.mean, he]
    · simp only [CTail.mean, hx, he]
    · simp [CTail.mean, hx, hy]
end

theorem tells_seg (lb rb : Tok) (e : Option CExpr) (hwf : ∀ x, e = some x → x.WF)
    (hl : ∀ x ∈ PTree.leavesL (optExpr e), x.Lexed) :
    Tells rt (PTree.leavesL (optExpr e)) (segMean pureAlloc rt cfg lb rb e ()) := by
  cases e with
  | none =>
    refine ⟨fun x _ => ?_, fun e he => by simp [segMean] at he⟩
    simp only [optExpr, PTree.leavesL]
    exact clean_nil
  | some e =>
    have he : PTree.leavesL (optExpr (some e)) = e.toTree.leaves := by
      simp [optExpr, PTree.leavesL, PTree.leaves]
    rw [he] at hl ⊢
    exact tells_expr cfg e (hwf e rfl) hl

mutual
theorem tells_q : ∀ (c : CQ), c.WF → (∀ x ∈ c.toTree.leaves, x.Lexed) →
    Tells rt c.toTree.leaves (c.mean pureAlloc rt cfg ())
  | .implicit r q, hwf, hl => by
    simp only [CQ.WF] at hwf
    have he : (CQ.implicit r q).toTree.leaves = r.toTree.leaves ++ PTree.leavesL (optQuant q) := by
      simp [CQ.toTree, PTree.leaves, PTree.leavesL]
    have hr := tells_regexp (rt := rt) cfg hwf.1 (fun x hx => hl x (by rw [he]; simp [hx]))
    have hq := tells_optQuant (rt := rt) hwf.2 (fun x hx => hl x (by rw [he]; simp [hx]))
    rw [he]
    refine Tells.bind (s := fun _ => quantMean rt q) hr (CRegexp.endsOk hwf.1) (fun _ _ => hq)
      (fun e he => ?_) (fun x e hx he => ?_) (fun x y hx hy => ?_)
    · simp only [CQ.mean, he]
    · simp only [CQ.mean, hx, he]
    · simp [CQ.mean, hx, hy]
  | .segment lb e rb q, hwf, hl => by
    simp only [CQ.WF] at hwf
    have he : (CQ.segment lb e rb q).toTree.leaves
        = lb :: (PTree.leavesL (optExpr e) ++ rb :: PTree.leavesL (optQuant q)) := by
      simp [CQ.toTree, PTree.leaves, PTree.leavesL, leavesL_append]
    have hl1 : ∀ x ∈ PTree.leavesL (optExpr e), x.Lexed := fun x hx => hl x (by rw [he]; simp [hx])
    have ih := tells_seg (rt := rt) cfg lb rb e hwf.2.1 hl1
    have hq := tells_optQuant (rt := rt) hwf.2.2.2 (fun x hx => hl x (by rw [he]; simp [hx]))
    have h1 : Plain lb := by simp [Plain, hwf.1]
    have h2 : Plain rb := by simp [Plain, hwf.2.2.1]
    rw [he]
    refine Tells.cons h1 (Tells.bind (s := fun _ => quantMean rt q) ih (decides_seg rt cfg lb rb e hwf.2.1 hl1).ends
      (fun _ _ => Tells.cons h2 hq)
      (fun e he => ?_) (fun x e hx he => ?_) (fun x y hx hy => ?_))
    · simp only [CQ.mean, he]
    · simp only [CQ.mean, hx, he]
    · simp [CQ.mean, hx, hy]
  | .group lp c rp q, hwf, hl => by
    simp only [CQ.WF] at hwf
    have he : (CQ.group lp c rp q).toTree.leaves
        = lp :: (c.toTree.leaves ++ rp :: PTree.leavesL (optQuant q)) := by
      simp [CQ.toTree, PTree.leaves, PTree.leavesL]
    have hl1 : ∀ x ∈ c.toTree.leaves, x.Lexed := fun x hx => hl x (by rw [he]; simp [hx])
    have ih := tells_q c hwf.2.1 hl1
    have hq := tells_optQuant (rt := rt) hwf.2.2.2.2 (fun x hx => hl x (by rw [he]; simp [hx]))
    have h1 : Plain lp := by simp [Plain, hwf.1]
    have h2 : Plain rp := by simp [Plain, hwf.2.2.2.1]
    rw [he]
    refine Tells.cons h1 (Tells.bind (s := fun _ => quantMean rt q) ih (decides_q rt cfg c hwf.2.1 hl1).ends
      (fun _ _ => Tells.cons h2 hq)
      (fun e he => ?_) (fun x e hx he => ?_) (fun x y hx hy => ?_))
    · simp only [CQ.mean, he]
    · simp only [CQ.mean, hx, he]
    · simp [CQ.mean, hx, hy]
  | .seq f rest, hwf, hl => by
    simp only [CQ.WF] at hwf
    have he : (CQ.seq f rest).toTree.leaves = f.toTree.leaves ++ PTree.leavesL rest.forest := by
      simp [CQ.toTree, PTree.leaves, PTree.leavesL]
    have hl1 : ∀ x ∈ f.toTree.leaves, x.Lexed := fun x hx => hl x (by rw [he]; simp [hx])
    have ih := tells_q f hwf.1 hl1
    have ih' := tells_qtail rest (.inl hwf.2.2) (fun x hx => hl x (by rw [he]; simp [hx]))
    rw [he]
    refine Tells.bind (s := fun _ => rest.mean pureAlloc rt cfg ()) ih (decides_q rt cfg f hwf.1 hl1).ends (fun _ _ => ih')
      (fun e he => ?_) (fun x e hx he => ?_) (fun x y hx hy => ?_)
    · simp only [CQ.mean, he]
    · simp only [CQ.mean, hx, he]
    · simp [CQ.mean, hx, hy]
  | .disj f rest, hwf, hl => by
    simp only [CQ.WF] at hwf
    have he : (CQ.disj f rest).toTree.leaves = f.toTree.leaves ++ PTree.leavesL rest.forest := by
      simp [CQ.toTree, PTree.leaves, PTree.leavesL]
    have hl1 : ∀ x ∈ f.toTree.leaves, x.Lexed := fun x hx => hl x (by rw [he]; simp [hx])
    have ih := tells_q f hwf.1 hl1
    have ih' := tells_qtail rest (.inr hwf.2.2.2) (fun x hx => hl x (by rw [he]; simp [hx]))
    rw [he]
    refine Tells.bind (s := fun _ => rest.mean pureAlloc rt cfg ()) ih (decides_q rt cfg f hwf.1 hl1).ends (fun _ _ => ih')
      (fun e he => ?_) (fun x e hx he => ?_) (fun x y hx hy => ?_)
    · simp only [CQ.mean, he]
    · simp only [CQ.mean, hx, he]
    · simp [CQ.mean, hx, hy]
theorem tells_qtail : ∀ (t : CQTail), t.WFseq ∨ t.WFdisj →
    (∀ x ∈ PTree.leavesL t.forest, x.Lexed) → Tells rt (PTree.leavesL t.forest) (t.mean pureAlloc rt cfg ())
  | .nil, hwf, hl => by
    refine ⟨fun x _ => ?_, fun e he => by simp [CQTail.mean] at he⟩
    simp only [CQTail.forest, PTree.leavesL]
    exact clean_nil
  | .cons sep c rest, hwf, hl => by
    have he : PTree.leavesL (CQTail.cons sep c rest).forest
        = PTree.leavesL (optLeaf sep) ++ (c.toTree.leaves ++ PTree.leavesL rest.forest) := by
      simp [CQTail.forest, PTree.leaves, PTree.leavesL, leavesL_append]
    have hc : c.WF := by
      rcases hwf with h | h
      · simp only [CQTail.WFseq] at h; exact h.2.1
      · simp only [CQTail.WFdisj] at h; exact h.2.1
    have hrest : rest.WFseq ∨ rest.WFdisj := by
      rcases hwf with h | h
      · simp only [CQTail.WFseq] at h; exact .inl h.2.2.2
      · simp only [CQTail.WFdisj] at h; exact .inr h.2.2.2
    have hl1 : ∀ x ∈ c.toTree.leaves, x.Lexed := fun x hx => hl x (by rw [he]; simp [hx])
    have ih := tells_q c hc hl1
    have ih' := tells_qtail rest hrest (fun x hx => hl x (by rw [he]; simp [hx]))
    have main : Tells rt (c.toTree.leaves ++ PTree.leavesL rest.forest) ((CQTail.cons sep c rest).mean pureAlloc rt cfg ()) := by
      refine Tells.bind (s := fun _ => rest.mean pureAlloc rt cfg ()) ih (decides_q rt cfg c hc hl1).ends
        (fun _ _ => ih') (fun e he => ?_) (fun x e hx he => ?_) (fun x y hx hy => ?_)
      · simp only [CQTail.mean, he]
      · simp only [CQTail.mean, hx, he]
      · simp [CQTail.mean, hx, hy]
    rw [he]
    rcases hwf with h | h
    · simp only [CQTail.WFseq] at h
      rw [h.1]
      rw [h.1] at main
      simpa [optLeaf, PTree.leavesL] using main
    · simp only [CQTail.WFdisj] at h
      obtain ⟨o, h1, h2⟩ := h.1
      have ho : Plain o := by simp [Plain, h2]
      rw [h1]
      rw [h1] at main
      have := Tells.cons ho main
      simpa [optLeaf, PTree.leavesL, PTree.leaves] using this
end

/-- Building the tree of a query tells what is wrong with its tokens. -/
theorem tells_query (q : CQuery) (hwf : q.WF) (hl : q.toTree.Lexed) :
    Tells rt q.toTree.leaves (q.mean pureAlloc rt cfg ()) := by
  obtain ⟨main, within, eof⟩ := q
  have he : (CQuery.mk main within eof).toTree.leaves
      = main.toTree.leaves ++ (PTree.leavesL (optWithin within) ++ [eof]) := by
    simp [CQuery.toTree, PTree.leaves, PTree.leavesL, leavesL_append]
  have hl1 : ∀ x ∈ main.toTree.leaves, x.Lexed := fun x hx => hl x (by rw [he]; simp [hx])
  have ih := tells_q (rt := rt) cfg main hwf.1 hl1
  have heof : Plain eof := by simp [Plain, show eof.type = _ from hwf.2.2]
  have hrest : Clean rt (PTree.leavesL (optWithin within) ++ [eof]) := by
    rcases within with _ | ⟨w, s⟩
    · simpa [optWithin, PTree.leavesL] using clean_single heof
    · obtain ⟨hw, hs⟩ := hwf.2.1 w s rfl
      have h1 : Plain w := by simp [Plain, hw]
      have h2 : Plain s := by simp [Plain, hs]
      simpa [optWithin, PTree.leavesL, PTree.leaves] using clean_cons h1 (clean_cons h2 (clean_single heof))
  rw [he]
  refine Tells.more ?_ (decides_q rt cfg main hwf.1 hl1).ends hrest
  rcases within with _ | ⟨w, s⟩
  · refine ih.map (fun e he => ?_) (fun x hx => ?_)
    · simp only [CQuery.mean, he]
    · simp [CQuery.mean, hx]
  · obtain ⟨hw, hs⟩ := hwf.2.1 w s rfl
    obtain ⟨sc, hsc⟩ := scopeOf_total (lexed_scope (hl s (by rw [he]; simp [optWithin, PTree.leavesL, PTree.leaves])) hs)
    refine ih.map (fun e he => ?_) (fun x hx => ?_)
    · simp only [CQuery.mean, he]
    · simp [CQuery.mean, hx, hsc]

end

end Fcsql
