/-
Lexing a text that is laid out as tokens and whitespace.
-/
import Verif.Spec.Layout
import Verif.Proofs.Tiling
import Verif.Proofs.Parse

set_option autoImplicit false
set_option linter.unusedSimpArgs false

namespace Fcsql

/-! ### Literals are prefix-free -/

theorem piece_head {q : Nat} {p p' : LitPiece} (h : p.WF q) (h' : p'.WF q) {x y : PyStr}
    (e : p.text ++ x = p'.text ++ y) : p = p' ∧ x = y := by
  have esc92 : ∀ c ∈ escapeChars, c ≠ 120 ∧ c ≠ 117 ∧ c ≠ 85 := by decide
  cases p with
  | plain c =>
    cases p' with
    | plain d => simpa [LitPiece.text] using e
    | esc d => simp [LitPiece.text] at e; exact absurd e.1 h.2.2
    | hex l ds => simp [LitPiece.text] at e; exact absurd e.1 h.2.2
  | esc c =>
    cases p' with
    | plain d => simp [LitPiece.text] at e; exact absurd e.1.symm h'.2.2
    | esc d => simpa [LitPiece.text] using e
    | hex l ds =>
      simp [LitPiece.text] at e
      have := esc92 c h
      rcases h'.1 with ⟨rfl, -⟩ | ⟨rfl, -⟩ | ⟨rfl, -⟩ <;> omega
  | hex l ds =>
    cases p' with
    | plain d => simp [LitPiece.text] at e; exact absurd e.1.symm h'.2.2
    | esc d =>
      simp [LitPiece.text] at e
      have := esc92 d h'
      rcases h.1 with ⟨rfl, -⟩ | ⟨rfl, -⟩ | ⟨rfl, -⟩ <;> omega
    | hex l' ds' =>
      simp only [LitPiece.text, List.cons_append, List.cons.injEq, true_and] at e
      obtain ⟨rfl, e⟩ := e
      have hl : ds.length = ds'.length := by
        have h1 := h.1; have h2 := h'.1
        omega
      obtain ⟨rfl, rfl⟩ := List.append_inj e hl
      exact ⟨rfl, rfl⟩

theorem piece_ne_quote {q : Nat} (hq : q = 34 ∨ q = 39) {p : LitPiece} (h : p.WF q) {x y : PyStr} :
    p.text ++ x ≠ q :: y := by
  cases p with
  | plain c => intro e; simp [LitPiece.text] at e; exact h.2.1 e.1
  | esc c => intro e; simp [LitPiece.text] at e; omega
  | hex l ds => intro e; simp [LitPiece.text] at e; omega

theorem pieces_prefixFree {q : Nat} (hq : q = 34 ∨ q = 39) : ∀ (ps ps' : List LitPiece), (∀ p ∈ ps, p.WF q) →
    (∀ p ∈ ps', p.WF q) → ∀ x y, ps.flatMap LitPiece.text ++ q :: x = ps'.flatMap LitPiece.text ++ q :: y →
    ps = ps' ∧ x = y
  | [], [], _, _, x, y, e => ⟨rfl, by simpa using e⟩
  | [], p :: ps', _, h', x, y, e => by
    simp only [List.flatMap_nil, List.nil_append, List.flatMap_cons, List.append_assoc] at e
    exact absurd e.symm (piece_ne_quote hq (h' p (by simp)))
  | p :: ps, [], h, _, x, y, e => by
    simp only [List.flatMap_nil, List.nil_append, List.flatMap_cons, List.append_assoc] at e
    exact absurd e (piece_ne_quote hq (h p (by simp)))
  | p :: ps, p' :: ps', h, h', x, y, e => by
    simp only [List.flatMap_cons, List.append_assoc] at e
    obtain ⟨rfl, e'⟩ := piece_head (h p (by simp)) (h' p' (by simp)) e
    obtain ⟨rfl, rfl⟩ := pieces_prefixFree hq ps ps' (fun x hx => h x (by simp [hx])) (fun x hx => h' x (by simp [hx])) x y e'
    exact ⟨rfl, rfl⟩

theorem lit_prefixFree {w w' v : PyStr} {q q' : Nat} {ps ps' : List LitPiece} (h : IsLit w q ps) (h' : IsLit w' q' ps')
    (e : w' = w ++ v) : v = [] := by
  rw [h.eq, h'.eq, litText, litText] at e
  simp only [List.cons_append, List.cons.injEq, List.append_assoc] at e
  obtain ⟨rfl, e⟩ := e
  have := (pieces_prefixFree h.quote _ _ h'.wf h.wf [] v (by simpa using e)).2
  exact this.symm

/-! ### What the rules match -/

/-- The texts matched by some rule. -/
inductive RuleText : PyStr → Prop
  | single {c : Nat} : c ∈ py!"()[]|&!/{}+*?,=:" ∨ isWs c = true → RuleText [c]
  | ne : RuleText py!"!="
  | name {w : PyStr} : IsName w → RuleText w
  | int {w : PyStr} : w ≠ [] → w.all isDigit = true → RuleText w
  | lit {w : PyStr} {q : Nat} {ps : List LitPiece} : IsLit w q ps → RuleText w

theorem isName_within : IsName py!"within" := isName_of_letters (by simp) (by decide)

theorem IsScopeWord.isName {w : PyStr} (h : IsScopeWord w) : IsName w := by
  obtain ⟨s, hs⟩ := h
  exact isName_of_letters (scopeWords_letters _ hs).1 (scopeWords_letters _ hs).2

theorem IsFlags.isName {w : PyStr} (h : IsFlags w) : IsName w :=
  isName_of_letters h.1 fun c hc => flagLetters c (h.2 c hc)

theorem someRule_text {w : PyStr} (h : SomeRule lexRules w) : RuleText w := by
  obtain ⟨⟨ty, r⟩, hm, hr⟩ := h
  simp only [lexRules, List.mem_cons, List.not_mem_nil, or_false, Prod.mk.injEq] at hm
  have sym : ∀ {k : Nat}, Matches (Rx.chr k) w → k ∈ py!"()[]|&!/{}+*?,=:" → RuleText w := by
    intro k hk hmem
    rw [matches_chr.1 hk]
    exact .single (.inl hmem)
  rcases hm with ⟨rfl, rfl⟩ | ⟨rfl, rfl⟩ | ⟨rfl, rfl⟩ | ⟨rfl, rfl⟩ | ⟨rfl, rfl⟩ | ⟨rfl, rfl⟩ | ⟨rfl, rfl⟩ | ⟨rfl, rfl⟩ |
    ⟨rfl, rfl⟩ | ⟨rfl, rfl⟩ | ⟨rfl, rfl⟩ | ⟨rfl, rfl⟩ | ⟨rfl, rfl⟩ | ⟨rfl, rfl⟩ | ⟨rfl, rfl⟩ | ⟨rfl, rfl⟩ | ⟨rfl, rfl⟩ |
    ⟨rfl, rfl⟩ | ⟨rfl, rfl⟩ | ⟨rfl, rfl⟩ | ⟨rfl, rfl⟩ | ⟨rfl, rfl⟩ | ⟨rfl, rfl⟩ | ⟨rfl, rfl⟩ | ⟨rfl, rfl⟩
  all_goals first
    | exact sym hr (by decide)
    | (rw [(matches_str _).1 hr]; exact .ne)
    | (rw [(matches_str _).1 hr]; exact .name isName_within)
    | exact .name (IsScopeWord.isName (matches_scope.1 hr))
    | exact .name (IsFlags.isName (matches_flags.1 hr))
    | exact .name (matches_identifier.1 hr)
    | exact .int (matches_integer.1 hr).1 (matches_integer.1 hr).2
    | exact (matches_quoted.1 hr).elim fun _ h => h.elim fun _ h => .lit h
    | (obtain ⟨c, rfl, h⟩ := matches_cls.1 hr; exact .single (.inr ((isWs_eq c).trans h)))

theorem IsName.head {w : PyStr} (h : IsName w) : ∃ a v, w = a :: v ∧ isLetter a = true := by
  rcases h with ⟨c, rfl, hc⟩ | ⟨a, m, z, rfl, ha, -, -⟩
  · exact ⟨c, [], rfl, hc⟩
  · exact ⟨a, _, rfl, ha⟩

theorem IsName.chars {w : PyStr} (h : IsName w) : ∀ c ∈ w, isAlnum c = true ∨ c = 45 := by
  have hl : ∀ c, isLetter c = true → isAlnum c = true := fun c hc => by simp [isAlnum, hc]
  intro c hc
  rcases h with ⟨d, rfl, hd⟩ | ⟨a, m, z, rfl, ha, hm, hz⟩
  · rcases List.mem_singleton.1 hc with rfl
    exact .inl (hl _ hd)
  · simp only [List.mem_cons, List.mem_append, List.not_mem_nil, or_false] at hc
    rcases hc with rfl | hc | rfl
    · exact .inl (hl _ ha)
    · exact hm c hc
    · exact .inl hz

theorem IsName.snoc {w : PyStr} (h : IsName w) {c : Nat} (hc : isAlnum c = true) : IsName (w ++ [c]) := by
  rcases h with ⟨d, rfl, hd⟩ | ⟨a, m, z, rfl, ha, hm, hz⟩
  · exact .inr ⟨d, [], c, rfl, hd, by simp, hc⟩
  · refine .inr ⟨a, m ++ [z], c, by simp, ha, ?_, hc⟩
    intro x hx
    rcases List.mem_append.1 hx with hx | hx
    · exact hm x hx
    · rcases List.mem_singleton.1 hx with rfl
      exact .inl hz

/-- What a text matched by a rule can start with. -/
theorem RuleText.head {w : PyStr} (h : RuleText w) : ∃ a v, w = a :: v ∧
    ((v = [] ∧ (a ∈ py!"()[]|&!/{}+*?,=:" ∨ isWs a = true)) ∨ (a = 33 ∧ v = py!"=") ∨ (isLetter a = true ∧ IsName w) ∨
      (isDigit a = true ∧ w.all isDigit = true) ∨ ((a = 34 ∨ a = 39) ∧ ∃ ps, IsLit w a ps)) := by
  cases h with
  | single h => exact ⟨_, [], rfl, .inl ⟨rfl, h⟩⟩
  | ne => exact ⟨_, _, rfl, .inr (.inl ⟨rfl, rfl⟩)⟩
  | name h =>
    obtain ⟨a, v, rfl, ha⟩ := h.head
    exact ⟨a, v, rfl, .inr (.inr (.inl ⟨ha, h⟩))⟩
  | int h1 h2 =>
    cases w with
    | nil => exact absurd rfl h1
    | cons a v => exact ⟨a, v, rfl, .inr (.inr (.inr (.inl ⟨by simp at h2; exact h2.1, h2⟩)))⟩
  | lit h => exact ⟨_, _, h.eq, .inr (.inr (.inr (.inr ⟨h.quote, _, h⟩)))⟩

/-! ### Tokens -/

theorem isLetter_ne {a : Nat} (h : isLetter a = true) : a ∉ py!"()[]|&!/{}+*?,=:" ∧ isDigit a = false ∧ a ≠ 34 ∧ a ≠ 39 ∧
    isWs a = false := by
  simp only [isLetter, Bool.or_eq_true, Bool.and_eq_true, decide_eq_true_eq] at h
  refine ⟨by simp; omega, by simp [isDigit]; omega, by omega, by omega, ?_⟩
  simp [isWs_eq, wsRanges, inRanges]; omega

theorem isDigit_ne {a : Nat} (h : isDigit a = true) : a ∉ py!"()[]|&!/{}+*?,=:" ∧ a ≠ 34 ∧ a ≠ 39 ∧
    isWs a = false := by
  simp only [isDigit, Bool.and_eq_true, decide_eq_true_eq] at h
  refine ⟨by simp; omega, by omega, by omega, ?_⟩
  simp [isWs_eq, wsRanges, inRanges]; omega

/-- Nothing longer than a token can be matched, if the next character does not stick to it. -/
theorem token_longest {ty : TokType} {w : PyStr} (h : TokenText ty w) {c : Nat} (hc : ¬ Sticks ty c) (v : PyStr) :
    ¬ SomeRule lexRules (w ++ c :: v) := by
  intro hs
  have hr := someRule_text hs
  obtain ⟨a, u, e, hcase⟩ := hr.head
  have word : IsName w → ¬ (isAlnum c = true ∨ c = 45) → False := by
    intro hn hc
    obtain ⟨b, x, rfl, hb⟩ := hn.head
    simp only [List.cons_append, List.cons.injEq] at e
    obtain ⟨rfl, rfl⟩ := e
    have hne := isLetter_ne hb
    rcases hcase with ⟨h1, -⟩ | ⟨rfl, -⟩ | ⟨-, h1⟩ | ⟨h1, -⟩ | ⟨h1, -⟩
    · simp at h1
    · simp at hne
    · exact hc (h1.chars c (by simp))
    · rw [hne.2.1] at h1; cases h1
    · omega
  cases h with
  | @fixed ty w hf =>
    by_cases hw : ty = .WITHIN
    · subst hw
      simp only [fixedTokens, List.mem_cons, Prod.mk.injEq, reduceCtorEq, false_and, List.not_mem_nil, or_false, false_or,
        true_and] at hf
      exact word (hf ▸ isName_within) hc
    · have hh : ∀ b x, w = b :: x → (x = [] ∨ w = py!"!=") ∧ b ∈ py!"()[]|&!/{}+*?,=:" ∧ (w = py!"!" → ty = .NOT) := by
        intro b x hx
        simp only [fixedTokens, List.mem_cons, Prod.mk.injEq, List.not_mem_nil, or_false] at hf
        rcases hf with ⟨rfl, rfl⟩ | ⟨rfl, rfl⟩ | ⟨rfl, rfl⟩ | ⟨rfl, rfl⟩ | ⟨rfl, rfl⟩ | ⟨rfl, rfl⟩ | ⟨rfl, rfl⟩ | ⟨rfl, rfl⟩ |
          ⟨rfl, rfl⟩ | ⟨rfl, rfl⟩ | ⟨rfl, rfl⟩ | ⟨rfl, rfl⟩ | ⟨rfl, rfl⟩ | ⟨rfl, rfl⟩ | ⟨rfl, rfl⟩ | ⟨rfl, rfl⟩ | ⟨rfl, rfl⟩ |
          ⟨rfl, rfl⟩ <;> simp at hx hw ⊢ <;> simp [← hx]
      cases w with
      | nil => simp [fixedTokens] at hf
      | cons b x =>
        obtain ⟨h1, h2, h3⟩ := hh b x rfl
        simp only [List.cons_append, List.cons.injEq] at e
        obtain ⟨rfl, rfl⟩ := e
        have hl : isLetter b = false := by
          cases hl : isLetter b with
          | false => rfl
          | true => exact absurd h2 (isLetter_ne hl).1
        have hd : isDigit b = false := by
          cases hd : isDigit b with
          | false => rfl
          | true => exact absurd h2 (isDigit_ne hd).1
        rcases hcase with ⟨h4, -⟩ | ⟨rfl, h4⟩ | ⟨h4, -⟩ | ⟨h4, -⟩ | ⟨h4, -⟩
        · simp at h4
        · rcases h1 with rfl | h1
          · have := h3 rfl
            subst this
            simp at h4
            exact hc h4.1
          · simp at h1; subst h1; simp at h4
        · rw [hl] at h4; cases h4
        · rw [hd] at h4; cases h4
        · simp at h2; omega
  | scope h => exact word h.isName hc
  | flags h => exact word h.isName hc
  | identifier h => exact word h hc
  | integer h1 h2 =>
    cases w with
    | nil => exact absurd rfl h1
    | cons b x =>
      simp only [List.cons_append, List.cons.injEq] at e
      obtain ⟨rfl, rfl⟩ := e
      have hb : isDigit b = true := by simp at h2; exact h2.1
      have hne := isDigit_ne hb
      rcases hcase with ⟨h4, -⟩ | ⟨rfl, -⟩ | ⟨h4, -⟩ | ⟨-, h4⟩ | ⟨h4, -⟩
      · simp at h4
      · simp at hne
      · rw [(isLetter_ne h4).2.1] at hb; cases hb
      · simp at h4; exact hc h4.2.2.1
      · omega
  | literal h =>
    rcases hcase with ⟨rfl, h4⟩ | ⟨rfl, h4⟩ | ⟨h4, -⟩ | ⟨h4, -⟩ | ⟨-, ps', h4⟩
    · rw [h.eq, litText] at e; simp at e
    · rw [h.eq, litText] at e; simp at e; have := h.quote; omega
    · rw [h.eq, litText] at e; simp at e
      have := isLetter_ne h4; have := h.quote; omega
    · rw [h.eq, litText] at e; simp at e
      have := isDigit_ne h4; have := h.quote; omega
    · have := lit_prefixFree h h4 rfl
      cases this

theorem firstRule_cons {t ty : TokType} {r : Rx} {rs : List (TokType × Rx)} {w : PyStr} :
    FirstRule ((t, r) :: rs) ty w ↔ (ty = t ∧ Matches r w) ∨ (¬ Matches r w ∧ FirstRule rs ty w) := by
  constructor
  · intro h
    cases h with
    | here h => exact .inl ⟨rfl, h⟩
    | there h h' => exact .inr ⟨h, h'⟩
  · rintro (⟨rfl, h⟩ | ⟨h, h'⟩)
    · exact .here h
    · exact .there h h'

theorem firstRule_nil {ty : TokType} {w : PyStr} : ¬ FirstRule [] ty w := fun h => nomatch h

theorem tokenText_of_first {ty : TokType} {w : PyStr} (h : FirstRule lexRules ty w) :
    TokenText ty w ∨ (ty = .Space ∧ ∃ c, w = [c] ∧ isWs c = true) := by
  simp only [lexRules, firstRule_cons, firstRule_nil, matches_chr, matches_str, matches_scope, matches_flags,
    matches_identifier, matches_integer, matches_quoted, matches_cls, and_false, or_false] at h
  have fx : ∀ {ty : TokType} {w : PyStr}, (ty, w) ∈ fixedTokens → TokenText ty w ∨ (ty = .Space ∧ ∃ c, w = [c] ∧ isWs c = true) :=
    fun h => .inl (.fixed h)
  rcases h with ⟨rfl, rfl⟩ | ⟨-, ⟨rfl, rfl⟩ | ⟨-, ⟨rfl, rfl⟩ | ⟨-, ⟨rfl, rfl⟩ | ⟨-, ⟨rfl, rfl⟩ | ⟨-, ⟨rfl, rfl⟩ | ⟨-, ⟨rfl, rfl⟩ |
    ⟨-, ⟨rfl, rfl⟩ | ⟨-, ⟨rfl, rfl⟩ | ⟨-, ⟨rfl, rfl⟩ | ⟨-, ⟨rfl, rfl⟩ | ⟨-, ⟨rfl, rfl⟩ | ⟨-, ⟨rfl, rfl⟩ | ⟨-, ⟨rfl, rfl⟩ |
    ⟨-, ⟨rfl, rfl⟩ | ⟨-, ⟨rfl, rfl⟩ | ⟨-, ⟨rfl, rfl⟩ | ⟨h1, ⟨rfl, rfl⟩ | ⟨h2, ⟨rfl, h⟩ | ⟨h3, ⟨rfl, h⟩ | ⟨h4, ⟨rfl, h⟩ | ⟨-, ⟨rfl, h⟩ |
    ⟨-, ⟨rfl, h⟩ | ⟨h5, ⟨rfl, h⟩ | ⟨-, rfl, h⟩⟩⟩⟩⟩⟩⟩⟩⟩⟩⟩⟩⟩⟩⟩⟩⟩⟩⟩⟩⟩⟩⟩⟩
  all_goals first
    | exact .inl (.scope h)
    | exact .inl (.flags h)
    | exact .inl (.identifier h h2 h3 h4)
    | exact .inl (.integer h.1 h.2)
    | exact .inl (h.elim fun _ h => h.elim fun _ h => .literal h)
    | exact absurd h h5
    | exact .inr ⟨rfl, h.elim fun c h => ⟨c, h.1, (isWs_eq c).trans h.2⟩⟩
    | exact fx (by simp [fixedTokens])

/-- Which class of texts a token belongs to, by its first character. -/
theorem TokenText.class {ty : TokType} {w : PyStr} (h : TokenText ty w) :
    ((ty, w) ∈ fixedTokens ∧ ∃ a v, w = a :: v ∧ (a ∈ py!"()[]|&!/{}+*?,=:" ∨ w = py!"within")) ∨
    (IsName w ∧ w ≠ py!"within" ∧ ((ty = .SIMPLE_WITHIN_SCOPE ∧ IsScopeWord w) ∨ (ty = .REGEXP_FLAGS ∧ IsFlags w ∧ ¬ IsScopeWord w) ∨
      (ty = .IDENTIFIER ∧ ¬ IsScopeWord w ∧ ¬ IsFlags w))) ∨
    (ty = .INTEGER ∧ ∃ a v, w = a :: v ∧ isDigit a = true) ∨ (ty = .REGEXP ∧ ∃ a v, w = a :: v ∧ (a = 34 ∨ a = 39)) := by
  cases h with
  | @fixed ty w hf =>
    left
    refine ⟨hf, ?_⟩
    simp only [fixedTokens, List.mem_cons, Prod.mk.injEq, List.not_mem_nil, or_false] at hf
    rcases hf with ⟨rfl, rfl⟩ | ⟨rfl, rfl⟩ | ⟨rfl, rfl⟩ | ⟨rfl, rfl⟩ | ⟨rfl, rfl⟩ | ⟨rfl, rfl⟩ | ⟨rfl, rfl⟩ | ⟨rfl, rfl⟩ |
      ⟨rfl, rfl⟩ | ⟨rfl, rfl⟩ | ⟨rfl, rfl⟩ | ⟨rfl, rfl⟩ | ⟨rfl, rfl⟩ | ⟨rfl, rfl⟩ | ⟨rfl, rfl⟩ | ⟨rfl, rfl⟩ | ⟨rfl, rfl⟩ |
      ⟨rfl, rfl⟩ <;> exact ⟨_, _, rfl, by simp⟩
  | scope h =>
    right; left
    refine ⟨h.isName, ?_, .inl ⟨rfl, h⟩⟩
    rintro rfl
    obtain ⟨s, hs⟩ := h
    revert hs
    cases s <;> decide
  | flags h =>
    right; left
    refine ⟨h.isName, ?_, .inr (.inl ⟨rfl, h, ?_⟩)⟩
    · rintro rfl; exact absurd (h.2 119 (by simp)) (by decide)
    · rintro ⟨s, hs⟩
      have : ∀ p ∈ scopeWords, ¬ ∀ c ∈ p.1, c ∈ py!"iIcCld" := by decide
      exact this _ hs h.2
  | identifier h1 h2 h3 h4 => exact .inr (.inl ⟨h1, h2, .inr (.inr ⟨rfl, h3, h4⟩)⟩)
  | integer h1 h2 =>
    cases w with
    | nil => exact absurd rfl h1
    | cons a v => exact .inr (.inr (.inl ⟨rfl, a, v, rfl, by simp at h2; exact h2.1⟩))
  | literal h => exact .inr (.inr (.inr ⟨rfl, _, _, h.eq, h.quote⟩))

theorem TokenText.ne_nil {ty : TokType} {w : PyStr} (h : TokenText ty w) : w ≠ [] := by
  rcases h.class with ⟨-, a, v, rfl, -⟩ | ⟨h, -⟩ | ⟨-, a, v, rfl, -⟩ | ⟨-, a, v, rfl, -⟩
  · simp
  · obtain ⟨a, v, rfl, -⟩ := h.head; simp
  · simp
  · simp

theorem TokenText.type_unique {ty ty' : TokType} {w : PyStr} (h : TokenText ty w) (h' : TokenText ty' w) : ty = ty' := by
  have hfix : ∀ p ∈ fixedTokens, ∀ p' ∈ fixedTokens, p.2 = p'.2 → p.1 = p'.1 := by decide
  have hf : ∀ {ty : TokType} {a : Nat} {v : PyStr}, (ty, a :: v) ∈ fixedTokens → isDigit a = false ∧ a ≠ 34 ∧ a ≠ 39 ∧
      (IsName (a :: v) → a :: v = py!"within") := by
    have : ∀ p ∈ fixedTokens, ∀ a v, p.2 = a :: v → isDigit a = false ∧ a ≠ 34 ∧ a ≠ 39 ∧ (isLetter a = true → a :: v = py!"within") := by
      intro p hp a v e
      simp only [fixedTokens, List.mem_cons, List.not_mem_nil, or_false] at hp
      rcases hp with rfl | rfl | rfl | rfl | rfl | rfl | rfl | rfl | rfl | rfl | rfl | rfl | rfl | rfl | rfl | rfl | rfl | rfl <;>
        simp at e <;> obtain ⟨rfl, rfl⟩ := e <;> decide
    intro ty a v hm
    obtain ⟨h1, h2, h3, h4⟩ := this _ hm a v rfl
    refine ⟨h1, h2, h3, fun hn => ?_⟩
    obtain ⟨b, x, e, hb⟩ := hn.head
    simp only [List.cons.injEq] at e
    exact h4 (e.1 ▸ hb)
  have key : ∀ {ty ty' : TokType} {w : PyStr}, TokenText ty w → TokenText ty' w → (ty, w) ∈ fixedTokens → ty = ty' := by
    intro ty ty' w h h' hm
    rcases h'.class with ⟨hm', -⟩ | ⟨h1, h2, -⟩ | ⟨-, a, v, rfl, h1⟩ | ⟨-, a, v, rfl, h1⟩
    · exact hfix _ hm _ hm' rfl
    · obtain ⟨a, v, rfl, ha⟩ := h1.head
      exact absurd ((hf hm).2.2.2 h1) h2
    · rw [(hf hm).1] at h1; cases h1
    · have := hf hm; omega
  have nm : ∀ {a : Nat} {v : PyStr}, IsName (a :: v) → isDigit a = false ∧ a ≠ 34 ∧ a ≠ 39 := by
    intro a v hn
    obtain ⟨b, x, e, hb⟩ := hn.head
    simp only [List.cons.injEq] at e
    obtain ⟨rfl, -⟩ := e
    have := isLetter_ne hb
    exact ⟨this.2.1, this.2.2.1, this.2.2.2.1⟩
  rcases h.class with ⟨hm, -⟩ | ⟨h1, h2, h3⟩ | ⟨rfl, a, v, rfl, h1⟩ | ⟨rfl, a, v, rfl, h1⟩
  · exact key h h' hm
  · rcases h'.class with ⟨hm', -⟩ | ⟨h1', h2', h3'⟩ | ⟨-, a, v, rfl, h1'⟩ | ⟨-, a, v, rfl, h1'⟩
    · exact (key h' h hm').symm
    · rcases h3 with ⟨rfl, h4⟩ | ⟨rfl, h4, h5⟩ | ⟨rfl, h4, h5⟩ <;>
        rcases h3' with ⟨rfl, h4'⟩ | ⟨rfl, h4', h5'⟩ | ⟨rfl, h4', h5'⟩ <;> first | rfl | contradiction
    · rw [(nm h1).1] at h1'; cases h1'
    · have := nm h1; omega
  · rcases h'.class with ⟨hm', -⟩ | ⟨h1', -⟩ | ⟨rfl, -⟩ | ⟨rfl, b, x, e, h1'⟩
    · exact (key h' h hm').symm
    · rw [(nm h1').1] at h1; cases h1
    · rfl
    · simp only [List.cons.injEq] at e
      have := isDigit_ne h1; omega
  · rcases h'.class with ⟨hm', -⟩ | ⟨h1', -⟩ | ⟨rfl, b, x, e, h1'⟩ | ⟨rfl, -⟩
    · exact (key h' h hm').symm
    · have := nm h1'; omega
    · simp only [List.cons.injEq] at e
      have := isDigit_ne h1'; omega
    · rfl

theorem someRule_firstRule {w : PyStr} : ∀ {rs : List (TokType × Rx)}, SomeRule rs w → ∃ t, FirstRule rs t w
  | [], ⟨_, h, _⟩ => absurd h (by simp)
  | (t, r) :: rs, ⟨p, hp, hm⟩ => by
    by_cases h : Matches r w
    · exact ⟨t, .here h⟩
    · rcases List.mem_cons.1 hp with rfl | hp
      · exact absurd hm h
      · obtain ⟨t', ht⟩ := someRule_firstRule ⟨p, hp, hm⟩
        exact ⟨t', .there h ht⟩

theorem TokenText.someRule {ty : TokType} {w : PyStr} (h : TokenText ty w) : SomeRule lexRules w := by
  cases h with
  | @fixed ty w hf =>
    have : ∀ p ∈ fixedTokens, (p.1, Rx.str p.2) ∈ lexRules := by decide
    exact ⟨_, this _ hf, (matches_str _).2 rfl⟩
  | scope h => exact ⟨(.SIMPLE_WITHIN_SCOPE, rxScope), by simp [lexRules], matches_scope.2 h⟩
  | flags h => exact ⟨(.REGEXP_FLAGS, rxFlags), by simp [lexRules], matches_flags.2 h⟩
  | identifier h => exact ⟨(.IDENTIFIER, rxIdentifier), by simp [lexRules], matches_identifier.2 h⟩
  | integer h1 h2 => exact ⟨(.INTEGER, rxInteger), by simp [lexRules], matches_integer.2 ⟨h1, h2⟩⟩
  | literal h => exact ⟨(.REGEXP, rxQuoted), by simp [lexRules], matches_quoted.2 ⟨_, _, h⟩⟩

theorem TokenText.first {ty : TokType} {w : PyStr} (h : TokenText ty w) : FirstRule lexRules ty w := by
  obtain ⟨t, ht⟩ := someRule_firstRule h.someRule
  rcases tokenText_of_first ht with h' | ⟨-, c, rfl, hc⟩
  · rwa [h.type_unique h']
  · exfalso
    have hf : ∀ a, a ∈ py!"()[]|&!/{}+*?,=:" → isWs a = false := by decide
    rcases h.class with ⟨-, a, v, e, h1 | h1⟩ | ⟨h1, -⟩ | ⟨-, a, v, e, h1⟩ | ⟨-, a, v, e, h1⟩
    · simp only [List.cons.injEq] at e; rw [← e.1] at h1; rw [hf _ h1] at hc; cases hc
    · simp at h1
    · obtain ⟨a, v, e, ha⟩ := h1.head
      simp only [List.cons.injEq] at e; rw [← e.1] at ha; rw [(isLetter_ne ha).2.2.2.2] at hc; cases hc
    · simp only [List.cons.injEq] at e; rw [← e.1] at h1; rw [(isDigit_ne h1).2.2.2] at hc; cases hc
    · simp only [List.cons.injEq] at e; rw [← e.1] at h1
      rcases h1 with rfl | rfl <;> revert hc <;> decide

/-- The types of tokens. -/
theorem TokenText.ne_space {w : PyStr} : ¬ TokenText .Space w := by
  intro h
  cases h with
  | fixed h => simp [fixedTokens] at h

/-! ### Layout -/

theorem longest_token {ty : TokType} {w rest : PyStr} (h : TokenText ty w) (hr : ∀ c, rest.head? = some c → ¬ Sticks ty c) :
    LongestMatch (w ++ rest) ty w := by
  refine ⟨h.ne_nil, ⟨rest, rfl⟩, h.first, ?_⟩
  intro w' hw' hlt
  obtain ⟨x, hx⟩ := hw'
  obtain ⟨u, rfl⟩ : w <+: w' := by
    refine List.prefix_of_prefix_length_le (l₃ := w ++ rest) ⟨rest, rfl⟩ ⟨x, hx⟩ (by omega)
  cases u with
  | nil => simp at hlt
  | cons c u =>
    have : rest = c :: (u ++ x) := by
      rw [List.append_assoc] at hx
      exact (List.append_cancel_left hx).symm
    exact token_longest h (hr c (by rw [this]; rfl)) u

theorem longest_ws {c : Nat} {rest : PyStr} (h : isWs c = true) : LongestMatch (c :: rest) .Space [c] := by
  have hns : c ∉ py!"()[]|&!/{}+*?,=:" ∧ isLetter c = false ∧ isDigit c = false ∧ c ≠ 34 ∧ c ≠ 39 := by
    simp only [isWs_eq, wsRanges, inRanges, Bool.or_false, Bool.or_eq_true, Bool.and_eq_true, decide_eq_true_eq] at h
    refine ⟨by simp; omega, by simp [isLetter]; omega, by simp [isDigit]; omega, by omega, by omega⟩
  refine ⟨by simp, ⟨rest, rfl⟩, ?_, ?_⟩
  · obtain ⟨t, ht⟩ := someRule_firstRule (rs := lexRules) (w := [c]) ⟨(.Space, .cls wsRanges), by simp [lexRules], .cls ((isWs_eq c).symm.trans h)⟩
    rcases tokenText_of_first ht with h' | ⟨rfl, -⟩
    · exfalso
      rcases h'.class with ⟨-, a, v, e, h1 | h1⟩ | ⟨h1, -⟩ | ⟨-, a, v, e, h1⟩ | ⟨-, a, v, e, h1⟩
      · simp only [List.cons.injEq] at e; rw [← e.1] at h1; exact hns.1 h1
      · simp at h1
      · obtain ⟨a, v, e, ha⟩ := h1.head
        simp only [List.cons.injEq] at e; rw [← e.1] at ha; rw [hns.2.1] at ha; cases ha
      · simp only [List.cons.injEq] at e; rw [← e.1] at h1; rw [hns.2.2.1] at h1; cases h1
      · simp only [List.cons.injEq] at e; omega
    · exact ht
  · intro w' hw' hlt hs
    obtain ⟨a, v, rfl, hcase⟩ := (someRule_text hs).head
    have : a = c := by
      obtain ⟨x, hx⟩ := hw'
      simp only [List.cons_append, List.cons.injEq] at hx
      exact hx.1
    subst this
    rcases hcase with ⟨rfl, -⟩ | ⟨rfl, -⟩ | ⟨h1, -⟩ | ⟨h1, -⟩ | ⟨h1, -⟩
    · simp at hlt
    · simp at hns
    · rw [hns.2.1] at h1; cases h1
    · rw [hns.2.2.1] at h1; cases h1
    · omega

/-- Kinds and texts of the tokens of pieces. -/
def toksOf (ps : List Piece) : List (TokType × PyStr) := (ps.filterMap Piece.tok?).map Tok.what

theorem splits_ws {ws rest : PyStr} (h : ∀ c ∈ ws, isWs c = true)
    {ts : List (TokType × PyStr)} (hr : ∀ pos col, ∃ ps, Splits rest pos col ps ∧ (∀ p ∈ ps, p.kind ≠ .err) ∧ toksOf ps = ts) :
    ∀ pos col, ∃ ps, Splits (ws ++ rest) pos col ps ∧ (∀ p ∈ ps, p.kind ≠ .err) ∧ toksOf ps = ts := by
  induction ws with
  | nil => exact hr
  | cons c ws ih =>
    intro pos col
    obtain ⟨ps, h1, h2, h3⟩ := ih (fun d hd => h d (by simp [hd])) (pos + 1) (advanceColumn col [c])
    refine ⟨_, .token (w := [c]) (t := .Space) (longest_ws (h c (by simp))) h1, ?_, ?_⟩
    · intro p hp
      rcases List.mem_cons.1 hp with rfl | hp
      · exact kindOf_err (t := .Space)
      · exact h2 p hp
    · rw [← h3]; rfl

/-- Laid-out tokens are what the lexer finds. -/
theorem Laid.splits {ts : List (TokType × PyStr)} {q : PyStr} (h : Laid ts q) :
    ∀ pos col, ∃ ps, Splits q pos col ps ∧ (∀ p ∈ ps, p.kind ≠ .err) ∧ toksOf ps = ts := by
  induction h with
  | @nil ws h =>
    have := splits_ws (rest := []) (ts := []) h fun pos col => ⟨[], .nil, by simp, rfl⟩
    simpa using this
  | @cons ws w rest ty ts h1 h2 h3 h4 ih =>
    refine splits_ws h1 fun pos col => ?_
    obtain ⟨ps, e1, e2, e3⟩ := ih (pos + w.length) (advanceColumn col w)
    refine ⟨_, .token (longest_token h2 h4) e1, ?_, ?_⟩
    · intro p hp
      rcases List.mem_cons.1 hp with rfl | hp
      · exact kindOf_err
      · exact e2 p hp
    · have hne : ty ≠ .Space := by rintro rfl; exact TokenText.ne_space h2
      have : kindOf ty = .tok ty := by simp [kindOf, hne]
      simp only [toksOf, List.filterMap_cons, this, Piece.tok?, List.map_cons, Tok.what]
      rw [← e3]; rfl

theorem Laid.ws {ts : List (TokType × PyStr)} {q : PyStr} {c : Nat} (hc : isWs c = true) (h : Laid ts q) : Laid ts (c :: q) := by
  cases h with
  | nil h =>
    refine .nil ?_
    intro d hd
    rcases List.mem_cons.1 hd with rfl | hd
    · exact hc
    · exact h d hd
  | @cons ws w rest ty ts h1 h2 h3 h4 =>
    refine .cons (ws := c :: ws) ?_ h2 h3 h4
    intro d hd
    rcases List.mem_cons.1 hd with rfl | hd
    · exact hc
    · exact h1 d hd

/-- What the lexer finds without error is laid out so. -/
theorem laid_of_splits {q : PyStr} {pos col : Nat} {ps : List Piece} (h : Splits q pos col ps) (hk : ∀ p ∈ ps, p.kind ≠ .err) :
    Laid (toksOf ps) q := by
  induction h with
  | nil => exact .nil (by simp)
  | @token w rest pos col t ps hm hs ih =>
    have ih := ih fun p hp => hk p (List.mem_cons_of_mem _ hp)
    rcases tokenText_of_first hm.first with ht | ⟨rfl, c, rfl, hc⟩
    · have hne : t ≠ .Space := by rintro rfl; exact TokenText.ne_space ht
      have e : kindOf t = .tok t := by simp [kindOf, hne]
      have : toksOf ({ kind := kindOf t, text := w, start := pos, column := col } :: ps) = (t, w) :: toksOf ps := by
        simp only [toksOf, List.filterMap_cons, e, Piece.tok?, List.map_cons, Tok.what]
      rw [this]
      refine Laid.cons (ws := []) (by simp) ht ih ?_
      intro c hc hst
      obtain ⟨rest', rfl⟩ : ∃ r, rest = c :: r := by
        cases rest with
        | nil => cases hc
        | cons d r => simp only [List.head?_cons, Option.some.injEq] at hc; exact ⟨r, by rw [hc]⟩
      have longer : SomeRule lexRules (w ++ [c]) → False := fun hs =>
        hm.longest (w ++ [c]) ⟨rest', by simp⟩ (by simp) hs
      have word : IsName w → (isAlnum c = true ∨ c = 45) → False := by
        rintro hn (ha | rfl)
        · exact longer ⟨(.IDENTIFIER, rxIdentifier), by simp [lexRules], matches_identifier.2 (hn.snoc ha)⟩
        · generalize hg : 45 :: rest' = r at hs
          cases hs with
          | nil => cases hg
          | @token w' r' _ _ t' ps' hm' hs' =>
            obtain ⟨a, v, rfl, hcase⟩ := (someRule_text (hm'.first.someRule)).head
            simp only [List.cons_append, List.cons.injEq] at hg
            obtain ⟨rfl, -⟩ := hg
            revert hcase
            simp [isLetter, isDigit, isWs_eq, wsRanges, inRanges]
          | error hm' hs' => exact hk _ (List.mem_cons_of_mem _ List.mem_cons_self) rfl
      rcases ht.class with ⟨hf, -⟩ | ⟨h1, h2, ⟨rfl, -⟩ | ⟨rfl, -⟩ | ⟨rfl, -⟩⟩ | ⟨rfl, -⟩ | ⟨rfl, -⟩
      · cases t <;> simp only [Sticks] at hst
        case NOT =>
          have : w = py!"!" := by simpa [fixedTokens] using hf
          subst this; subst hst
          exact longer (TokenText.fixed (ty := .OPERATOR_NE) (by simp [fixedTokens])).someRule
        case WITHIN =>
          have : w = py!"within" := by simpa [fixedTokens] using hf
          subst this
          exact word isName_within hst
        all_goals simp [fixedTokens] at hf
      · exact word h1 hst
      · exact word h1 hst
      · exact word h1 hst
      · cases ht with
        | fixed hf => simp [fixedTokens] at hf
        | integer h1 h2 => exact longer (TokenText.integer (by simp) (by rw [List.all_append, h2]; simpa using (show isDigit c = true from hst))).someRule
      · exact hst
    · exact Laid.ws hc ih
  | error hm hs ih => exact absurd rfl (hk _ List.mem_cons_self)

/-- **Layout theorem.** A query lexes without error to the given tokens exactly if it is laid out so. -/
theorem laid_iff (ts : List (TokType × PyStr)) (q : PyStr) :
    Laid ts q ↔ lexErrors q = [] ∧ (lexTokens q).map Tok.what = ts := by
  constructor
  · intro h
    obtain ⟨ps, h1, h2, h3⟩ := h.splits 0 0
    rw [← lexPieces_iff] at h1
    subst h1
    refine ⟨?_, h3⟩
    simp only [lexErrors, List.filter_eq_nil_iff, decide_eq_true_eq]
    exact h2
  · rintro ⟨h1, rfl⟩
    refine laid_of_splits (lexPieces_splits q) ?_
    simpa only [lexErrors, List.filter_eq_nil_iff, decide_eq_true_eq] using h1

end Fcsql
