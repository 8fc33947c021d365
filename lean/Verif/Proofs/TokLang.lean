/-
The languages of the lexer rules, in elementary terms.
-/
import Verif.Proofs.Literal

set_option autoImplicit false
set_option linter.unusedSimpArgs false

namespace Fcsql

theorem matches_chr {c : Nat} {w : PyStr} : Matches (Rx.chr c) w ↔ w = [c] := by
  rw [Rx.chr, matches_cls]
  constructor
  · rintro ⟨d, rfl, h⟩
    simp [inRanges] at h
    simp; omega
  · rintro rfl
    exact ⟨c, rfl, by simp [inRanges]⟩

theorem matches_str : ∀ (s : PyStr) {w : PyStr}, Matches (Rx.str s) w ↔ w = s
  | [], w => by rw [Rx.str, matches_eps]
  | [c], w => by rw [Rx.str, matches_chr]
  | c :: d :: s, w => by
    rw [Rx.str, matches_seq]
    · constructor
      · rintro ⟨u, v, rfl, hu, hv⟩
        rw [matches_chr.1 hu, (matches_str (d :: s)).1 hv]
        rfl
      · rintro rfl
        exact ⟨[c], d :: s, rfl, matches_chr.2 rfl, (matches_str _).2 rfl⟩
    · simp

theorem matches_opt {r : Rx} {w : PyStr} : Matches (Rx.opt r) w ↔ Matches r w ∨ w = [] := by
  rw [Rx.opt, matches_alt, matches_eps]

/-- `[...]*` -/
theorem matches_star_cls {rs : List (Nat × Nat)} {w : PyStr} :
    Matches (.star (.cls rs)) w ↔ ∀ c ∈ w, inRanges c rs = true := by
  induction w with
  | nil => simp [Matches.starNil]
  | cons c w ih =>
    constructor
    · intro h
      obtain ⟨u, v, h1, h2, h3⟩ := matches_star_cons h
      obtain ⟨d, h4, h5⟩ := matches_cls.1 h2
      simp only [List.cons.injEq] at h4
      obtain ⟨rfl, rfl⟩ := h4
      simp only [List.nil_append] at h1
      subst h1
      intro x hx
      rcases List.mem_cons.1 hx with rfl | hx
      · exact h5
      · exact ih.1 h3 x hx
    · intro h
      exact Matches.starCons (u := [c]) (.cls (h c (by simp))) (ih.2 fun x hx => h x (by simp [hx]))

/-- `[...]+` -/
theorem matches_plus_cls {rs : List (Nat × Nat)} {w : PyStr} :
    Matches (Rx.plus (.cls rs)) w ↔ w ≠ [] ∧ ∀ c ∈ w, inRanges c rs = true := by
  rw [Rx.plus, matches_seq]
  constructor
  · rintro ⟨u, v, rfl, h1, h2⟩
    obtain ⟨c, rfl, h3⟩ := matches_cls.1 h1
    refine ⟨by simp, ?_⟩
    intro x hx
    rcases List.mem_cons.1 hx with rfl | hx
    · exact h3
    · exact matches_star_cls.1 h2 x hx
  · rintro ⟨h1, h2⟩
    cases w with
    | nil => exact absurd rfl h1
    | cons c w =>
      exact ⟨[c], w, rfl, .cls (h2 c (by simp)), matches_star_cls.2 fun x hx => h2 x (by simp [hx])⟩

theorem matches_integer {w : PyStr} :
    Matches rxInteger w ↔ w ≠ [] ∧ w.all isDigit = true := by
  rw [rxInteger, matches_plus_cls]
  simp [inRanges, isDigit]

theorem matches_flags {w : PyStr} :
    Matches rxFlags w ↔ w ≠ [] ∧ ∀ c ∈ w, c ∈ py!"iIcCld" := by
  rw [rxFlags, matches_plus_cls]
  refine and_congr_right fun _ => forall_congr' fun c => imp_congr_right fun _ => ?_
  simp [inRanges]
  omega

theorem matches_scope {w : PyStr} :
    Matches rxScope w ↔ ∃ s, (w, s) ∈ scopeWords := by
  simp only [rxScope, Rx.alts, matches_alt, matches_str]
  simp only [scopeWords, List.mem_cons, Prod.mk.injEq, List.not_mem_nil, or_false, exists_or, exists_and_left,
    exists_eq, and_true]

theorem inRanges_first {c : Nat} : inRanges c [(97, 122), (65, 90)] = isLetter c := by
  simp [inRanges, isLetter]

theorem inRanges_last {c : Nat} : inRanges c [(97, 122), (65, 90), (48, 57)] = isAlnum c := by
  simp [inRanges, isAlnum, isLetter, isDigit, Bool.or_assoc]

theorem inRanges_char {c : Nat} :
    inRanges c [(97, 122), (65, 90), (48, 57), (45, 45)] = true ↔ isAlnum c = true ∨ c = 45 := by
  simp [inRanges, isAlnum, isLetter, isDigit]
  omega

theorem matches_identifier {w : PyStr} : Matches rxIdentifier w ↔ IsName w := by
  rw [rxIdentifier, matches_seq]
  constructor
  · rintro ⟨u, v, rfl, h1, h2⟩
    obtain ⟨a, rfl, ha⟩ := matches_cls.1 h1
    rw [inRanges_first] at ha
    rcases matches_opt.1 h2 with h | rfl
    · obtain ⟨m, z, rfl, hm, hz⟩ := matches_seq.1 h
      obtain ⟨z, rfl, hz'⟩ := matches_cls.1 hz
      rw [inRanges_last] at hz'
      exact .inr ⟨a, m, z, rfl, ha, fun c hc => inRanges_char.1 (matches_star_cls.1 hm c hc), hz'⟩
    · exact .inl ⟨a, rfl, ha⟩
  · rintro (⟨c, rfl, hc⟩ | ⟨a, m, z, rfl, ha, hm, hz⟩)
    · exact ⟨[c], [], rfl, .cls (by rw [inRanges_first]; exact hc), matches_opt.2 (.inr rfl)⟩
    · refine ⟨[a], m ++ [z], rfl, .cls (by rw [inRanges_first]; exact ha), matches_opt.2 (.inl ?_)⟩
      exact .seq (matches_star_cls.2 fun c hc => inRanges_char.2 (hm c hc))
        (.cls (by rw [inRanges_last]; exact hz))

theorem matches_hex {w : PyStr} : Matches rxHex w ↔ ∃ c, w = [c] ∧ isHexDigit c = true := by
  rw [rxHex, matches_cls]
  refine exists_congr fun c => and_congr_right fun _ => ?_
  simp [inRanges, isHexDigit, Bool.or_assoc]

/-- `r` matches exactly the strings of `n` hexadecimal digits. -/
theorem matches_hex_cons {r : Rx} {n : Nat}
    (hr : ∀ w, Matches r w ↔ w.length = n ∧ w.all isHexDigit = true) (w : PyStr) :
    Matches (.seq rxHex r) w ↔ w.length = n + 1 ∧ w.all isHexDigit = true := by
  rw [matches_seq]
  constructor
  · rintro ⟨u, v, rfl, h1, h2⟩
    obtain ⟨c, rfl, hc⟩ := matches_hex.1 h1
    obtain ⟨h3, h4⟩ := (hr v).1 h2
    exact ⟨by simp [h3], by simp [hc, h4]⟩
  · rintro ⟨h1, h2⟩
    cases w with
    | nil => simp at h1
    | cons c w =>
      simp only [List.all_cons, Bool.and_eq_true] at h2
      exact ⟨[c], w, rfl, matches_hex.2 ⟨c, rfl, h2.1⟩, (hr w).2 ⟨by simpa using h1, h2.2⟩⟩

theorem matches_hex1 (w : PyStr) : Matches rxHex w ↔ w.length = 1 ∧ w.all isHexDigit = true := by
  rw [matches_hex]
  constructor
  · rintro ⟨c, rfl, h⟩; simp [h]
  · rintro ⟨h1, h2⟩
    obtain ⟨c, rfl⟩ := List.length_eq_one_iff.1 h1
    exact ⟨c, rfl, by simpa using h2⟩

theorem inRanges_escapeSingles {c : Nat} : inRanges c escapeSingles = true ↔ c ∈ escapeChars := by
  simp [inRanges, escapeSingles, escapeChars]
  omega

theorem matches_escaped {q : Nat} {w : PyStr} :
    Matches rxEscaped w ↔ ∃ p : LitPiece, p.WF q ∧ (∀ c, p ≠ .plain c) ∧ w = p.text := by
  rw [rxEscaped, matches_seq]
  simp only [Rx.alts, matches_alt, matches_chr]
  have h2 := matches_hex_cons matches_hex1
  have h4 := matches_hex_cons (matches_hex_cons h2)
  have h8 := matches_hex_cons (matches_hex_cons (matches_hex_cons (matches_hex_cons h4)))
  constructor
  · rintro ⟨u, v, rfl, rfl, h | h | h | h⟩
    · obtain ⟨c, rfl, h'⟩ := matches_cls.1 h
      exact ⟨.esc c, inRanges_escapeSingles.1 h', by simp, rfl⟩
    · obtain ⟨x, ds, rfl, hx, h⟩ := matches_seq.1 h
      rw [matches_chr.1 hx]
      obtain ⟨h5, h6⟩ := (h2 ds).1 h
      exact ⟨.hex 120 ds, ⟨.inl ⟨rfl, h5⟩, h6⟩, by simp, rfl⟩
    · obtain ⟨x, ds, rfl, hx, h⟩ := matches_seq.1 h
      rw [matches_chr.1 hx]
      obtain ⟨h5, h6⟩ := (h4 ds).1 h
      exact ⟨.hex 117 ds, ⟨.inr (.inl ⟨rfl, h5⟩), h6⟩, by simp, rfl⟩
    · obtain ⟨x, ds, rfl, hx, h⟩ := matches_seq.1 h
      rw [matches_chr.1 hx]
      obtain ⟨h5, h6⟩ := (h8 ds).1 h
      exact ⟨.hex 85 ds, ⟨.inr (.inr ⟨rfl, h5⟩), h6⟩, by simp, rfl⟩
  · rintro ⟨p, hp, hne, rfl⟩
    cases p with
    | plain c => exact absurd rfl (hne c)
    | esc c => exact ⟨[92], [c], rfl, rfl, .inl (.cls (inRanges_escapeSingles.2 hp))⟩
    | hex l ds =>
      refine ⟨[92], l :: ds, rfl, rfl, ?_⟩
      obtain ⟨⟨rfl, h⟩ | ⟨rfl, h⟩ | ⟨rfl, h⟩, hd⟩ := hp
      · exact .inr (.inl (.seq (u := [120]) (matches_chr.2 rfl) ((h2 ds).2 ⟨h, hd⟩)))
      · exact .inr (.inr (.inl (.seq (u := [117]) (matches_chr.2 rfl) ((h4 ds).2 ⟨h, hd⟩))))
      · exact .inr (.inr (.inr (.seq (u := [85]) (matches_chr.2 rfl) ((h8 ds).2 ⟨h, hd⟩))))

theorem inRanges_quote {q c : Nat} : inRanges c [(q, q), (92, 92)] = false ↔ c ≠ q ∧ c ≠ 92 := by
  simp [inRanges]
  omega

theorem matches_litPiece {q : Nat} {w : PyStr} :
    Matches (.alt rxEscaped (.neg [(q, q), (92, 92)])) w ↔ ∃ p : LitPiece, p.WF q ∧ w = p.text := by
  rw [matches_alt, matches_escaped (q := q), matches_neg]
  constructor
  · rintro (⟨p, h1, _, h2⟩ | ⟨c, rfl, h1, h2⟩)
    · exact ⟨p, h1, h2⟩
    · exact ⟨.plain c, ⟨h1, inRanges_quote.1 h2⟩, rfl⟩
  · rintro ⟨p, hp, rfl⟩
    cases p with
    | plain c => exact .inr ⟨c, rfl, hp.1, inRanges_quote.2 hp.2⟩
    | esc c => exact .inl ⟨_, hp, by simp, rfl⟩
    | hex l ds => exact .inl ⟨_, hp, by simp, rfl⟩

theorem matches_star_iff {r : Rx} {w : PyStr} :
    Matches (.star r) w ↔ ∃ ws : List PyStr, (∀ x ∈ ws, Matches r x) ∧ w = ws.flatten := by
  constructor
  · intro h
    generalize hr : Rx.star r = s at h
    induction h with
    | eps | cls | neg | seq | altL | altR => cases hr
    | starNil => exact ⟨[], by simp, rfl⟩
    | starCons h1 _ _ ih =>
      cases hr
      obtain ⟨ws, h2, h3⟩ := ih rfl
      exact ⟨_ :: ws, by simpa using ⟨h1, h2⟩, by simp [h3]⟩
  · rintro ⟨ws, h, rfl⟩
    induction ws with
    | nil => exact .starNil
    | cons x ws ih => exact .starCons (h x (by simp)) (ih fun y hy => h y (by simp [hy]))

theorem matches_pieces {q : Nat} {w : PyStr} :
    Matches (.star (.alt rxEscaped (.neg [(q, q), (92, 92)]))) w ↔
      ∃ ps : List LitPiece, (∀ p ∈ ps, p.WF q) ∧ w = ps.flatMap LitPiece.text := by
  rw [matches_star_iff]
  constructor
  · rintro ⟨ws, h, rfl⟩
    induction ws with
    | nil => exact ⟨[], by simp, rfl⟩
    | cons x ws ih =>
      obtain ⟨ps, h1, h2⟩ := ih fun y hy => h y (by simp [hy])
      obtain ⟨p, hp, rfl⟩ := matches_litPiece.1 (h x (by simp))
      exact ⟨p :: ps, by simpa using ⟨hp, h1⟩, by simp [h2]⟩
  · rintro ⟨ps, h, rfl⟩
    exact ⟨ps.map LitPiece.text, by
      intro x hx
      obtain ⟨p, hp, rfl⟩ := List.mem_map.1 hx
      exact matches_litPiece.2 ⟨p, h p hp, rfl⟩, by simp [List.flatMap_def]⟩

theorem matches_quotedWith {q : Nat} {w : PyStr} :
    Matches (rxQuotedWith q) w ↔ ∃ ps, (∀ p ∈ ps, LitPiece.WF q p) ∧ w = litText q ps := by
  rw [rxQuotedWith, matches_seq]
  constructor
  · rintro ⟨u, v, rfl, h1, h2⟩
    rw [matches_chr.1 h1]
    obtain ⟨m, z, rfl, h3, h4⟩ := matches_seq.1 h2
    rw [matches_chr.1 h4]
    obtain ⟨ps, h5, rfl⟩ := matches_pieces.1 h3
    exact ⟨ps, h5, rfl⟩
  · rintro ⟨ps, h, rfl⟩
    exact ⟨[q], _, rfl, matches_chr.2 rfl, .seq (matches_pieces.2 ⟨ps, h, rfl⟩) (matches_chr.2 rfl)⟩

/-- The literals of the lexer are the quoted lists of pieces. -/
theorem matches_quoted {w : PyStr} : Matches rxQuoted w ↔ ∃ q ps, IsLit w q ps := by
  rw [rxQuoted, matches_alt, matches_quotedWith, matches_quotedWith]
  constructor
  · rintro (⟨ps, h, rfl⟩ | ⟨ps, h, rfl⟩)
    · exact ⟨39, ps, .inr rfl, h, rfl⟩
    · exact ⟨34, ps, .inl rfl, h, rfl⟩
  · rintro ⟨q, ps, rfl | rfl, h, rfl⟩
    · exact .inr ⟨ps, h, rfl⟩
    · exact .inl ⟨ps, h, rfl⟩

/-! ### Consequences for tokens -/

theorem lexed_of_rule {t : Tok} (h : t.Lexed) (he : t.type ≠ .EOF) :
    ∃ r, (t.type, r) ∈ lexRules ∧ Matches r t.text := h.resolve_left he

/-- The expression of a rule (the types of `lexRules` are distinct). -/
theorem lexed_rx {t : Tok} (h : t.Lexed) {ty : TokType} {r : Rx} (hty : t.type = ty)
    (hr : ∀ r', (ty, r') ∈ lexRules → r' = r) (he : ty ≠ .EOF) : Matches r t.text := by
  obtain ⟨r', h1, h2⟩ := lexed_of_rule h (by rw [hty]; exact he)
  rw [hty] at h1
  rwa [hr r' h1] at h2

theorem lexed_regexp {t : Tok} (h : t.Lexed) (hty : t.type = .REGEXP) : ∃ q ps, IsLit t.text q ps :=
  matches_quoted.1 (lexed_rx h hty (by simp [lexRules]) (by simp))

theorem lexed_integer {t : Tok} (h : t.Lexed) (hty : t.type = .INTEGER) :
    t.text ≠ [] ∧ t.text.all isDigit = true :=
  matches_integer.1 (lexed_rx h hty (by simp [lexRules]) (by simp))

theorem lexed_flags {t : Tok} (h : t.Lexed) (hty : t.type = .REGEXP_FLAGS) :
    t.text ≠ [] ∧ ∀ c ∈ t.text, c ∈ py!"iIcCld" :=
  matches_flags.1 (lexed_rx h hty (by simp [lexRules]) (by simp))

theorem lexed_scope {t : Tok} (h : t.Lexed) (hty : t.type = .SIMPLE_WITHIN_SCOPE) :
    ∃ s, (t.text, s) ∈ scopeWords :=
  matches_scope.1 (lexed_rx h hty (by simp [lexRules]) (by simp))

theorem lexed_identifier {t : Tok} (h : t.Lexed) (hty : t.type = .IDENTIFIER) : IsName t.text :=
  matches_identifier.1 (lexed_rx h hty (by simp [lexRules]) (by simp))

theorem isName_of_letters {s : PyStr} (hne : s ≠ []) (h : ∀ c ∈ s, isLetter c = true) : IsName s := by
  cases s with
  | nil => exact absurd rfl hne
  | cons a s =>
    rcases List.eq_nil_or_concat s with rfl | ⟨m, z, rfl⟩
    · exact .inl ⟨a, rfl, h a (by simp)⟩
    · refine .inr ⟨a, m, z, by simp, h a (by simp), fun c hc => .inl ?_, ?_⟩
      · simp [isAlnum, h c (by simp [hc])]
      · simp [isAlnum, h z (by simp)]

theorem scopeWords_letters : ∀ p ∈ scopeWords, p.1 ≠ [] ∧ ∀ c ∈ p.1, isLetter c = true := by
  decide

theorem flagLetters : ∀ c ∈ py!"iIcCld", isLetter c = true := by decide

theorem lexed_name {t : Tok} (h : t.Lexed)
    (hty : t.type = .IDENTIFIER ∨ t.type = .WITHIN ∨ t.type = .SIMPLE_WITHIN_SCOPE ∨ t.type = .REGEXP_FLAGS) :
    IsName t.text := by
  rcases hty with hty | hty | hty | hty
  · exact lexed_identifier h hty
  · have := (matches_str _).1 (lexed_rx (r := Rx.str py!"within") h hty (by simp [lexRules]) (by simp))
    rw [this]
    exact isName_of_letters (by simp) (by decide)
  · obtain ⟨s, hs⟩ := lexed_scope h hty
    exact isName_of_letters (scopeWords_letters _ hs).1 (scopeWords_letters _ hs).2
  · obtain ⟨h1, h2⟩ := lexed_flags h hty
    exact isName_of_letters h1 fun c hc => flagLetters c (h2 c hc)

/-- The text of the tokens that have only one. -/
def symText : TokType → Option PyStr
  | .L_PAREN => some py!"("
  | .R_PAREN => some py!")"
  | .L_SQUARE_BRACKET => some py!"["
  | .R_SQUARE_BRACKET => some py!"]"
  | .OR => some py!"|"
  | .AND => some py!"&"
  | .NOT => some py!"!"
  | .FWD_SLASH => some py!"/"
  | .L_CURLY_BRACKET => some py!"{"
  | .R_CURLY_BRACKET => some py!"}"
  | .Q_ONE_OR_MORE => some py!"+"
  | .Q_ZERO_OR_MORE => some py!"*"
  | .Q_ZERO_OR_ONE => some py!"?"
  | .Q_COMMA => some py!","
  | .OPERATOR_EQ => some py!"="
  | .OPERATOR_NE => some py!"!="
  | .COLON => some py!":"
  | .WITHIN => some py!"within"
  | _ => none

theorem lexed_sym {t : Tok} (h : t.Lexed) {ty : TokType} (hty : t.type = ty) {w : PyStr} (hw : symText ty = some w) :
    t.text = w := by
  cases ty <;> simp only [symText, reduceCtorEq, Option.some.injEq] at hw <;> subst hw
  case OPERATOR_NE => exact (matches_str _).1 (lexed_rx h hty (by simp [lexRules]) (by simp))
  case WITHIN => exact (matches_str _).1 (lexed_rx h hty (by simp [lexRules]) (by simp))
  all_goals exact matches_chr.1 (lexed_rx h hty (by simp [lexRules]) (by simp))

/-- The value of a literal is unique. -/
theorem LitValue.unique {text v w : PyStr} (h : LitValue text v) (h' : LitValue text w) : v = w := by
  obtain ⟨q, ps, h1, h2⟩ := h
  obtain ⟨q', ps', h1', h2'⟩ := h'
  let rt : PyRuntime := ⟨fun _ s => s, 0, true, fun _ => none, id⟩
  let cfg : Config := { defaultConfig with normForm := none }
  have e := regexValue_lit rt cfg h1
  rw [regexValue_lit rt cfg h1', (piecesExcept_ok rt ps v).2 h2, (piecesExcept_ok rt ps' w).2 h2'] at e
  simpa [Config.norm, cfg] using e.symm

end Fcsql
