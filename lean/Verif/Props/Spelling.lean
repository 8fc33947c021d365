/-
C71: different spellings of the same query.
-/
import Verif.Proofs.Spelling
import Verif.Props.Layout

set_option autoImplicit false
set_option linter.unusedSimpArgs false

namespace Fcsql

attribute [local irreducible] parseQuery

theorem SameMeaning.symm {rt : PyRuntime} {cfg : Config} {p : Option TokType} {ty : TokType} {w w' : PyStr}
    (h : SameMeaning rt cfg p ty w w') : SameMeaning rt cfg p ty w' w := by
  cases ty <;> simp only [SameMeaning] at h ⊢ <;> first | exact h.symm | exact fun x => (h x).symm | skip
  all_goals
    split at h
    · rename_i e; simp only [e, if_true]; exact fun x => (h x).symm
    · rename_i e; simp only [e, if_false]; exact h.symm

theorem SameMeaning.refl {rt : PyRuntime} {cfg : Config} (p : Option TokType) (ty : TokType) (w : PyStr) :
    SameMeaning rt cfg p ty w w := by
  cases ty <;> simp only [SameMeaning, implies_true, ite_self]

theorem Alike.symm {rt : PyRuntime} {cfg : Config} : ∀ {a b : List (TokType × PyStr)} {p : Option TokType},
    Alike rt cfg p a b → Alike rt cfg p b a
  | [], [], _, _ => trivial
  | [], _ :: _, _, h => h.elim
  | _ :: _, [], _, h => h.elim
  | (ty, w) :: a, (ty', w') :: b, p, h => by
    obtain ⟨rfl, h1, h2⟩ := h
    exact ⟨rfl, h1.symm, h2.symm⟩

theorem Alike.refl {rt : PyRuntime} {cfg : Config} : ∀ (a : List (TokType × PyStr)) (p : Option TokType), Alike rt cfg p a a
  | [], _ => trivial
  | (ty, w) :: a, _ => ⟨rfl, .refl _ _ _, .refl a _⟩

theorem Alike.eof {rt : PyRuntime} {cfg : Config} : ∀ {a b : List (TokType × PyStr)} {p : Option TokType},
    Alike rt cfg p a b → Alike rt cfg p (a ++ [(.EOF, py!"<EOF>")]) (b ++ [(.EOF, py!"<EOF>")])
  | [], [], _, _ => ⟨rfl, trivial, trivial⟩
  | [], _ :: _, _, h => h.elim
  | _ :: _, [], _, h => h.elim
  | (ty, w) :: a, (ty', w') :: b, p, h => ⟨h.1, h.2.1, h.2.2.eof⟩

theorem bareStream_lexed (q : PyStr) : ∀ t ∈ bareStream q, t.Lexed := by
  intro t ht
  obtain ⟨x, hx, rfl⟩ := List.mem_map.1 ht
  rcases tokenStream_lexed q x hx with h | h
  · exact .inl h
  · exact .inr h

theorem bareStream_what (q : PyStr) : (bareStream q).map Tok.what = (lexTokens q).map Tok.what ++ [(.EOF, py!"<EOF>")] := by
  rw [bareStream_eq, List.map_append, List.map_map]
  simp only [List.map_cons, List.map_nil]
  congr 1
  exact List.map_id' _

/-- **C71.** If two queries consist of tokens of the same types that mean the same, then (without source locations) they
parse to the same tree or both fail. -/
theorem C71_same_meaning (rt : Runtime) (cfg : Config) (hc : cfg.enableSourceLocations = false)
    (ts ts' : List (TokType × PyStr)) (q q' : PyStr) (h : Laid ts q) (h' : Laid ts' q') (ha : Alike rt.toPyRuntime cfg none ts ts') (n : Node) :
    (parseQuery rt cfg q).1 = .ok n ↔ (parseQuery rt cfg q').1 = .ok n := by
  obtain ⟨h1, h2⟩ := (laid_iff ts q).1 h
  obtain ⟨h1', h2'⟩ := (laid_iff ts' q').1 h'
  rw [parse_ok_bare rt hc, parse_ok_bare rt hc]
  have e : Alike rt.toPyRuntime cfg none ((bareStream q).map Tok.what) ((bareStream q').map Tok.what) := by
    rw [bareStream_what, bareStream_what, h2, h2']
    exact ha.eof
  simp only [h1, h1', true_and]
  exact ⟨bare_alike hc (bareStream_lexed q) e, bare_alike hc (bareStream_lexed q') e.symm⟩

theorem SameMeaning.nolocs {rt : PyRuntime} {cfg : Config} {p : Option TokType} {ty : TokType} {w w' : PyStr} {b : Bool}
    (h : SameMeaning rt cfg p ty w w') : SameMeaning rt { cfg with enableSourceLocations := b } p ty w w' := by
  cases ty <;> exact h

theorem Alike.nolocs {rt : PyRuntime} {cfg : Config} {b : Bool} : ∀ {ts ts' : List (TokType × PyStr)} {p : Option TokType},
    Alike rt cfg p ts ts' → Alike rt { cfg with enableSourceLocations := b } p ts ts'
  | [], [], _, _ => trivial
  | [], _ :: _, _, h => h.elim
  | _ :: _, [], _, h => h.elim
  | (_, _) :: _, (_, _) :: _, _, h => ⟨h.1, h.2.1.nolocs, h.2.2.nolocs⟩

/-- **C71.** With any settings: the trees are the same except for source locations. -/
theorem C71_unlocated (rt : Runtime) (cfg : Config)
    (ts ts' : List (TokType × PyStr)) (q q' : PyStr) (h : Laid ts q) (h' : Laid ts' q') (ha : Alike rt.toPyRuntime cfg none ts ts') (n : Node)
    (hn : (parseQuery rt cfg q).1 = .ok n) :
    ∃ n', (parseQuery rt cfg q').1 = .ok n' ∧ n'.unlocated = n.unlocated := by
  obtain ⟨m, h1, h2⟩ := C24_same_tree rt cfg false q n hn
  obtain ⟨m', h3, h4⟩ := C24_same_tree rt { cfg with enableSourceLocations := false } cfg.enableSourceLocations q' m
    ((C71_same_meaning rt _ rfl ts ts' q q' h h' ha.nolocs m).1 h1)
  exact ⟨m', h3, h4.trans h2⟩

/-! ### One token replaced -/

/-- Tokens of the same type begin with characters that stick to the same tokens. -/
theorem sticks_head {ty t0 : TokType} {w w' : PyStr} (h : TokenText ty w) (h' : TokenText ty w') {c c' : Nat}
    (hc : w.head? = some c) (hc' : w'.head? = some c') : Sticks t0 c ↔ Sticks t0 c' := by
  have hname : ∀ {w : PyStr} {c : Nat}, IsName w → w.head? = some c → isLetter c = true := by
    intro w c h hc
    obtain ⟨a, v, rfl, hh⟩ := h.head
    simp at hc; subst hc; exact hh
  have hl : isLetter c = true → isLetter c' = true → (Sticks t0 c ↔ Sticks t0 c') := by
    intro a b
    have n1 := isLetter_ne a
    have n2 := isLetter_ne b
    have : c ≠ 61 := by rintro rfl; simp at n1
    have : c' ≠ 61 := by rintro rfl; simp at n2
    cases t0 <;> simp_all [Sticks, isAlnum]
  have hd : isDigit c = true → isDigit c' = true → (Sticks t0 c ↔ Sticks t0 c') := by
    intro a b
    have n1 := isDigit_ne a
    have n2 := isDigit_ne b
    have : c ≠ 61 := by rintro rfl; simp at n1
    have : c' ≠ 61 := by rintro rfl; simp at n2
    cases t0 <;> simp_all [Sticks, isAlnum]
  have hq : (c = 34 ∨ c = 39) → (c' = 34 ∨ c' = 39) → (Sticks t0 c ↔ Sticks t0 c') := by
    rintro (rfl | rfl) (rfl | rfl) <;> cases t0 <;> simp [Sticks, isAlnum, isLetter, isDigit]
  have hfix : ∀ {ty : TokType} {w w' : PyStr}, (ty, w) ∈ fixedTokens → TokenText ty w' → w = w' := by
    intro ty w w' e e'
    cases e' with
    | fixed e' =>
      have : ∀ p ∈ fixedTokens, ∀ p' ∈ fixedTokens, p.1 = p'.1 → p.2 = p'.2 := by decide
      exact this _ e _ e' rfl
    | scope _ => revert e; simp [fixedTokens]
    | flags _ => revert e; simp [fixedTokens]
    | identifier _ _ _ _ => revert e; simp [fixedTokens]
    | integer _ _ => revert e; simp [fixedTokens]
    | literal _ => revert e; simp [fixedTokens]
  rcases h.class with ⟨e, -⟩ | ⟨e1, -, e2⟩ | ⟨rfl, a, v, rfl, ha⟩ | ⟨rfl, a, v, rfl, ha⟩
  · obtain rfl := hfix e h'
    rw [hc] at hc'; cases hc'; rfl
  · rcases h'.class with ⟨e', -⟩ | ⟨e1', -, e2'⟩ | ⟨rfl, -⟩ | ⟨rfl, -⟩
    · obtain rfl := hfix e' h
      rw [hc] at hc'; cases hc'; rfl
    · exact hl (hname e1 hc) (hname e1' hc')
    · simp at e2
    · simp at e2
  · rcases h'.class with ⟨e', -⟩ | ⟨-, -, e2'⟩ | ⟨-, a', v', rfl, ha'⟩ | ⟨e, -⟩
    · revert e'; simp [fixedTokens]
    · simp at e2'
    · simp at hc hc'; subst hc hc'; exact hd ha ha'
    · cases e
  · rcases h'.class with ⟨e', -⟩ | ⟨-, -, e2'⟩ | ⟨e, -⟩ | ⟨-, a', v', rfl, ha'⟩
    · revert e'; simp [fixedTokens]
    · simp at e2'
    · cases e
    · simp at hc hc'; subst hc hc'; exact hq ha ha'

/-- Another text of the same type in the place of a token. -/
theorem LaidAt.replace {A B : List Tok} {t : Tok} {w' : PyStr} (hw : TokenText t.type w') : ∀ {k : Nat} {q : PyStr},
    LaidAt k (A ++ t :: B) q → ∃ a b, q = a ++ (t.text ++ b) ∧ t.start = k + a.length ∧ TokenText t.type t.text ∧
      Laid (A.map Tok.what ++ (t.type, w') :: B.map Tok.what) (a ++ (w' ++ b)) := by
  induction A with
  | nil =>
    intro k q h
    cases h with
    | @cons _ ws w rest ty _ h1 h2 h3 h4 =>
      exact ⟨ws, rest, rfl, by simp [tokAt], h2, .cons h1 hw h3.laid h4⟩
  | cons x A ih =>
    intro k q h
    rw [List.cons_append] at h
    cases h with
    | @cons _ ws w rest ty _ h1 h2 h3 h4 =>
      obtain ⟨a, b, rfl, e1, e2, e3⟩ := ih h3
      refine ⟨ws ++ (w ++ a), b, by simp, ?_, e2, ?_⟩
      · rw [e1]; simp; omega
      · have : ws ++ (w ++ a) ++ (w' ++ b) = ws ++ (w ++ (a ++ (w' ++ b))) := by simp
        rw [this]
        refine .cons h1 h2 e3 ?_
        intro c hc
        cases a with
        | cons d a => exact h4 c (by simpa using hc)
        | nil =>
          obtain ⟨c1, v1, hv1⟩ := List.exists_cons_of_ne_nil e2.ne_nil
          obtain ⟨c2, v2, hv2⟩ := List.exists_cons_of_ne_nil hw.ne_nil
          rw [hv2] at hc hw
          rw [hv1] at e2 h4
          simp only [List.nil_append, List.cons_append, List.head?_cons, Option.some.injEq] at hc h4
          subst hc
          rw [sticks_head hw e2 rfl rfl]
          exact h4 _ rfl

theorem alike_replace {rt : PyRuntime} {cfg : Config} {ty : TokType} {w w' : PyStr} {B : List (TokType × PyStr)} :
    ∀ (A : List (TokType × PyStr)) (p : Option TokType), SameMeaning rt cfg ((A.getLast?.map Prod.fst).or p) ty w w' →
    Alike rt cfg p (A ++ (ty, w) :: B) (A ++ (ty, w') :: B)
  | [], p, h => ⟨rfl, by simpa using h, .refl _ _⟩
  | (t, x) :: A, p, h => by
    refine ⟨rfl, .refl _ _ _, alike_replace A _ ?_⟩
    cases A with
    | nil => simpa using h
    | cons y A =>
      rw [List.getLast?_cons_cons] at h
      have : ((y :: A).getLast?.map Prod.fst).isSome := by
        rw [Option.isSome_map, List.getLast?_isSome]; simp
      obtain ⟨z, hz⟩ := Option.isSome_iff_exists.1 this
      rw [hz] at h ⊢
      exact h

/-- **C71.** In a query without lexical errors, one token may be replaced, where it stands, by another token text of the
same type that means the same there: the tree stays the same, except for source locations, or both fail. -/
theorem C71_replace (rt : Runtime) (cfg : Config) (a b w' : PyStr) (t : Tok) (A B : List Tok)
    (hl : lexErrors (a ++ t.text ++ b) = []) (ht : lexTokens (a ++ t.text ++ b) = A ++ t :: B) (hs : t.start = a.length)
    (hw : TokenText t.type w') (hm : SameMeaning rt.toPyRuntime cfg (A.getLast?.map Tok.type) t.type t.text w') :
    (∀ n, (parseQuery rt cfg (a ++ t.text ++ b)).1 = .ok n →
      ∃ n', (parseQuery rt cfg (a ++ w' ++ b)).1 = .ok n' ∧ n'.unlocated = n.unlocated) ∧
    (∀ n', (parseQuery rt cfg (a ++ w' ++ b)).1 = .ok n' →
      ∃ n, (parseQuery rt cfg (a ++ t.text ++ b)).1 = .ok n ∧ n.unlocated = n'.unlocated) := by
  have h0 := (laidAt_iff (A ++ t :: B) (a ++ t.text ++ b)).2 ⟨hl, ht⟩
  obtain ⟨a', b', e1, e2, -, h1⟩ := h0.replace hw
  rw [hs] at e2
  rw [List.append_assoc] at e1
  obtain ⟨rfl, e3⟩ := List.append_inj e1 (by omega)
  obtain ⟨-, rfl⟩ := List.append_inj e3 rfl
  have h2 := h0.laid
  rw [List.map_append, List.map_cons] at h2
  rw [← List.append_assoc] at h1
  have hal : Alike rt.toPyRuntime cfg none (A.map Tok.what ++ (t.type, t.text) :: B.map Tok.what)
      (A.map Tok.what ++ (t.type, w') :: B.map Tok.what) := by
    refine alike_replace _ _ ?_
    rw [List.getLast?_map, Option.map_map, Option.or_none]
    exact hm
  exact ⟨fun n hn => C71_unlocated rt cfg _ _ _ _ h2 h1 hal n hn, fun n hn => C71_unlocated rt cfg _ _ _ _ h1 h2 hal.symm n hn⟩

/-! ### Which texts mean the same -/

/-- **C71.** Literals with the same value, as normalised by the parser, mean the same: it does not matter with which quotes
a string is written, which of its characters are written as escapes, and in which of several forms with the same
normal form. -/
theorem C71_literal (rt : PyRuntime) (cfg : Config) (p : Option TokType) (w w' v v' : PyStr) (h : LitValue w v) (h' : LitValue w' v')
    (hv : cfg.norm rt v = cfg.norm rt v') : TokenText .REGEXP w' ∧ SameMeaning rt cfg p .REGEXP w w' := by
  obtain ⟨q', ps', h1, h2⟩ := id h'
  refine ⟨.literal h1, ?_⟩
  intro u
  constructor
  · rintro ⟨raw, e1, e2⟩
    obtain rfl := e1.unique h
    exact ⟨_, h', e2.trans hv⟩
  · rintro ⟨raw, e1, e2⟩
    obtain rfl := e1.unique h'
    exact ⟨_, h, e2.trans hv.symm⟩

/-- **C71.** Integers with the same value mean the same: leading zeros do not matter (as long as the number of digits is
within the interpreter's limit). -/
theorem C71_integer (rt : PyRuntime) (cfg : Config) (p : Option TokType) (w w' : PyStr) (n : Int) (h : IsInt rt w n) (h' : IsInt rt w' n) :
    TokenText .INTEGER w' ∧ SameMeaning rt cfg p .INTEGER w w' := by
  obtain ⟨-, -, h3⟩ := h
  obtain ⟨h1', h2', h3'⟩ := h'
  refine ⟨.integer h1' h2', ?_⟩
  intro m
  have e : (decimalValue w : Int) = decimalValue w' := h3.2.symm.trans h3'.2
  simp only [IntText, h3.1, h3'.1, true_and, e]

/-- **C71.** Flags that name the same set of flags mean the same after `/`: order and repetition do not matter, and `c`
can be written for `i`, and `C` for `I`. -/
theorem C71_flags (rt : PyRuntime) (cfg : Config) (w w' : PyStr) (hw' : IsFlags w')
    (h : ∀ f, (∃ c ∈ w, Names c f) ↔ (∃ c ∈ w', Names c f)) :
    TokenText .REGEXP_FLAGS w' ∧ SameMeaning rt cfg (some .FWD_SLASH) .REGEXP_FLAGS w w' :=
  ⟨.flags hw', by simpa only [SameMeaning, if_true] using h⟩

/-- **C71.** The long and the short word for a scope mean the same after `within`. -/
theorem C71_scope (rt : PyRuntime) (cfg : Config) (w w' : PyStr) (sc : Scope) (h : (w, sc) ∈ scopeWords) (h' : (w', sc) ∈ scopeWords) :
    TokenText .SIMPLE_WITHIN_SCOPE w' ∧ SameMeaning rt cfg (some .WITHIN) .SIMPLE_WITHIN_SCOPE w w' := by
  refine ⟨.scope ⟨sc, h'⟩, ?_⟩
  simp only [SameMeaning, if_true]
  have uniq : ∀ p ∈ scopeWords, ∀ p' ∈ scopeWords, p.1 = p'.1 → p.2 = p'.2 := by decide
  intro s
  constructor
  · intro e
    obtain rfl : s = sc := uniq _ e _ h rfl
    exact h'
  · intro e
    obtain rfl : s = sc := uniq _ e _ h' rfl
    exact h

/-! ### Examples -/

example : LitValue py!"'a\\x62'" py!"ab" ∧ LitValue py!"\"ab\"" py!"ab" :=
  ⟨⟨39, [.plain 97, .hex 120 [54, 50]], ⟨.inr rfl, by simp [LitPiece.WF, isHexDigit], rfl⟩, by decide⟩,
    34, [.plain 97, .plain 98], ⟨.inl rfl, by simp [LitPiece.WF], rfl⟩, by decide⟩

example : IsFlags py!"di" ∧ ∀ f, (∃ c ∈ py!"cd", Names c f) ↔ (∃ c ∈ py!"di", Names c f) := by
  refine ⟨⟨by simp, by decide⟩, ?_⟩
  intro f
  constructor
  · rintro ⟨c, hc, h⟩
    cases h <;> simp at hc
    · exact ⟨105, by simp, .i⟩
    · exact ⟨100, by simp, .d⟩
  · rintro ⟨c, hc, h⟩
    cases h <;> simp at hc
    · exact ⟨99, by simp, .c⟩
    · exact ⟨100, by simp, .d⟩

/-- Two spellings of a query: quotes, an escape, flags, an integer and a scope word. -/
example : (parseQuery rt0 defaultConfig py!"'a\\x62' /cd {02} within s").1 = (parseQuery rt0 defaultConfig py!"\"ab\"/di{2}within sentence").1 := by
  decide +kernel

/-- Names are not respelled: as a layer, `s` and `sentence` are different. -/
example : (parseQuery rt0 defaultConfig py!"[s='a']").1 ≠ (parseQuery rt0 defaultConfig py!"[sentence='a']").1 := by
  decide +kernel

/-- The hypotheses of `C71_replace` for the literal in `[x = 'ab' /i]`. -/
example : let t : Tok := ⟨.REGEXP, py!"'ab'", 5, 8⟩
    lexErrors (py!"[x = " ++ t.text ++ py!" /i]") = [] ∧
    lexTokens (py!"[x = " ++ t.text ++ py!" /i]") = [⟨.L_SQUARE_BRACKET, py!"[", 0, 0⟩, ⟨.IDENTIFIER, py!"x", 1, 1⟩, ⟨.OPERATOR_EQ, py!"=", 3, 3⟩] ++
      t :: [⟨.FWD_SLASH, py!"/", 10, 10⟩, ⟨.REGEXP_FLAGS, py!"i", 11, 11⟩, ⟨.R_SQUARE_BRACKET, py!"]", 12, 12⟩] ∧
    t.start = (py!"[x = ").length := by
  decide +kernel

end Fcsql
