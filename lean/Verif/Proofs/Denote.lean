import Verif.Spec.Denote
import Verif.Proofs.TokLang
import Verif.Proofs.Meaning
import Verif.Proofs.Cst
import Verif.Proofs.Str

set_option autoImplicit false
set_option linter.unusedSimpArgs false

namespace Fcsql

/-! ### Flags -/

/-- The flags named by the letters of a text, as booleans. -/
theorem flagLoop_ok : ∀ (s : PyStr) (fs : FlagSet), (∀ c ∈ s, c ∈ py!"iIcCld") →
    ∃ fs', flagLoop fs s = .ok fs' ∧ ∀ f, fs'.has f = true ↔ fs.has f = true ∨ ∃ c ∈ s, Names c f
  | [], fs, _ => ⟨fs, rfl, by simp⟩
  | c :: s, fs, h => by
    have hs : ∀ x ∈ s, x ∈ py!"iIcCld" := fun x hx => h x (by simp [hx])
    have hc := h c (by simp)
    simp only [List.mem_cons, List.not_mem_nil, or_false] at hc
    have key : ∃ g, flagLoop fs (c :: s) = flagLoop (fs.add g) s ∧ ∀ f, Names c f ↔ f = g := by
      rcases hc with rfl | rfl | rfl | rfl | rfl | rfl
      · exact ⟨.CASE_INSENSITIVE, by simp [flagLoop], fun f => ⟨fun h => by cases h; rfl, fun h => h ▸ .i⟩⟩
      · exact ⟨.CASE_SENSITIVE, by simp [flagLoop], fun f => ⟨fun h => by cases h; rfl, fun h => h ▸ .I⟩⟩
      · exact ⟨.CASE_INSENSITIVE, by simp [flagLoop], fun f => ⟨fun h => by cases h; rfl, fun h => h ▸ .c⟩⟩
      · exact ⟨.CASE_SENSITIVE, by simp [flagLoop], fun f => ⟨fun h => by cases h; rfl, fun h => h ▸ .C⟩⟩
      · exact ⟨.LITERAL_MATCHING, by simp [flagLoop], fun f => ⟨fun h => by cases h; rfl, fun h => h ▸ .l⟩⟩
      · exact ⟨.IGNORE_DIACRITICS, by simp [flagLoop], fun f => ⟨fun h => by cases h; rfl, fun h => h ▸ .d⟩⟩
    obtain ⟨g, h1, h2⟩ := key
    obtain ⟨fs', h3, h4⟩ := flagLoop_ok s (fs.add g) hs
    refine ⟨fs', h1 ▸ h3, fun f => ?_⟩
    have hadd : (fs.add g).has f = true ↔ f = g ∨ fs.has f = true := by
      cases g <;> cases f <;> simp [FlagSet.add, FlagSet.has]
    rw [h4 f, hadd]
    simp only [List.mem_cons, exists_eq_or_imp, h2]
    constructor
    · rintro ((h | h) | h) <;> simp [h]
    · rintro (h | h | h) <;> simp [h]

theorem FlagSet.ext_has {a b : FlagSet} (h : ∀ f, a.has f = true ↔ b.has f = true) : a = b := by
  obtain ⟨a1, a2, a3, a4⟩ := a
  obtain ⟨b1, b2, b3, b4⟩ := b
  have h1 := h .CASE_INSENSITIVE
  have h2 := h .CASE_SENSITIVE
  have h3 := h .LITERAL_MATCHING
  have h4 := h .IGNORE_DIACRITICS
  simp only [FlagSet.has] at h1 h2 h3 h4
  simp only [FlagSet.mk.injEq]
  exact ⟨Bool.eq_iff_iff.2 h1, Bool.eq_iff_iff.2 h2, Bool.eq_iff_iff.2 h3, Bool.eq_iff_iff.2 h4⟩

theorem FlagsNamed.unique {s : PyStr} {a b : FlagSet} (ha : FlagsNamed s a) (hb : FlagsNamed s b) : a = b :=
  FlagSet.ext_has fun f => (ha f).trans (hb f).symm

theorem FlagSet.legal_iff (fs : FlagSet) : fs.Legal ↔
    (fs.has .CASE_SENSITIVE && fs.has .CASE_INSENSITIVE) = false ∧
    (fs.has .LITERAL_MATCHING &&
      (fs.has .CASE_SENSITIVE || fs.has .CASE_INSENSITIVE || fs.has .IGNORE_DIACRITICS)) = false := by
  obtain ⟨a, b, c, d⟩ := fs
  simp only [FlagSet.Legal, FlagSet.has]
  cases a <;> cases b <;> cases c <;> cases d <;> simp

theorem regexFlags_spec {s : PyStr} (hs : ∀ c ∈ s, c ∈ py!"iIcCld") :
    ∃ fs, FlagsNamed s fs ∧ ((fs.Legal ∧ regexFlags s = .ok fs) ∨
      (¬ fs.Legal ∧ ∃ m, BuilderMsg m ∧ regexFlags s = .error (.builder m))) := by
  obtain ⟨fs, h1, h2⟩ := flagLoop_ok s FlagSet.empty hs
  refine ⟨fs, fun f => ?_, ?_⟩
  · rw [h2 f]
    cases f <;> simp [FlagSet.empty, FlagSet.has]
  · rw [FlagSet.legal_iff]
    simp only [regexFlags, h1, Bind.bind, Except.bind]
    rcases ha : (fs.has .CASE_SENSITIVE && fs.has .CASE_INSENSITIVE) with _ | _
    · rcases hb : (fs.has .LITERAL_MATCHING &&
        (fs.has .CASE_SENSITIVE || fs.has .CASE_INSENSITIVE || fs.has .IGNORE_DIACRITICS)) with _ | _
      · left; simp
      · right; exact ⟨by simp, _, .inl ⟨_, rfl⟩, by simp; rfl⟩
    · right; exact ⟨by simp, _, .inl ⟨_, rfl⟩, by simp; rfl⟩

theorem regexFlags_ok {s : PyStr} (hs : ∀ c ∈ s, c ∈ py!"iIcCld") (fs : FlagSet) :
    regexFlags s = .ok fs ↔ FlagsNamed s fs ∧ fs.Legal := by
  obtain ⟨fs', h1, ⟨h2, h3⟩ | ⟨h2, m, hm, h3⟩⟩ := regexFlags_spec hs
  · rw [h3]
    constructor
    · intro h; cases h; exact ⟨h1, h2⟩
    · rintro ⟨h, -⟩; rw [h1.unique h]
  · rw [h3]
    constructor
    · intro h; cases h
    · rintro ⟨h, h'⟩; exact absurd (h1.unique h ▸ h') h2

theorem FlagsNamed.nonempty {s : PyStr} {fs : FlagSet} (h : FlagsNamed s fs) (hne : s ≠ [])
    (hs : ∀ c ∈ s, c ∈ py!"iIcCld") : fs.isEmpty = false := by
  cases s with
  | nil => exact absurd rfl hne
  | cons c s =>
    have hc := hs c (by simp)
    simp only [List.mem_cons, List.not_mem_nil, or_false] at hc
    have : ∃ f, Names c f := by
      rcases hc with rfl | rfl | rfl | rfl | rfl | rfl
      · exact ⟨_, .i⟩
      · exact ⟨_, .I⟩
      · exact ⟨_, .c⟩
      · exact ⟨_, .C⟩
      · exact ⟨_, .l⟩
      · exact ⟨_, .d⟩
    obtain ⟨f, hf⟩ := this
    have := (h f).2 ⟨c, by simp, hf⟩
    cases f <;> simp only [FlagSet.has] at this <;> simp [FlagSet.isEmpty, this]

/-! ### Quantifiers -/

theorem parseInt_digits (rt : PyRuntime) {s : PyStr} (h : s ≠ [] ∧ s.all isDigit = true) :
    parseInt rt s = if rt.intMaxStrDigits = 0 ∨ s.length ≤ rt.intMaxStrDigits then .ok (decimalValue s : Int)
      else .error (.builder (py!"invalid integer: " ++ s)) := by
  have h1 : s.isEmpty = false := by simpa using h.1
  simp [parseInt, h1, h.2, decValue_eq]

theorem parseInt_ok (rt : PyRuntime) {s : PyStr} (h : s ≠ [] ∧ s.all isDigit = true) (n : Int) :
    parseInt rt s = .ok n ↔ IntText rt s n := by
  rw [parseInt_digits rt h, IntText]
  split
  · rename_i h1
    simp [h1, eq_comm]
  · rename_i h1
    simp [h1]

theorem parseInt_nonneg (rt : PyRuntime) {s : PyStr} (n : Int) (h : parseInt rt s = .ok n) : 0 ≤ n := by
  unfold parseInt at h
  split at h
  · cases h; omega
  · cases h

theorem parseInt_error (rt : PyRuntime) {s : PyStr} (e : Exc) (h : parseInt rt s = .error e) :
    ∃ m, BuilderMsg m ∧ e = .builder m := by
  unfold parseInt at h
  split at h
  · cases h
  · cases h; exact ⟨_, .inl ⟨_, rfl⟩, rfl⟩

theorem childText_leaf (t : Tok) : (PTree.leaf t).getText = t.text := getText_leaf t

/-- What `processRepetition` computes. -/
theorem processRepetition_eq (rt : PyRuntime) (q : CQuant) (hq : q.WF) :
    processRepetition rt q.forest = match q with
      | .sym t => .ok (if t.type = .Q_ZERO_OR_MORE then (0, -1) else if t.type = .Q_ONE_OR_MORE then (1, -1)
          else (0, 1))
      | .exactly _ n _ => match parseInt rt n.text with
        | .ok m => .ok (m, m)
        | .error e => .error e
      | .range _ none _ none _ => .error .other
      | .range _ (some n) _ none _ => match parseInt rt n.text with
        | .ok m => .ok (m, -1)
        | .error e => .error e
      | .range _ none _ (some m) _ => match parseInt rt m.text with
        | .ok m => .ok (0, m)
        | .error e => .error e
      | .range _ (some n) _ (some m) _ => match parseInt rt n.text with
        | .ok a => match parseInt rt m.text with
          | .ok b => if a > b then .error (.builder (py!"bad qualifier: min > max (" ++ intStr a ++ py!" > " ++ intStr b ++ py!")"))
            else .ok (a, b)
          | .error e => .error e
        | .error e => .error e := by
  rcases q with t | ⟨lb, n, rb⟩ | ⟨lb, n, c, m, rb⟩
  · rcases hq with h | h | h <;> simp [processRepetition, CQuant.forest, hasTokChild, PTree.isTok, h, OCCURS_UNBOUNDED]
  · obtain ⟨h1, h2, h3⟩ := hq
    simp [processRepetition, CQuant.forest, hasTokChild, PTree.isTok, h1, h2, h3, processRepetitionRange,
      getChildIndex, findTokFrom, childText, childText_leaf, Bind.bind, Except.bind]
    rcases hp : parseInt rt n.text with e | a
    · rfl
    · simp [OCCURS_UNBOUNDED]
  · obtain ⟨h1, h2, h3, h4, h5, h6⟩ := hq
    rcases n with _ | n <;> rcases m with _ | m
    · simp at h6
    · have hm := h5 m rfl
      simp [processRepetition, CQuant.forest, hasTokChild, PTree.isTok, h1, h2, h3, hm, optLeaf,
        processRepetitionRange, getChildIndex, findTokFrom, childText, childText_leaf, Bind.bind, Except.bind]
      rcases hp : parseInt rt m.text with e | a
      · rfl
      · have := parseInt_nonneg rt a hp
        have h0 : ¬ (a < 0) := by omega
        simp [OCCURS_UNBOUNDED, h0]
    · have hn := h4 n rfl
      simp [processRepetition, CQuant.forest, hasTokChild, PTree.isTok, h1, h2, h3, hn, optLeaf,
        processRepetitionRange, getChildIndex, findTokFrom, childText, childText_leaf, Bind.bind, Except.bind]
      rcases hp : parseInt rt n.text with e | a
      · rfl
      · simp [OCCURS_UNBOUNDED]
    · have hm := h5 m rfl
      have hn := h4 n rfl
      simp [processRepetition, CQuant.forest, hasTokChild, PTree.isTok, h1, h2, h3, hn, hm, optLeaf,
        processRepetitionRange, getChildIndex, findTokFrom, childText, childText_leaf, Bind.bind, Except.bind]
      rcases hp : parseInt rt n.text with e | a
      · rfl
      · rcases hp' : parseInt rt m.text with e | b
        · rfl
        · have := parseInt_nonneg rt b hp'
          have hb : b ≠ -1 := by omega
          simp [OCCURS_UNBOUNDED, hb]

theorem quantMean_ok (rt : PyRuntime) (q : Option CQuant) (hq : optQuantWF q)
    (hl : ∀ x ∈ PTree.leavesL (optQuant q), x.Lexed) (mn mx : Int) :
    quantMean rt q = .ok (mn, mx) ↔ optBounds rt q mn mx := by
  rcases q with _ | q
  · simp [quantMean, optBounds, eq_comm]
  · have hwf := hq q rfl
    simp only [quantMean, optBounds, processRepetition_eq rt q hwf]
    rcases q with t | ⟨lb, n, rb⟩ | ⟨lb, n, c, m, rb⟩
    · simp only [CQuant.WF] at hwf
      rcases hwf with h | h | h <;> simp [CQuant.Bounds, h, eq_comm]
    · obtain ⟨h1, h2, h3⟩ := hwf
      have hi := lexed_integer (hl n (by simp [optQuant, PTree.leavesL, PTree.leaves, CQuant.forest])) h2
      simp only [CQuant.Bounds, ← parseInt_ok rt hi]
      rcases parseInt rt n.text with e | a <;> simp [eq_comm]
      grind
    · obtain ⟨h1, h2, h3, h4, h5, h6⟩ := hwf
      rcases n with _ | n <;> rcases m with _ | m
      · simp at h6
      · have hi := lexed_integer (hl m (by simp [optQuant, PTree.leavesL, PTree.leaves, CQuant.forest, optLeaf])) (h5 m rfl)
        simp only [CQuant.Bounds, ← parseInt_ok rt hi]
        rcases parseInt rt m.text with e | a <;> simp [eq_comm]
      · have hi := lexed_integer (hl n (by simp [optQuant, PTree.leavesL, PTree.leaves, CQuant.forest, optLeaf])) (h4 n rfl)
        simp only [CQuant.Bounds, ← parseInt_ok rt hi]
        rcases parseInt rt n.text with e | a <;> simp [eq_comm]
      · have hi := lexed_integer (hl n (by simp [optQuant, PTree.leavesL, PTree.leaves, CQuant.forest, optLeaf])) (h4 n rfl)
        have hi' := lexed_integer (hl m (by simp [optQuant, PTree.leavesL, PTree.leaves, CQuant.forest, optLeaf])) (h5 m rfl)
        simp only [CQuant.Bounds, ← parseInt_ok rt hi, ← parseInt_ok rt hi']
        rcases parseInt rt n.text with e | a
        · simp
        · rcases parseInt rt m.text with e | b
          · simp
          · by_cases hab : a > b <;> simp [hab] <;> grind

theorem quantMean_error (rt : PyRuntime) (q : Option CQuant) (hq : optQuantWF q) (e : Exc)
    (h : quantMean rt q = .error e) : ∃ m, BuilderMsg m ∧ e = .builder m := by
  rcases q with _ | q
  · simp [quantMean] at h
  · have hwf := hq q rfl
    simp only [quantMean, processRepetition_eq rt q hwf] at h
    rcases q with t | ⟨lb, n, rb⟩ | ⟨lb, n, c, m, rb⟩
    · simp at h
    · rcases hp : parseInt rt n.text with e' | a <;> simp [hp] at h
      exact h ▸ parseInt_error rt _ hp
    · obtain ⟨h1, h2, h3, h4, h5, h6⟩ := hwf
      rcases n with _ | n <;> rcases m with _ | m
      · simp at h6
      · rcases hp : parseInt rt m.text with e' | a <;> simp [hp] at h
        exact h ▸ parseInt_error rt _ hp
      · rcases hp : parseInt rt n.text with e' | a <;> simp [hp] at h
        exact h ▸ parseInt_error rt _ hp
      · rcases hp : parseInt rt n.text with e' | a <;> simp [hp] at h
        · exact h ▸ parseInt_error rt _ hp
        · rcases hp' : parseInt rt m.text with e' | b <;> simp [hp'] at h
          · exact h ▸ parseInt_error rt _ hp'
          · split at h
            · cases h; exact ⟨_, .inr ⟨_, rfl⟩, rfl⟩
            · cases h

/-! ### Literals and flags -/

/-- A literal containing `\U` with a value of at least `2^31`, on an interpreter whose `chr` then raises
`OverflowError`. -/
def OverflowLit (rt : PyRuntime) (text : PyStr) : Prop :=
  rt.chrOverflowIsValueError = false ∧
  ∃ q ps ds, IsLit text q ps ∧ LitPiece.hex 85 ds ∈ ps ∧ 2 ^ 31 ≤ hexValue ds

theorem hexValue_lt (ds : PyStr) (h : ds.all isHexDigit = true) : hexValue ds < 16 ^ ds.length := by
  have key : ∀ (ds : PyStr) (a : Nat), ds.all isHexDigit = true →
      ds.foldl (fun a c => a * 16 + hexDigitValue c) a < (a + 1) * 16 ^ ds.length := by
    intro ds
    induction ds with
    | nil => intro a _; simp
    | cons d ds ih =>
      intro a hd
      simp only [List.all_cons, Bool.and_eq_true] at hd
      have h1 := (hexDigit_cases hd.1 ⟨fun _ s => s, 0, true, fun _ => none, id⟩).2
      have h2 := ih (a * 16 + hexDigitValue d) hd.2
      simp only [List.foldl_cons, List.length_cons]
      calc _ < (a * 16 + hexDigitValue d + 1) * 16 ^ ds.length := h2
        _ ≤ ((a + 1) * 16) * 16 ^ ds.length := Nat.mul_le_mul_right _ (by omega)
        _ = (a + 1) * 16 ^ (ds.length + 1) := by rw [Nat.pow_succ, Nat.mul_assoc, Nat.mul_comm 16]
  simpa [hexValue] using key ds 0 h

theorem exc_of_none {rt : PyRuntime} {q : Nat} {p : LitPiece} (hwf : p.WF q) (hv : p.value = none) :
    (∃ m, BuilderMsg m ∧ p.exc rt = .builder m) ∨
    (rt.chrOverflowIsValueError = false ∧ ∃ ds, p = .hex 85 ds ∧ 2 ^ 31 ≤ hexValue ds) := by
  cases p with
  | plain c => simp [LitPiece.value] at hv
  | esc c => exact .inl ⟨_, .inl ⟨_, rfl⟩, rfl⟩
  | hex l ds =>
    by_cases h : hexValue ds < 2 ^ 31 ∨ rt.chrOverflowIsValueError = true
    · exact .inl ⟨_, .inl ⟨_, rfl⟩, by simp only [LitPiece.exc, h, if_true]; rfl⟩
    · rw [not_or] at h
      obtain ⟨hl, hd⟩ := hwf
      have hlt := hexValue_lt ds hd
      have : l = 85 := by
        rcases hl with ⟨-, hn⟩ | ⟨-, hn⟩ | ⟨h85, -⟩
        · rw [hn] at hlt; omega
        · rw [hn] at hlt; omega
        · exact h85
      subst this
      exact .inr ⟨by simpa using h.2, ds, rfl, by omega⟩

theorem regexValue_ok (rt : PyRuntime) (cfg : Config) {text : PyStr} (hl : ∃ q ps, IsLit text q ps) (v : PyStr) :
    regexValue rt cfg text = .ok v ↔ ∃ raw, LitValue text raw ∧ v = cfg.norm rt raw := by
  obtain ⟨q, ps, hl⟩ := hl
  rw [regexValue_lit rt cfg hl]
  constructor
  · intro h
    rcases hp : piecesExcept rt ps with e | r
    · simp [hp] at h
    · simp only [hp, Except.ok.injEq] at h
      exact ⟨r, ⟨q, ps, hl, (piecesExcept_ok rt ps r).1 hp⟩, h.symm⟩
  · rintro ⟨raw, ⟨q', ps', hl', hv⟩, rfl⟩
    have := regexValue_lit rt cfg hl'
    rw [regexValue_lit rt cfg hl, (piecesExcept_ok rt ps' raw).2 hv] at this
    exact this

theorem regexValue_error (rt : PyRuntime) (cfg : Config) {text : PyStr} (hl : ∃ q ps, IsLit text q ps) (e : Exc)
    (h : regexValue rt cfg text = .error e) : (∃ m, BuilderMsg m ∧ e = .builder m) ∨ (e = .other ∧ OverflowLit rt text) := by
  obtain ⟨q, ps, hl⟩ := hl
  rw [regexValue_lit rt cfg hl] at h
  rcases hp : piecesExcept rt ps with e' | r
  · simp only [hp, Except.error.injEq] at h
    subst h
    obtain ⟨p, h1, h2, rfl⟩ := piecesExcept_error rt ps _ hp
    rcases exc_of_none (rt := rt) (hl.wf p h1) h2 with h | ⟨h3, ds, rfl, h4⟩
    · exact .inl h
    · refine .inr ⟨?_, h3, q, ps, ds, hl, h1, h4⟩
      simp only [LitPiece.exc, h3, Bool.false_eq_true, or_false]
      rw [if_neg (by omega)]
  · simp [hp] at h

theorem regexpMean_ok (rt : PyRuntime) (cfg : Config) (r : CRegexp) (hr : r.WF)
    (hl : ∀ x ∈ r.toTree.leaves, x.Lexed) (v : PyStr) (fl : Option FlagSet) :
    (∃ fs, regexpMean rt cfg r = .ok (v, fs) ∧ fl = if fs.isEmpty then none else some fs) ↔ r.Denotes rt cfg v fl := by
  obtain ⟨pat, f⟩ := r
  have hpat : ∃ q ps, IsLit pat.text q ps :=
    lexed_regexp (hl pat (by simp [CRegexp.toTree, PTree.leaves, PTree.leavesL])) hr.1
  simp only [CRegexp.Denotes, ← regexValue_ok rt cfg hpat]
  rcases f with _ | ⟨s, f⟩
  · simp only [regexpMean]
    rcases regexValue rt cfg pat.text with e | a
    · simp
    · constructor
      · rintro ⟨fs, h, rfl⟩
        cases h
        exact ⟨rfl, rfl⟩
      · rintro ⟨h, rfl⟩
        cases h
        exact ⟨_, rfl, rfl⟩
  · obtain ⟨hf1, hf2⟩ := lexed_flags (hl f (by simp [CRegexp.toTree, PTree.leaves, PTree.leavesL])) (hr.2 s f rfl).2
    simp only [regexpMean, ← and_assoc, ← regexFlags_ok hf2]
    rcases regexValue rt cfg pat.text with e | a
    · simp
    · rcases hrf : regexFlags f.text with e | fs
      · simp
      · have hne := ((regexFlags_ok hf2 fs).1 hrf).1.nonempty hf1 hf2
        simp only [Except.ok.injEq, Prod.mk.injEq, exists_eq_left']
        constructor
        · rintro ⟨fs', ⟨rfl, rfl⟩, rfl⟩; simp [hne]
        · rintro ⟨rfl, rfl⟩; exact ⟨fs, ⟨rfl, rfl⟩, by simp [hne]⟩

theorem regexpMean_error (rt : PyRuntime) (cfg : Config) (r : CRegexp) (hr : r.WF)
    (hl : ∀ x ∈ r.toTree.leaves, x.Lexed) (e : Exc) (h : regexpMean rt cfg r = .error e) :
    (∃ m, BuilderMsg m ∧ e = .builder m) ∨ (e = .other ∧ OverflowLit rt r.pat.text) := by
  obtain ⟨pat, f⟩ := r
  have hpat : ∃ q ps, IsLit pat.text q ps :=
    lexed_regexp (hl pat (by simp [CRegexp.toTree, PTree.leaves, PTree.leavesL])) hr.1
  simp only [regexpMean] at h
  rcases hv : regexValue rt cfg pat.text with e' | a
  · simp only [hv, Except.error.injEq] at h
    subst h
    exact regexValue_error rt cfg hpat _ hv
  · rcases f with _ | ⟨s, f⟩
    · simp [hv] at h
    · obtain ⟨hf1, hf2⟩ := lexed_flags (hl f (by simp [CRegexp.toTree, PTree.leaves, PTree.leavesL])) (hr.2 s f rfl).2
      obtain ⟨fs, h1, ⟨h2, h3⟩ | ⟨h2, m, hm, h3⟩⟩ := regexFlags_spec hf2
      · simp [hv, h3] at h
      · simp only [hv, h3, Except.error.injEq] at h
        exact .inl ⟨m, hm, h.symm⟩

/-! ### No `EOF` inside a query -/

theorem CRegexp.noEof {r : CRegexp} (h : r.WF) : ∀ x ∈ r.toTree.leaves, x.type ≠ .EOF := by
  obtain ⟨pat, f⟩ := r
  have hp : pat.type = .REGEXP := h.1
  rcases f with _ | ⟨s, f⟩
  · simp [CRegexp.toTree, PTree.leaves, PTree.leavesL, hp]
  · simp [CRegexp.toTree, PTree.leaves, PTree.leavesL, hp, h.2 s f rfl]

theorem isNameTok.noEof {t : Tok} (h : isNameTok t) : t.type ≠ .EOF := by
  rcases h with h | h | h | h <;> simp [h]

theorem CAttr.noEof {a : CAttr} (h : a.WF) : ∀ x ∈ a.toTree.leaves, x.type ≠ .EOF := by
  obtain ⟨q, i⟩ := a
  have hi : i.type ≠ .EOF := isNameTok.noEof h.1
  rcases q with _ | ⟨q, c⟩
  · simp [CAttr.toTree, PTree.leaves, PTree.leavesL, hi]
  · have h2 := h.2 q c rfl
    simp [CAttr.toTree, PTree.leaves, PTree.leavesL, hi, h2, isNameTok.noEof h2.1]

theorem optQuant_noEof {q : Option CQuant} (h : optQuantWF q) :
    ∀ x ∈ PTree.leavesL (optQuant q), x.type ≠ .EOF := by
  rcases q with _ | q
  · simp [optQuant, PTree.leavesL]
  · have hwf := h q rfl
    rcases q with t | ⟨lb, n, rb⟩ | ⟨lb, n, c, m, rb⟩
    · rcases hwf with h | h | h <;> simp [optQuant, PTree.leavesL, PTree.leaves, CQuant.forest, h]
    · obtain ⟨h1, h2, h3⟩ := hwf
      simp [optQuant, PTree.leavesL, PTree.leaves, CQuant.forest, h1, h2, h3]
    · obtain ⟨h1, h2, h3, h4, h5, -⟩ := hwf
      rcases n with _ | n <;> rcases m with _ | m <;>
        simp_all [optQuant, PTree.leavesL, PTree.leaves, CQuant.forest, optLeaf]

mutual
theorem CExpr.noEof : ∀ (e : CExpr), e.WF → ∀ x ∈ e.toTree.leaves, x.type ≠ .EOF
  | .basic a op r, h => by
    simp only [CExpr.WF] at h
    have ha := CAttr.noEof h.1
    have hr := CRegexp.noEof h.2.2
    have ho : op.type ≠ .EOF := by rcases h.2.1 with h | h <;> simp [h]
    simp only [CExpr.toTree, PTree.leaves, PTree.leavesL, List.mem_append, List.mem_cons, List.not_mem_nil,
      or_false]
    rintro x (hx | hx | hx)
    · exact ha x hx
    · exact hx ▸ ho
    · exact hr x hx
  | .group lp e rp, h => by
    simp only [CExpr.WF] at h
    have ih := CExpr.noEof e h.2.1
    simp only [CExpr.toTree, PTree.leaves, PTree.leavesL, List.mem_append, List.mem_cons, List.not_mem_nil,
      or_false]
    rintro x (rfl | hx | rfl)
    · simp [h]
    · exact ih x hx
    · simp [h]
  | .or f rest, h => by
    simp only [CExpr.WF] at h
    have ih := CExpr.noEof f h.1
    have ih2 := CTail.noEof rest .OR .expression_or (by simp) h.2.2.2
    simp only [CExpr.toTree, PTree.leaves, PTree.leavesL, List.mem_append]
    rintro x (hx | hx)
    · exact ih x hx
    · exact ih2 x hx
  | .and f rest, h => by
    simp only [CExpr.WF] at h
    have ih := CExpr.noEof f h.1
    have ih2 := CTail.noEof rest .AND .expression_and (by simp) h.2.2.2.2
    simp only [CExpr.toTree, PTree.leaves, PTree.leavesL, List.mem_append]
    rintro x (hx | hx)
    · exact ih x hx
    · exact ih2 x hx
  | .not b e, h => by
    simp only [CExpr.WF] at h
    have ih := CExpr.noEof e h.2
    simp only [CExpr.toTree, PTree.leaves, PTree.leavesL, List.mem_append, List.mem_cons, List.not_mem_nil,
      or_false]
    rintro x (rfl | hx)
    · simp [h]
    · exact ih x hx
theorem CTail.noEof : ∀ (t : CTail) (op : TokType) (no : Rule), op ≠ .EOF → t.WF op no →
    ∀ x ∈ PTree.leavesL t.forest, x.type ≠ .EOF
  | .nil, _, _, _, _ => by simp [CTail.forest, PTree.leavesL]
  | .cons o e rest, op, no, hop, h => by
    simp only [CTail.WF] at h
    have ih := CExpr.noEof e h.2.1
    have ih2 := CTail.noEof rest op no hop h.2.2.2
    simp only [CTail.forest, PTree.leaves, PTree.leavesL, List.mem_append, List.mem_cons, List.not_mem_nil,
      or_false]
    rintro x (rfl | hx | hx)
    · rw [h.1]; exact hop
    · exact ih x hx
    · exact ih2 x hx
end

theorem optExpr_noEof {e : Option CExpr} (h : ∀ x, e = some x → x.WF) :
    ∀ x ∈ PTree.leavesL (optExpr e), x.type ≠ .EOF := by
  rcases e with _ | e
  · simp [optExpr, PTree.leavesL]
  · simpa [optExpr, PTree.leavesL, PTree.leaves] using CExpr.noEof e (h e rfl)

mutual
theorem CQ.noEof : ∀ (c : CQ), c.WF → ∀ x ∈ c.toTree.leaves, x.type ≠ .EOF
  | .implicit r q, h => by
    simp only [CQ.WF] at h
    have h1 := CRegexp.noEof h.1
    have h2 := optQuant_noEof h.2
    simp only [CQ.toTree, PTree.leaves, PTree.leavesL, List.mem_append, List.not_mem_nil, or_false]
    rintro x (hx | hx)
    · exact h1 x hx
    · exact h2 x hx
  | .segment lb e rb q, h => by
    simp only [CQ.WF] at h
    have h1 := optExpr_noEof h.2.1
    have h2 := optQuant_noEof h.2.2.2
    simp only [CQ.toTree, PTree.leaves, PTree.leavesL, leavesL_append, List.mem_append, List.mem_cons, List.not_mem_nil,
      or_false]
    rintro x ((rfl | hx | rfl) | hx)
    · simp [h]
    · exact h1 x hx
    · simp [h]
    · exact h2 x hx
  | .group lp c rp q, h => by
    simp only [CQ.WF] at h
    have h1 := CQ.noEof c h.2.1
    have h2 := optQuant_noEof h.2.2.2.2
    simp only [CQ.toTree, PTree.leaves, PTree.leavesL, List.mem_append, List.mem_cons, List.not_mem_nil,
      or_false]
    rintro x (rfl | hx | rfl | hx)
    · simp [h]
    · exact h1 x hx
    · simp [h]
    · exact h2 x hx
  | .seq f rest, h => by
    simp only [CQ.WF] at h
    have ih := CQ.noEof f h.1
    have ih2 := CQTail.noEof rest (.inl h.2.2)
    simp only [CQ.toTree, PTree.leaves, PTree.leavesL, List.mem_append]
    rintro x (hx | hx)
    · exact ih x hx
    · exact ih2 x hx
  | .disj f rest, h => by
    simp only [CQ.WF] at h
    have ih := CQ.noEof f h.1
    have ih2 := CQTail.noEof rest (.inr h.2.2.2)
    simp only [CQ.toTree, PTree.leaves, PTree.leavesL, List.mem_append]
    rintro x (hx | hx)
    · exact ih x hx
    · exact ih2 x hx
theorem CQTail.noEof : ∀ (t : CQTail), t.WFseq ∨ t.WFdisj → ∀ x ∈ PTree.leavesL t.forest, x.type ≠ .EOF
  | .nil, _ => by simp [CQTail.forest, PTree.leavesL]
  | .cons o c rest, h => by
    simp only [CQTail.WFseq, CQTail.WFdisj] at h
    have ih := CQ.noEof c (h.elim (·.2.1) (·.2.1))
    have ih2 := CQTail.noEof rest (h.imp (·.2.2.2) (·.2.2.2))
    have ho : ∀ x ∈ PTree.leavesL (optLeaf o), x.type ≠ .EOF := by
      rcases h with h | h
      · simp [h.1, optLeaf, PTree.leavesL]
      · obtain ⟨⟨o', rfl, h'⟩, -⟩ := h
        simp [optLeaf, PTree.leavesL, PTree.leaves, h']
    simp only [CQTail.forest, leavesL_append, PTree.leavesL, List.mem_append]
    rintro x (hx | hx | hx)
    · exact ho x hx
    · exact ih x hx
    · exact ih2 x hx
end

theorem locOf_eq_span (cfg : Config) (cs : List PTree) (h : ∀ x ∈ PTree.leavesL cs, x.type ≠ .EOF) :
    locOf cfg cs = cfg.span (PTree.leavesL cs) := by
  have : (PTree.leavesL cs).filter (fun t => t.type ≠ .EOF) = PTree.leavesL cs := by
    rw [List.filter_eq_self]
    intro x hx
    simpa using h x hx
  simp only [locOf, Config.span, ctxLoc, this]
  rfl

theorem locOf_node (cfg : Config) (r : Rule) (cs : List PTree) (h : ∀ x ∈ (PTree.node r cs).leaves, x.type ≠ .EOF) :
    locOf cfg cs = cfg.span (PTree.node r cs).leaves := by
  simp only [PTree.leaves] at h
  rw [PTree.leaves]
  exact locOf_eq_span cfg cs h

/-! ### The meaning on pure trees -/

theorem mkExpr_attr (a : CAttr) (hwf : a.WF) (hl : ∀ x ∈ a.toTree.leaves, x.Lexed) (o : Operator) (v : PyStr)
    (fs : FlagSet) :
    mkExpressionKind (some a.qualText) a.ident.text o v (some fs) =
      .expression (a.qual.map fun p => p.1.text) a.ident.text o v (if fs.isEmpty then none else some fs) := by
  obtain ⟨q, i⟩ := a
  rcases q with _ | ⟨q, c⟩
  · simp [mkExpressionKind, CAttr.qualText]
  · have hn : IsName q.text :=
      lexed_name (hl q (by simp [CAttr.toTree, PTree.leaves, PTree.leavesL])) (hwf.2 q c rfl).1
    have hsp : isSpaceStr q.text = false := by
      have hlet : ∀ c, isLetter c = true → isPySpace c = false := by
        intro c hc
        simp only [isLetter, Bool.or_eq_true, Bool.and_eq_true, decide_eq_true_eq] at hc
        simp only [isPySpace, Bool.or_eq_false_iff, Bool.and_eq_false_iff, decide_eq_false_iff_not, beq_eq_false_iff_ne]
        omega
      rcases hn with ⟨c, h, hc⟩ | ⟨a, m, z, h, ha, -, -⟩ <;> rw [h]
      · simp [isSpaceStr, hlet c hc]
      · simp [isSpaceStr, hlet a ha]
    have hne : q.text.isEmpty = false := by
      rcases hn with ⟨c, h, hc⟩ | ⟨a, m, z, h, ha, -, -⟩ <;> rw [h] <;> rfl
    simp [mkExpressionKind, CAttr.qualText, hsp, hne]

theorem opOf_spec {t : Tok} (h : t.type = .OPERATOR_EQ ∨ t.type = .OPERATOR_NE) (o : Operator) :
    opSpec t o ↔ o = opOf t := by
  rcases h with h | h <;> simp [opSpec, opOf, h]

theorem pureAlloc_new (k : Kind) (cs : List Node) (l : Option Loc) (u : Unit) :
    pureAlloc.new k cs l u = (.mk k cs l, u) := rfl

/-- A computation on pure trees succeeds with `n` exactly if `P n`, and can only fail properly. -/
structure Agrees {α : Type} (rt : PyRuntime) (ts : List Tok) (r : Except Exc (α × Unit)) (P : α → Prop) : Prop where
  ok : ∀ n, r = .ok (n, ()) ↔ P n
  err : ∀ e, r = .error e → (∃ m, BuilderMsg m ∧ e = .builder m) ∨ (e = .other ∧ ∃ t ∈ ts, t.type = .REGEXP ∧ OverflowLit rt t.text)

section
variable (rt : PyRuntime) (cfg : Config)

mutual
theorem agrees_expr : ∀ (e : CExpr), e.WF → (∀ x ∈ e.toTree.leaves, x.Lexed) →
    Agrees rt e.toTree.leaves (e.mean pureAlloc rt cfg ()) (e.Denotes rt cfg)
  | .basic a op r, hwf, hl => by
    have hloc : locOf cfg [a.toTree, .leaf op, r.toTree] = cfg.span (CExpr.basic a op r).toTree.leaves :=
      locOf_node cfg .expression_basic _ (CExpr.noEof _ hwf)
    simp only [CExpr.WF] at hwf
    have hla : ∀ x ∈ a.toTree.leaves, x.Lexed := fun x hx => hl x (by
      simp [CExpr.toTree, PTree.leaves, PTree.leavesL, hx])
    have hlr : ∀ x ∈ r.toTree.leaves, x.Lexed := fun x hx => hl x (by
      simp [CExpr.toTree, PTree.leaves, PTree.leavesL, hx])
    have hok := regexpMean_ok rt cfg r hwf.2.2 hlr
    constructor
    · intro n
      simp only [CExpr.mean, CExpr.Denotes, opOf_spec hwf.2.1, ← hok, pureAlloc_new, hloc]
      constructor
      · intro h
        rcases hr : regexpMean rt cfg r with e | ⟨v, fs⟩
        · simp [hr] at h
        · simp only [hr, Except.ok.injEq, Prod.mk.injEq, and_true, mkExpr_attr a hwf.1 hla] at h
          exact ⟨opOf op, v, _, rfl, ⟨fs, rfl, rfl⟩, h.symm⟩
      · rintro ⟨o, v, fl, rfl, ⟨fs, h1, rfl⟩, rfl⟩
        simp only [h1, mkExpr_attr a hwf.1 hla]
    · intro e h
      simp only [CExpr.mean] at h
      rcases hr : regexpMean rt cfg r with e' | ⟨v, fs⟩
      · simp only [hr, Except.error.injEq] at h
        subst h
        refine (regexpMean_error rt cfg r hwf.2.2 hlr _ hr).imp_right fun ⟨h1, h2⟩ => ⟨h1, r.pat, ?_, hwf.2.2.1, h2⟩
        simp [CExpr.toTree, PTree.leaves, PTree.leavesL, CRegexp.toTree]
      · simp [hr] at h
  | .group lp e rp, hwf, hl => by
    have hloc : locOf cfg [.leaf lp, e.toTree, .leaf rp] = cfg.span (CExpr.group lp e rp).toTree.leaves :=
      locOf_node cfg .expression_group _ (CExpr.noEof _ hwf)
    simp only [CExpr.WF] at hwf
    have hsub : ∀ x ∈ e.toTree.leaves, x ∈ (CExpr.group lp e rp).toTree.leaves := fun x hx => by
      simp [CExpr.toTree, PTree.leaves, PTree.leavesL, hx]
    have ih := agrees_expr e hwf.2.1 fun x hx => hl x (hsub x hx)
    constructor
    · intro n
      simp only [CExpr.mean, CExpr.Denotes, ← ih.ok, pureAlloc_new, hloc]
      rcases e.mean pureAlloc rt cfg () with e | ⟨m, u⟩ <;> simp [eq_comm]
    · intro ex h
      simp only [CExpr.mean] at h
      rcases hr : e.mean pureAlloc rt cfg () with e' | ⟨v, fs⟩
      · simp only [hr, Except.error.injEq] at h
        subst h
        exact (ih.err _ hr).imp_right fun ⟨h1, t, h2, h3⟩ => ⟨h1, t, hsub t h2, h3⟩
      · simp [hr] at h
  | .or f rest, hwf, hl => by
    have hloc : locOf cfg (f.toTree :: rest.forest) = cfg.span (CExpr.or f rest).toTree.leaves :=
      locOf_node cfg .expression_or _ (CExpr.noEof _ hwf)
    simp only [CExpr.WF] at hwf
    have hsub : ∀ x ∈ f.toTree.leaves, x ∈ (CExpr.or f rest).toTree.leaves := fun x hx => by
      simp [CExpr.toTree, PTree.leaves, PTree.leavesL, hx]
    have hsub' : ∀ x ∈ PTree.leavesL rest.forest, x ∈ (CExpr.or f rest).toTree.leaves := fun x hx => by
      simp [CExpr.toTree, PTree.leaves, PTree.leavesL, hx]
    have ih := agrees_expr f hwf.1 fun x hx => hl x (hsub x hx)
    have ih' := agrees_tail rest _ _ hwf.2.2.2 fun x hx => hl x (hsub' x hx)
    constructor
    · intro n
      simp only [CExpr.mean, CExpr.Denotes, ← ih.ok, ← ih'.ok, pureAlloc_new, hloc]
      rcases f.mean pureAlloc rt cfg () with e | ⟨m, u⟩
      · simp
      · rcases hr : rest.mean pureAlloc rt cfg u with e | ⟨ms, u'⟩ <;> simp [hr, eq_comm]
    · intro ex h
      simp only [CExpr.mean] at h
      rcases hr : f.mean pureAlloc rt cfg () with e' | ⟨v, u⟩
      · simp only [hr, Except.error.injEq] at h
        subst h
        exact (ih.err _ hr).imp_right fun ⟨h1, t, h2, h3⟩ => ⟨h1, t, hsub t h2, h3⟩
      · rcases hr' : rest.mean pureAlloc rt cfg u with e' | ⟨v, u'⟩
        · simp only [hr, hr', Except.error.injEq] at h
          subst h
          exact (ih'.err _ hr').imp_right fun ⟨h1, t, h2, h3⟩ => ⟨h1, t, hsub' t h2, h3⟩
        · simp [hr, hr'] at h
  | .and f rest, hwf, hl => by
    have hloc : locOf cfg (f.toTree :: rest.forest) = cfg.span (CExpr.and f rest).toTree.leaves :=
      locOf_node cfg .expression_and _ (CExpr.noEof _ hwf)
    simp only [CExpr.WF] at hwf
    have hsub : ∀ x ∈ f.toTree.leaves, x ∈ (CExpr.and f rest).toTree.leaves := fun x hx => by
      simp [CExpr.toTree, PTree.leaves, PTree.leavesL, hx]
    have hsub' : ∀ x ∈ PTree.leavesL rest.forest, x ∈ (CExpr.and f rest).toTree.leaves := fun x hx => by
      simp [CExpr.toTree, PTree.leaves, PTree.leavesL, hx]
    have ih := agrees_expr f hwf.1 fun x hx => hl x (hsub x hx)
    have ih' := agrees_tail rest _ _ hwf.2.2.2.2 fun x hx => hl x (hsub' x hx)
    constructor
    · intro n
      simp only [CExpr.mean, CExpr.Denotes, ← ih.ok, ← ih'.ok, pureAlloc_new, hloc]
      rcases f.mean pureAlloc rt cfg () with e | ⟨m, u⟩
      · simp
      · rcases hr : rest.mean pureAlloc rt cfg u with e | ⟨ms, u'⟩ <;> simp [hr, eq_comm]
    · intro ex h
      simp only [CExpr.mean] at h
      rcases hr : f.mean pureAlloc rt cfg () with e' | ⟨v, u⟩
      · simp only [hr, Except.error.injEq] at h
        subst h
        exact (ih.err _ hr).imp_right fun ⟨h1, t, h2, h3⟩ => ⟨h1, t, hsub t h2, h3⟩
      · rcases hr' : rest.mean pureAlloc rt cfg u with e' | ⟨v, u'⟩
        · simp only [hr, hr', Except.error.injEq] at h
          subst h
          exact (ih'.err _ hr').imp_right fun ⟨h1, t, h2, h3⟩ => ⟨h1, t, hsub' t h2, h3⟩
        · simp [hr, hr'] at h
  | .not b e, hwf, hl => by
    have hloc : locOf cfg [.leaf b, e.toTree] = cfg.span (CExpr.not b e).toTree.leaves :=
      locOf_node cfg .expression_not _ (CExpr.noEof _ hwf)
    simp only [CExpr.WF] at hwf
    have hsub : ∀ x ∈ e.toTree.leaves, x ∈ (CExpr.not b e).toTree.leaves := fun x hx => by
      simp [CExpr.toTree, PTree.leaves, PTree.leavesL, hx]
    have ih := agrees_expr e hwf.2 fun x hx => hl x (hsub x hx)
    constructor
    · intro n
      simp only [CExpr.mean, CExpr.Denotes, ← ih.ok, pureAlloc_new, hloc]
      rcases e.mean pureAlloc rt cfg () with e | ⟨m, u⟩ <;> simp [eq_comm]
    · intro ex h
      simp only [CExpr.mean] at h
      rcases hr : e.mean pureAlloc rt cfg () with e' | ⟨v, fs⟩
      · simp only [hr, Except.error.injEq] at h
        subst h
        exact (ih.err _ hr).imp_right fun ⟨h1, t, h2, h3⟩ => ⟨h1, t, hsub t h2, h3⟩
      · simp [hr] at h
theorem agrees_tail : ∀ (t : CTail) (op : TokType) (no : Rule), t.WF op no →
    (∀ x ∈ PTree.leavesL t.forest, x.Lexed) →
    Agrees rt (PTree.leavesL t.forest) (t.mean pureAlloc rt cfg ()) (t.Denotes rt cfg)
  | .nil, _, _, _, _ => ⟨fun n => by simp [CTail.mean, CTail.Denotes, eq_comm], fun e h => by simp [CTail.mean] at h⟩
  | .cons o f rest, op, no, hwf, hl => by
    simp only [CTail.WF] at hwf
    have hsub : ∀ x ∈ f.toTree.leaves, x ∈ PTree.leavesL (CTail.cons o f rest).forest := fun x hx => by
      simp [CTail.forest, PTree.leaves, PTree.leavesL, hx]
    have hsub' : ∀ x ∈ PTree.leavesL rest.forest, x ∈ PTree.leavesL (CTail.cons o f rest).forest := fun x hx => by
      simp [CTail.forest, PTree.leaves, PTree.leavesL, hx]
    have ih := agrees_expr f hwf.2.1 fun x hx => hl x (hsub x hx)
    have ih' := agrees_tail rest _ _ hwf.2.2.2 fun x hx => hl x (hsub' x hx)
    constructor
    · intro n
      simp only [CTail.mean, CTail.Denotes, ← ih.ok, ← ih'.ok]
      rcases f.mean pureAlloc rt cfg () with e | ⟨m, u⟩
      · simp
      · rcases hr : rest.mean pureAlloc rt cfg u with e | ⟨ms, u'⟩ <;> simp [hr, eq_comm]
    · intro ex h
      simp only [CTail.mean] at h
      rcases hr : f.mean pureAlloc rt cfg () with e' | ⟨v, u⟩
      · simp only [hr, Except.error.injEq] at h
        subst h
        exact (ih.err _ hr).imp_right fun ⟨h1, t, h2, h3⟩ => ⟨h1, t, hsub t h2, h3⟩
      · rcases hr' : rest.mean pureAlloc rt cfg u with e' | ⟨v, u'⟩
        · simp only [hr, hr', Except.error.injEq] at h
          subst h
          exact (ih'.err _ hr').imp_right fun ⟨h1, t, h2, h3⟩ => ⟨h1, t, hsub' t h2, h3⟩
        · simp [hr, hr'] at h
end

theorem agrees_seg (lb rb : Tok) (e : Option CExpr) (hwf : ∀ x, e = some x → x.WF)
    (hlb : lb.type ≠ .EOF) (hrb : rb.type ≠ .EOF)
    (hl : ∀ x ∈ PTree.leavesL (optExpr e), x.Lexed) :
    Agrees rt (PTree.leavesL (optExpr e)) (segMean pureAlloc rt cfg lb rb e ()) (optDenotes rt cfg lb rb e) := by
  cases e with
  | none =>
    have hloc : locOf cfg [.leaf lb, .leaf rb] = cfg.span [lb, rb] := by
      have := locOf_eq_span cfg [.leaf lb, .leaf rb] (by simp [PTree.leavesL, PTree.leaves, hlb, hrb])
      simpa [PTree.leavesL, PTree.leaves] using this
    constructor
    · intro n; simp [segMean, optDenotes, pureAlloc_new, hloc, eq_comm]
    · intro ex h; simp [segMean] at h
  | some e =>
    simp only [optExpr, PTree.leavesL, PTree.leaves, List.append_nil] at hl ⊢
    have := agrees_expr rt cfg e (hwf e rfl) hl
    exact ⟨this.ok, this.err⟩

mutual
theorem agrees_q : ∀ (c : CQ), c.WF → (∀ x ∈ c.toTree.leaves, x.Lexed) →
    Agrees rt c.toTree.leaves (c.mean pureAlloc rt cfg ()) (c.Denotes rt cfg)
  | .implicit r q, hwf, hl => by
    have hloc : locOf cfg (.node .query_implicit [r.toTree] :: optQuant q) = cfg.span (CQ.implicit r q).toTree.leaves :=
      locOf_node cfg .query_simple _ (CQ.noEof _ hwf)
    simp only [CQ.WF] at hwf
    have hloc' : locOf cfg [r.toTree] = cfg.span r.toTree.leaves := by
      have := locOf_eq_span cfg [r.toTree] (by simpa [PTree.leavesL] using CRegexp.noEof hwf.1)
      simpa [PTree.leavesL] using this
    have hlr : ∀ x ∈ r.toTree.leaves, x.Lexed := fun x hx => hl x (by
      simp [CQ.toTree, PTree.leaves, PTree.leavesL, hx])
    have hlq : ∀ x ∈ PTree.leavesL (optQuant q), x.Lexed := fun x hx => hl x (by
      simp [CQ.toTree, PTree.leaves, PTree.leavesL, hx])
    have hok := regexpMean_ok rt cfg r hwf.1 hlr
    have hq := quantMean_ok rt q hwf.2 hlq
    constructor
    · intro n
      simp only [CQ.mean, CQ.Denotes, ← hok, ← hq, pureAlloc_new, hloc, hloc']
      constructor
      · intro h
        rcases hr : regexpMean rt cfg r with e | ⟨v, fs⟩
        · simp [hr] at h
        · rcases hm : quantMean rt q with e | ⟨mn, mx⟩
          · simp [hr, hm] at h
          · simp only [hr, hm, Except.ok.injEq, Prod.mk.injEq, and_true, mkExpressionKind, List.isEmpty_nil, Bool.true_or,
              if_true] at h
            exact ⟨v, _, mn, mx, ⟨fs, rfl, rfl⟩, rfl, h.symm⟩
      · rintro ⟨v, fl, mn, mx, ⟨fs, h1, rfl⟩, h2, rfl⟩
        simp [h1, h2, mkExpressionKind]
    · intro e h
      simp only [CQ.mean] at h
      rcases hr : regexpMean rt cfg r with e' | ⟨v, fs⟩
      · simp only [hr, Except.error.injEq] at h
        subst h
        refine (regexpMean_error rt cfg r hwf.1 hlr _ hr).imp_right fun ⟨h1, h2⟩ => ⟨h1, r.pat, ?_, hwf.1.1, h2⟩
        simp [CQ.toTree, PTree.leaves, PTree.leavesL, CRegexp.toTree]
      · rcases hm : quantMean rt q with e' | ⟨mn, mx⟩
        · simp only [hr, hm, Except.error.injEq] at h
          subst h
          exact .inl (quantMean_error rt q hwf.2 _ hm)
        · simp [hr, hm] at h
  | .segment lb e rb q, hwf, hl => by
    have hloc : locOf cfg (.node .query_segment (.leaf lb :: (optExpr e ++ [.leaf rb])) :: optQuant q)
        = cfg.span (CQ.segment lb e rb q).toTree.leaves :=
      locOf_node cfg .query_simple _ (CQ.noEof _ hwf)
    simp only [CQ.WF] at hwf
    have hsub : ∀ x ∈ PTree.leavesL (optExpr e), x ∈ (CQ.segment lb e rb q).toTree.leaves := fun x hx => by
      simp [CQ.toTree, PTree.leaves, PTree.leavesL, leavesL_append, hx]
    have hlq : ∀ x ∈ PTree.leavesL (optQuant q), x.Lexed := fun x hx => hl x (by
      simp [CQ.toTree, PTree.leaves, PTree.leavesL, hx])
    have ih := agrees_seg rt cfg lb rb e hwf.2.1 (by simp [hwf]) (by simp [hwf]) fun x hx => hl x (hsub x hx)
    have hq := quantMean_ok rt q hwf.2.2.2 hlq
    constructor
    · intro n
      simp only [CQ.mean, CQ.Denotes, ← ih.ok, ← hq, pureAlloc_new, hloc]
      rcases segMean pureAlloc rt cfg lb rb e () with e | ⟨m, u⟩
      · simp
      · rcases hm : quantMean rt q with e | ⟨mn, mx⟩ <;> simp [hm, eq_comm]
        exact ⟨fun h => ⟨_, _, ⟨rfl, rfl⟩, h⟩, fun ⟨_, _, ⟨h1, h2⟩, h⟩ => by subst h1; subst h2; exact h⟩
    · intro ex h
      simp only [CQ.mean] at h
      rcases hr : segMean pureAlloc rt cfg lb rb e () with e' | ⟨v, u⟩
      · simp only [hr, Except.error.injEq] at h
        subst h
        exact (ih.err _ hr).imp_right fun ⟨h1, t, h2, h3⟩ => ⟨h1, t, hsub t h2, h3⟩
      · rcases hm : quantMean rt q with e' | ⟨mn, mx⟩
        · simp only [hr, hm, Except.error.injEq] at h
          subst h
          exact .inl (quantMean_error rt q hwf.2.2.2 _ hm)
        · simp [hr, hm] at h
  | .group lp c rp q, hwf, hl => by
    have hloc : locOf cfg (.leaf lp :: c.toTree :: .leaf rp :: optQuant q)
        = cfg.span (CQ.group lp c rp q).toTree.leaves :=
      locOf_node cfg .query_group _ (CQ.noEof _ hwf)
    simp only [CQ.WF] at hwf
    have hsub : ∀ x ∈ c.toTree.leaves, x ∈ (CQ.group lp c rp q).toTree.leaves := fun x hx => by
      simp [CQ.toTree, PTree.leaves, PTree.leavesL, hx]
    have hlq : ∀ x ∈ PTree.leavesL (optQuant q), x.Lexed := fun x hx => hl x (by
      simp [CQ.toTree, PTree.leaves, PTree.leavesL, hx])
    have ih := agrees_q c hwf.2.1 fun x hx => hl x (hsub x hx)
    have hq := quantMean_ok rt q hwf.2.2.2.2 hlq
    constructor
    · intro n
      simp only [CQ.mean, CQ.Denotes, ← ih.ok, ← hq, pureAlloc_new, hloc]
      rcases c.mean pureAlloc rt cfg () with e | ⟨m, u⟩
      · simp
      · rcases hm : quantMean rt q with e | ⟨mn, mx⟩ <;> simp [hm, eq_comm]
        exact ⟨fun h => ⟨_, _, ⟨rfl, rfl⟩, h⟩, fun ⟨_, _, ⟨h1, h2⟩, h⟩ => by subst h1; subst h2; exact h⟩
    · intro ex h
      simp only [CQ.mean] at h
      rcases hr : c.mean pureAlloc rt cfg () with e' | ⟨v, u⟩
      · simp only [hr, Except.error.injEq] at h
        subst h
        exact (ih.err _ hr).imp_right fun ⟨h1, t, h2, h3⟩ => ⟨h1, t, hsub t h2, h3⟩
      · rcases hm : quantMean rt q with e' | ⟨mn, mx⟩
        · simp only [hr, hm, Except.error.injEq] at h
          subst h
          exact .inl (quantMean_error rt q hwf.2.2.2.2 _ hm)
        · simp [hr, hm] at h
  | .seq f rest, hwf, hl => by
    have hloc : locOf cfg (f.toTree :: rest.forest) = cfg.span (CQ.seq f rest).toTree.leaves :=
      locOf_node cfg .query_sequence _ (CQ.noEof _ hwf)
    simp only [CQ.WF] at hwf
    have hsub : ∀ x ∈ f.toTree.leaves, x ∈ (CQ.seq f rest).toTree.leaves := fun x hx => by
      simp [CQ.toTree, PTree.leaves, PTree.leavesL, hx]
    have hsub' : ∀ x ∈ PTree.leavesL rest.forest, x ∈ (CQ.seq f rest).toTree.leaves := fun x hx => by
      simp [CQ.toTree, PTree.leaves, PTree.leavesL, hx]
    have ih := agrees_q f hwf.1 fun x hx => hl x (hsub x hx)
    have ih' := agrees_qtail rest (.inl hwf.2.2) fun x hx => hl x (hsub' x hx)
    constructor
    · intro n
      simp only [CQ.mean, CQ.Denotes, ← ih.ok, ← ih'.ok, pureAlloc_new, hloc]
      rcases f.mean pureAlloc rt cfg () with e | ⟨m, u⟩
      · simp
      · rcases hr : rest.mean pureAlloc rt cfg u with e | ⟨ms, u'⟩ <;> simp [hr, eq_comm]
    · intro ex h
      simp only [CQ.mean] at h
      rcases hr : f.mean pureAlloc rt cfg () with e' | ⟨v, u⟩
      · simp only [hr, Except.error.injEq] at h
        subst h
        exact (ih.err _ hr).imp_right fun ⟨h1, t, h2, h3⟩ => ⟨h1, t, hsub t h2, h3⟩
      · rcases hr' : rest.mean pureAlloc rt cfg u with e' | ⟨v, u'⟩
        · simp only [hr, hr', Except.error.injEq] at h
          subst h
          exact (ih'.err _ hr').imp_right fun ⟨h1, t, h2, h3⟩ => ⟨h1, t, hsub' t h2, h3⟩
        · simp [hr, hr'] at h
  | .disj f rest, hwf, hl => by
    have hloc : locOf cfg (f.toTree :: rest.forest) = cfg.span (CQ.disj f rest).toTree.leaves :=
      locOf_node cfg .query_disjunction _ (CQ.noEof _ hwf)
    simp only [CQ.WF] at hwf
    have hsub : ∀ x ∈ f.toTree.leaves, x ∈ (CQ.disj f rest).toTree.leaves := fun x hx => by
      simp [CQ.toTree, PTree.leaves, PTree.leavesL, hx]
    have hsub' : ∀ x ∈ PTree.leavesL rest.forest, x ∈ (CQ.disj f rest).toTree.leaves := fun x hx => by
      simp [CQ.toTree, PTree.leaves, PTree.leavesL, hx]
    have ih := agrees_q f hwf.1 fun x hx => hl x (hsub x hx)
    have ih' := agrees_qtail rest (.inr hwf.2.2.2) fun x hx => hl x (hsub' x hx)
    constructor
    · intro n
      simp only [CQ.mean, CQ.Denotes, ← ih.ok, ← ih'.ok, pureAlloc_new, hloc]
      rcases f.mean pureAlloc rt cfg () with e | ⟨m, u⟩
      · simp
      · rcases hr : rest.mean pureAlloc rt cfg u with e | ⟨ms, u'⟩ <;> simp [hr, eq_comm]
    · intro ex h
      simp only [CQ.mean] at h
      rcases hr : f.mean pureAlloc rt cfg () with e' | ⟨v, u⟩
      · simp only [hr, Except.error.injEq] at h
        subst h
        exact (ih.err _ hr).imp_right fun ⟨h1, t, h2, h3⟩ => ⟨h1, t, hsub t h2, h3⟩
      · rcases hr' : rest.mean pureAlloc rt cfg u with e' | ⟨v, u'⟩
        · simp only [hr, hr', Except.error.injEq] at h
          subst h
          exact (ih'.err _ hr').imp_right fun ⟨h1, t, h2, h3⟩ => ⟨h1, t, hsub' t h2, h3⟩
        · simp [hr, hr'] at h
theorem agrees_qtail : ∀ (t : CQTail), t.WFseq ∨ t.WFdisj →
    (∀ x ∈ PTree.leavesL t.forest, x.Lexed) →
    Agrees rt (PTree.leavesL t.forest) (t.mean pureAlloc rt cfg ()) (t.Denotes rt cfg)
  | .nil, _, _ => ⟨fun n => by simp [CQTail.mean, CQTail.Denotes, eq_comm], fun e h => by simp [CQTail.mean] at h⟩
  | .cons o f rest, hwf, hl => by
    simp only [CQTail.WFseq, CQTail.WFdisj] at hwf
    have hsub : ∀ x ∈ f.toTree.leaves, x ∈ PTree.leavesL (CQTail.cons o f rest).forest := fun x hx => by
      simp [CQTail.forest, PTree.leaves, PTree.leavesL, leavesL_append, hx]
    have hsub' : ∀ x ∈ PTree.leavesL rest.forest, x ∈ PTree.leavesL (CQTail.cons o f rest).forest := fun x hx => by
      simp [CQTail.forest, PTree.leaves, PTree.leavesL, leavesL_append, hx]
    have ih := agrees_q f (hwf.elim (·.2.1) (·.2.1)) fun x hx => hl x (hsub x hx)
    have ih' := agrees_qtail rest (hwf.imp (·.2.2.2) (·.2.2.2)) fun x hx => hl x (hsub' x hx)
    constructor
    · intro n
      simp only [CQTail.mean, CQTail.Denotes, ← ih.ok, ← ih'.ok]
      rcases f.mean pureAlloc rt cfg () with e | ⟨m, u⟩
      · simp
      · rcases hr : rest.mean pureAlloc rt cfg u with e | ⟨ms, u'⟩ <;> simp [hr, eq_comm]
    · intro ex h
      simp only [CQTail.mean] at h
      rcases hr : f.mean pureAlloc rt cfg () with e' | ⟨v, u⟩
      · simp only [hr, Except.error.injEq] at h
        subst h
        exact (ih.err _ hr).imp_right fun ⟨h1, t, h2, h3⟩ => ⟨h1, t, hsub t h2, h3⟩
      · rcases hr' : rest.mean pureAlloc rt cfg u with e' | ⟨v, u'⟩
        · simp only [hr, hr', Except.error.injEq] at h
          subst h
          exact (ih'.err _ hr').imp_right fun ⟨h1, t, h2, h3⟩ => ⟨h1, t, hsub' t h2, h3⟩
        · simp [hr, hr'] at h
end

theorem scopeOf_ok {w : PyStr} (h : ∃ s, (w, s) ∈ scopeWords) (sc : Scope) :
    scopeOf w = .ok sc ↔ (w, sc) ∈ scopeWords := by
  obtain ⟨s, h⟩ := h
  simp only [scopeWords, List.mem_cons, Prod.mk.injEq, List.not_mem_nil, or_false] at h ⊢
  rcases h with ⟨rfl, -⟩ | ⟨rfl, -⟩ | ⟨rfl, -⟩ | ⟨rfl, -⟩ | ⟨rfl, -⟩ | ⟨rfl, -⟩ | ⟨rfl, -⟩ | ⟨rfl, -⟩ | ⟨rfl, -⟩ | ⟨rfl, -⟩ <;>
    cases sc <;> simp [scopeOf]

theorem scopeOf_total {w : PyStr} (h : ∃ s, (w, s) ∈ scopeWords) : ∃ sc, scopeOf w = .ok sc := by
  obtain ⟨s, h⟩ := h
  exact ⟨s, (scopeOf_ok ⟨s, h⟩ s).2 h⟩

theorem agrees_query (q : CQuery) (hwf : q.WF) (hl : q.toTree.Lexed) :
    Agrees rt q.toTree.leaves (q.mean pureAlloc rt cfg ()) (q.Denotes rt cfg) := by
  obtain ⟨main, w, eof⟩ := q
  have hsub : ∀ x ∈ main.toTree.leaves, x ∈ (CQuery.mk main w eof).toTree.leaves := fun x hx => by
    simp [CQuery.toTree, PTree.leaves, PTree.leavesL, hx]
  have ih := agrees_q rt cfg main hwf.1 fun x hx => hl x (hsub x hx)
  rcases w with _ | ⟨w, s⟩
  · constructor
    · intro n
      simp only [CQuery.mean, CQuery.Denotes, ← ih.ok]
      rcases main.mean pureAlloc rt cfg () with e | ⟨m, u⟩ <;> simp
    · intro ex h
      simp only [CQuery.mean] at h
      rcases hr : main.mean pureAlloc rt cfg () with e' | ⟨v, u⟩
      · simp only [hr, Except.error.injEq] at h
        subst h
        exact (ih.err _ hr).imp_right fun ⟨h1, t, h2, h3⟩ => ⟨h1, t, hsub t h2, h3⟩
      · simp [hr] at h
  · obtain ⟨hw, hs⟩ := hwf.2.1 w s rfl
    have hse := lexed_scope (hl s (by
      simp [CQuery.toTree, PTree.leaves, PTree.leavesL, leavesL_append, optWithin])) hs
    obtain ⟨sc, hsc⟩ := scopeOf_total hse
    have hscm := (scopeOf_ok hse sc).1 hsc
    have hloc : locOf cfg [.leaf s] = cfg.span [s] := by
      have := locOf_eq_span cfg [.leaf s] (by simp [PTree.leavesL, PTree.leaves, hs])
      simpa [PTree.leavesL, PTree.leaves] using this
    have hloc2 : locOf cfg (.node .main_query [main.toTree] :: (optWithin (some (w, s)) ++ [.leaf eof]))
        = cfg.span (main.toTree.leaves ++ [w, s]) := by
      have hf : main.toTree.leaves.filter (fun t => t.type ≠ .EOF) = main.toTree.leaves := by
        rw [List.filter_eq_self]
        intro x hx
        simpa using CQ.noEof main hwf.1 x hx
      have hf' : (main.toTree.leaves ++ [w, s]).filter (fun t => t.type ≠ .EOF) = main.toTree.leaves ++ [w, s] := by
        rw [List.filter_append, hf]
        simp [hw, hs]
      have hall : PTree.leavesL (.node .main_query [main.toTree] :: (optWithin (some (w, s)) ++ [.leaf eof]))
          = (main.toTree.leaves ++ [w, s]) ++ [eof] := by
        simp [PTree.leavesL, PTree.leaves, leavesL_append, optWithin]
      have he : eof.type = .EOF := hwf.2.2
      unfold locOf ctxLoc Config.span
      rw [hall, List.filter_append, hf']
      simp only [he, ne_eq, not_true_eq_false, decide_false, List.filter_cons, List.filter_nil, Bool.false_eq_true, if_false,
        List.append_nil]
      rcases hm : main.toTree.leaves with _ | ⟨x, xs⟩ <;> simp <;> rfl
    constructor
    · intro n
      simp only [CQuery.mean, CQuery.Denotes, ← ih.ok, hsc, pureAlloc_new, hloc, hloc2]
      have huniq : ∀ sc', (s.text, sc') ∈ scopeWords ↔ sc' = sc := by
        intro sc'
        rw [← scopeOf_ok hse, hsc]
        simp [eq_comm]
      rcases main.mean pureAlloc rt cfg () with e | ⟨m, u⟩
      · simp
      · simp [huniq, eq_comm]
    · intro ex h
      simp only [CQuery.mean] at h
      rcases hr : main.mean pureAlloc rt cfg () with e' | ⟨v, u⟩
      · simp only [hr, Except.error.injEq] at h
        subst h
        exact (ih.err _ hr).imp_right fun ⟨h1, t, h2, h3⟩ => ⟨h1, t, hsub t h2, h3⟩
      · simp [hr, hsc] at h

/-- The builder computes what the specification says. -/
theorem build_ok (q : CQuery) (hwf : q.WF) (hl : q.toTree.Lexed) (n : Node) :
    build rt cfg q.toTree = .ok n ↔ q.Denotes rt cfg n := by
  have h := agrees_query rt cfg q hwf hl
  rw [build, buildWith_eq pureAlloc rt cfg q hwf, ← h.ok]
  rcases q.mean pureAlloc rt cfg () with e | ⟨m, u⟩ <;> simp [Except.map]

theorem build_error (q : CQuery) (hwf : q.WF) (hl : q.toTree.Lexed) (e : Exc)
    (h : build rt cfg q.toTree = .error e) :
    (∃ m, BuilderMsg m ∧ e = .builder m) ∨
      (e = .other ∧ ∃ t ∈ q.toTree.leaves, t.type = .REGEXP ∧ OverflowLit rt t.text) := by
  have ha := agrees_query rt cfg q hwf hl
  rw [build, buildWith_eq pureAlloc rt cfg q hwf] at h
  rcases hm : q.mean pureAlloc rt cfg () with e' | ⟨m, u⟩
  · simp only [hm, Except.map, Except.error.injEq] at h
    subst h
    exact ha.err _ hm
  · simp [hm, Except.map] at h

end

end Fcsql
