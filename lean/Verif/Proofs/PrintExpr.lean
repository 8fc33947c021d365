/-
Written expressions are read back.
-/
import Verif.Proofs.Print

set_option autoImplicit false
set_option linter.unusedSimpArgs false

namespace Fcsql

/-! ### Comparisons -/

/-- The tokens of a written value. -/
def regexTokens (v : PyStr) : Option FlagSet → List (TokType × PyStr)
  | none => [(.REGEXP, quoteStr 34 v)]
  | some fs => [(.REGEXP, quoteStr 34 v), (.FWD_SLASH, py!"/"), (.REGEXP_FLAGS, flagsText fs)]

/-- Its syntax. -/
def regexSyntax (v : PyStr) : Option FlagSet → CRegexp
  | none => ⟨Tok.ofWhat (.REGEXP, quoteStr 34 v), none⟩
  | some fs => ⟨Tok.ofWhat (.REGEXP, quoteStr 34 v), some (Tok.ofWhat (.FWD_SLASH, py!"/"), Tok.ofWhat (.REGEXP_FLAGS, flagsText fs))⟩

theorem regex_laid {v : PyStr} {fl : Option FlagSet} (hv : ValidStr v) (hf : GoodFlags fl) : Laid (regexTokens v fl) (regexText v fl) := by
  cases fl with
  | none => exact Laid.one (tokenText_quote (.inl rfl) hv)
  | some fs =>
    have := Laid.one_cons (tokenText_quote (.inl rfl) hv) (by simp [Sticks])
      (Laid.one_cons (ty := .FWD_SLASH) (w := py!"/") (.fixed (by decide)) (by simp [Sticks]) (Laid.one (.flags (isFlags_text (hf fs rfl).2))))
    simpa [regexTokens, regexText] using this

theorem regex_wf (v : PyStr) (fl : Option FlagSet) : (regexSyntax v fl).WF := by
  cases fl with
  | none => exact ⟨rfl, by simp [regexSyntax]⟩
  | some fs => exact ⟨rfl, by intro s f h; simp [regexSyntax] at h; obtain ⟨rfl, rfl⟩ := h; exact ⟨rfl, rfl⟩⟩

theorem regex_lv (v : PyStr) (fl : Option FlagSet) : (regexSyntax v fl).lv = bare (regexTokens v fl) := by
  cases fl <;> simp [regexSyntax, CRegexp.lv, CRegexp.toTree, regexTokens, PTree.leaves, PTree.leavesL]

theorem regex_denotes {rt : PyRuntime} {cfg : Config} {v : PyStr} {fl : Option FlagSet} (hv : GoodValue rt cfg v) (hf : GoodFlags fl) :
    (regexSyntax v fl).Denotes rt cfg v fl := by
  cases fl with
  | none => exact ⟨⟨v, litValue_quote (.inl rfl) hv.1, hv.2.symm⟩, rfl⟩
  | some fs => exact ⟨⟨v, litValue_quote (.inl rfl) hv.1, hv.2.symm⟩, fs, flagsNamed_text fs, (hf fs rfl).1, rfl⟩

/-- The types of the tokens of names. -/
def isNameTy (ty : TokType) : Prop := ty = .IDENTIFIER ∨ ty = .WITHIN ∨ ty = .SIMPLE_WITHIN_SCOPE ∨ ty = .REGEXP_FLAGS

/-- Attribute tokens: qualifier and identifier with the types of their tokens. -/
def attrTokens : Option (TokType × PyStr) → TokType × PyStr → List (TokType × PyStr)
  | none, i => [i]
  | some q, i => [q, (.COLON, py!":"), i]

def attrSyntax (q : Option (TokType × PyStr)) (i : TokType × PyStr) : CAttr :=
  ⟨q.map fun q => (Tok.ofWhat q, Tok.ofWhat (.COLON, py!":")), Tok.ofWhat i⟩

def opTok : Operator → TokType × PyStr
  | .EQUALS => (.OPERATOR_EQ, py!"=")
  | .NOT_EQUALS => (.OPERATOR_NE, py!"!=")

theorem name_free {ty : TokType} (h : isNameTy ty) {c : Nat} (hc : c ∈ py!":=!") : ¬ Sticks ty c := by
  have hc : c = 58 ∨ c = 61 ∨ c = 33 := by simpa using hc
  rcases h with rfl | rfl | rfl | rfl <;> rcases hc with rfl | rfl | rfl <;> simp [Sticks, isAlnum, isLetter, isDigit]

/-- The syntax of a written comparison. -/
def cmpSyntax (q : Option (TokType × PyStr)) (i : TokType × PyStr) (o : Operator) (v : PyStr) (fl : Option FlagSet) : CExpr :=
  .basic (attrSyntax q i) (Tok.ofWhat (opTok o)) (regexSyntax v fl)

def cmpTokens (q : Option (TokType × PyStr)) (i : TokType × PyStr) (o : Operator) (v : PyStr) (fl : Option FlagSet) : List (TokType × PyStr) :=
  attrTokens q i ++ opTok o :: regexTokens v fl

theorem cmp_laid {q : Option (TokType × PyStr)} {i : TokType × PyStr} (o : Operator) {v : PyStr} {fl : Option FlagSet}
    (hq : ∀ x, q = some x → TokenText x.1 x.2 ∧ isNameTy x.1) (hi : TokenText i.1 i.2 ∧ isNameTy i.1) (hv : ValidStr v) (hf : GoodFlags fl) :
    Laid (cmpTokens q i o v fl) (qualifierText (q.map Prod.snd) ++ i.2 ++ operatorText o ++ regexText v fl) := by
  have h1 : Laid (opTok o :: regexTokens v fl) (operatorText o ++ regexText v fl) := by
    cases o
    · exact Laid.one_cons (.fixed (by decide)) (by simp [Sticks]) (regex_laid hv hf)
    · exact Laid.one_cons (.fixed (by decide)) (by simp [Sticks]) (regex_laid hv hf)
  have h2 : Laid (i :: opTok o :: regexTokens v fl) (i.2 ++ (operatorText o ++ regexText v fl)) := by
    have := Laid.cons (ws := []) (by simp) hi.1 h1 (by
      intro c hc
      refine name_free hi.2 ?_
      cases o <;> simp [operatorText] at hc <;> subst hc <;> decide)
    simpa using this
  cases q with
  | none => simpa [cmpTokens, attrTokens, qualifierText] using h2
  | some x =>
    obtain ⟨k1, k2⟩ := hq x rfl
    have h3 := Laid.one_cons (ty := .COLON) (w := py!":") (.fixed (by decide)) (by simp [Sticks]) h2
    have := Laid.cons (ws := []) (by simp) k1 h3 (by
      intro c hc
      refine name_free k2 ?_
      simp at hc; subst hc; decide)
    simpa [cmpTokens, attrTokens, qualifierText] using this

theorem cmp_wf {q : Option (TokType × PyStr)} {i : TokType × PyStr} (o : Operator) {v : PyStr} {fl : Option FlagSet}
    (hq : ∀ x, q = some x → isNameTy x.1) (hi : isNameTy i.1) : (cmpSyntax q i o v fl).WF := by
  refine ⟨⟨hi, ?_⟩, ?_, regex_wf v fl⟩
  · intro a b h
    cases q with
    | none => simp [attrSyntax] at h
    | some x =>
      simp [attrSyntax] at h
      obtain ⟨rfl, rfl⟩ := h
      exact ⟨hq x rfl, rfl⟩
  · cases o
    · exact .inl rfl
    · exact .inr rfl

theorem cmp_lv (q : Option (TokType × PyStr)) (i : TokType × PyStr) (o : Operator) (v : PyStr) (fl : Option FlagSet) :
    (cmpSyntax q i o v fl).lv = bare (cmpTokens q i o v fl) := by
  rw [cmpSyntax, CExpr.lv_basic, regex_lv]
  cases q <;> simp [attrSyntax, CAttr.toTree, PTree.leaves, PTree.leavesL, cmpTokens, attrTokens]

theorem cmp_denotes {rt : PyRuntime} {cfg : Config} (hc : cfg.enableSourceLocations = false) (q : Option (TokType × PyStr)) (i : TokType × PyStr) (o : Operator)
    {v : PyStr} {fl : Option FlagSet} (hv : GoodValue rt cfg v) (hf : GoodFlags fl) :
    (cmpSyntax q i o v fl).Denotes rt cfg (.mk (.expression (q.map Prod.snd) i.2 o v fl) [] none) := by
  refine ⟨o, v, fl, ?_, regex_denotes hv hf, ?_⟩
  · cases o
    · exact .inl ⟨rfl, rfl⟩
    · exact .inr ⟨rfl, rfl⟩
  · rw [span_none hc]
    cases q <;> simp [attrSyntax, Tok.ofWhat]

/-! ### Expressions -/

/-- An expression does not start with `=`. -/
theorem expr_head {e : CExpr} (h : e.WF) : ∃ t r, e.lv = t :: r ∧ t.type ≠ .OPERATOR_EQ := by
  cases e with
  | basic a op r =>
    obtain ⟨t, r, h1, h2⟩ := head_basic h rfl
    exact ⟨t, r, h1, by rcases h2 with h | h | h | h <;> simp [h]⟩
  | group lp e rp =>
    obtain ⟨t, r, h1, h2⟩ := head_group h rfl
    exact ⟨t, r, h1, by simp [h2]⟩
  | or f t =>
    obtain ⟨x, r, h1, h2⟩ := expr_head (e := f) h.1
    exact ⟨x, _, by rw [CExpr.lv_or, h1]; rfl, h2⟩
  | and f t =>
    obtain ⟨x, r, h1, h2⟩ := expr_head (e := f) h.1
    exact ⟨x, _, by rw [CExpr.lv_and, h1]; rfl, h2⟩
  | not b e => exact ⟨b, _, CExpr.lv_not b e, by rw [h.1]; simp⟩

theorem laid_head {ts : List (TokType × PyStr)} {a : PyStr} {e : CExpr} (hl : Laid ts a) (hw : e.WF) (he : e.lv = bare ts) : a.head? ≠ some 61 := by
  intro hh
  obtain ⟨t, r, h1, h2⟩ := expr_head hw
  cases hl with
  | nil h => rw [he] at h1; simp [bare] at h1
  | @cons ws w rest ty ts g1 g2 g3 g4 =>
    rw [h1] at he
    simp only [bare, List.map_cons, List.cons.injEq] at he
    cases ws with
    | cons c ws =>
      have := g1 c (by simp)
      simp only [List.cons_append, List.head?_cons, Option.some.injEq] at hh
      subst hh
      simp [isWs_eq, inRanges, wsRanges] at this
    | nil =>
      cases w with
      | nil => exact g2.ne_nil rfl
      | cons c w =>
        simp only [List.cons_append, List.nil_append, List.head?_cons, Option.some.injEq] at hh
        subst hh
        have hty : ty = .OPERATOR_EQ := eq_token g2
        rw [he.1] at h2
        exact h2 hty

/-- What is shown of a written expression: tokens, syntax and node; and that it is the given one but for the texts of the tokens. -/
def Reprinted (rt : PyRuntime) (cfg : Config) (e : CExpr) (n : Node) : Prop :=
  ∃ (ts : List (TokType × PyStr)) (e' : CExpr), Laid ts n.exprText ∧ e'.WF ∧ e'.lv = bare ts ∧ e'.Denotes rt cfg n ∧ e'.toTree.map Tok.ty = e.toTree.map Tok.ty ∧ e'.rule = e.rule

/-- The operands after the first one, with the operator before each. -/
def tailText (s : PyStr) : List Node → PyStr
  | [] => []
  | n :: ns => s ++ n.exprText ++ tailText s ns

theorem joinWith_tail (s : PyStr) (n : Node) (ns : List Node) : joinWith s (Node.exprTexts (n :: ns)) = n.exprText ++ tailText s ns := by
  induction ns generalizing n with
  | nil => simp [Node.exprTexts, joinWith, tailText]
  | cons m ms ih =>
    have := ih m
    simp only [Node.exprTexts, joinWith] at this ⊢
    rw [this]
    simp [tailText]

def ReprintedTail (rt : PyRuntime) (cfg : Config) (s : TokType × PyStr) (no : Rule) (t : CTail) (ns : List Node) : Prop :=
  ∃ (ts : List (TokType × PyStr)) (t' : CTail), Laid ts (tailText s.2 ns) ∧ t'.WF s.1 no ∧ PTree.leavesL t'.forest = bare ts ∧ t'.Denotes rt cfg ns ∧
    PTree.mapL Tok.ty t'.forest = PTree.mapL Tok.ty t.forest ∧ (t' = .nil → t = .nil)

theorem laid_op {s : TokType × PyStr} (hs : s ∈ [(.AND, py!"&"), (.OR, py!"|")]) {ts : List (TokType × PyStr)} {q : PyStr} (h : Laid ts q) :
    Laid (s :: ts) (s.2 ++ q) := by
  simp only [List.mem_cons, List.not_mem_nil, or_false] at hs
  rcases hs with rfl | rfl
  · exact Laid.one_cons (.fixed (by decide)) (by simp [Sticks]) h
  · exact Laid.one_cons (.fixed (by decide)) (by simp [Sticks]) h

theorem tail_free {s : TokType × PyStr} (hs : s ∈ [(.AND, py!"&"), (.OR, py!"|")]) (ns : List Node) :
    ∀ c, (tailText s.2 ns).head? = some c → Free c := by
  intro c hc
  cases ns with
  | nil => simp [tailText] at hc
  | cons n ns =>
    simp only [List.mem_cons, List.not_mem_nil, or_false] at hs
    rcases hs with rfl | rfl <;> simp [tailText] at hc <;> subst hc <;> exact free_of (by decide)

/-- Names of a returned tree. -/
theorem name_ty {t : Tok} (h : isNameTok t) (ht : TokenText t.type t.text) : TokenText t.type t.text ∧ isNameTy t.type := ⟨ht, h⟩

/-- The settings' normalisation is idempotent and keeps strings strings. -/
def NormOk (rt : PyRuntime) (cfg : Config) : Prop := ∀ s, ValidStr s → ValidStr (cfg.norm rt s) ∧ cfg.norm rt (cfg.norm rt s) = cfg.norm rt s

theorem regex_good {rt : PyRuntime} {cfg : Config} (hn : NormOk rt cfg) {r : CRegexp} (hw : r.WF) (ht : ∀ t ∈ r.lv, TokenText t.type t.text)
    {v : PyStr} {fl : Option FlagSet} (h : r.Denotes rt cfg v fl) : GoodValue rt cfg v ∧ GoodFlags fl := by
  obtain ⟨⟨raw, h1, rfl⟩, h2⟩ := h
  refine ⟨hn raw (litValue_valid h1), ?_⟩
  intro fs e
  subst e
  obtain ⟨pat, fl⟩ := r
  cases fl with
  | none => simp at h2
  | some p =>
    obtain ⟨s, f⟩ := p
    obtain ⟨fs', k1, k2, k3⟩ := h2
    simp only [Option.some.injEq] at k3
    subst k3
    have hf : f.type = .REGEXP_FLAGS := (hw.2 s f rfl).2
    have := ht f (by simp [CRegexp.lv, CRegexp.toTree, PTree.leaves, PTree.leavesL])
    rw [hf] at this
    refine ⟨k2, flags_nonempty ?_ k1⟩
    cases this with
    | fixed h => simp [fixedTokens] at h
    | flags h => exact h

theorem regex_types {rt : PyRuntime} {cfg : Config} {r : CRegexp} (hw : r.WF) {v : PyStr} {fl : Option FlagSet} (h : r.Denotes rt cfg v fl) :
    (regexSyntax v fl).toTree.map Tok.ty = r.toTree.map Tok.ty := by
  obtain ⟨pat, fls⟩ := r
  obtain ⟨h1, h2⟩ := hw
  obtain ⟨-, h3⟩ := h
  have hp : pat.type = .REGEXP := h1
  cases fls with
  | none =>
    have h3 : fl = none := h3
    subst h3
    simp [regexSyntax, CRegexp.toTree, PTree.map, PTree.mapL, Tok.ty, Tok.ofWhat, hp]
  | some p =>
    obtain ⟨s, f⟩ := p
    obtain ⟨fs, -, -, rfl⟩ := h3
    obtain ⟨k1, k2⟩ := h2 s f rfl
    simp [regexSyntax, CRegexp.toTree, PTree.map, PTree.mapL, Tok.ty, Tok.ofWhat, hp, k1, k2]

mutual
theorem reprint {rt : PyRuntime} {cfg : Config} (hc : cfg.enableSourceLocations = false) (hn : NormOk rt cfg) : ∀ (e : CExpr) (n : Node), e.WF →
    (∀ t ∈ e.lv, TokenText t.type t.text) → e.Denotes rt cfg n → Reprinted rt cfg e n
  | .basic a op r, n, hw, ht, hd => by
    obtain ⟨w1, w2, w3⟩ := hw
    obtain ⟨o, v, fl, d1, d2, rfl⟩ := hd
    rw [CExpr.lv_basic] at ht
    obtain ⟨g1, g2⟩ := regex_good hn w3 (fun t h => ht t (by simp [h])) d2
    obtain ⟨ql, i⟩ := a
    let q : Option (TokType × PyStr) := ql.map fun p => (p.1.type, p.1.text)
    have hq : ∀ x, q = some x → TokenText x.1 x.2 ∧ isNameTy x.1 := by
      intro x hx
      cases ql with
      | none => simp [q] at hx
      | some p =>
        simp [q] at hx
        subst hx
        exact ⟨ht p.1 (by simp [CAttr.toTree, PTree.leaves, PTree.leavesL]), (w1.2 p.1 p.2 rfl).1⟩
    have hi : TokenText i.type i.text ∧ isNameTy i.type := ⟨ht i (by cases ql <;> simp [CAttr.toTree, PTree.leaves, PTree.leavesL]), w1.1⟩
    have eq1 : q.map Prod.snd = ql.map fun p => p.1.text := by cases ql <;> simp [q]
    rw [span_none hc]
    refine ⟨_, cmpSyntax q (i.type, i.text) o v fl, ?_, cmp_wf o (fun x hx => (hq x hx).2) hi.2, cmp_lv _ _ _ _ _, ?_, ?_, rfl⟩
    · have := cmp_laid o hq (i := (i.type, i.text)) hi g1.1 g2
      rw [eq1] at this
      simpa only [Node.exprText] using this
    · have := cmp_denotes hc q (i.type, i.text) o g1 g2
      rwa [eq1] at this
    · have e1 : (attrSyntax q (i.type, i.text)).toTree.map Tok.ty = (CAttr.mk ql i).toTree.map Tok.ty := by
        cases ql with
        | none => simp [q, attrSyntax, CAttr.toTree, PTree.map, PTree.mapL, Tok.ty, Tok.ofWhat]
        | some p => simp [q, attrSyntax, CAttr.toTree, PTree.map, PTree.mapL, Tok.ty, Tok.ofWhat, (w1.2 p.1 p.2 rfl).2]
      have e2 : (Tok.ofWhat (opTok o)).ty = op.ty := by
        rcases d1 with ⟨h, rfl⟩ | ⟨h, rfl⟩ <;> simp [Tok.ty, Tok.ofWhat, opTok, h]
      simp only [cmpSyntax, CExpr.toTree, PTree.map, PTree.mapL, e1, e2, regex_types w3 d2]
  | .group lp e rp, n, hw, ht, hd => by
    obtain ⟨w1, w2, w3⟩ := hw
    obtain ⟨m, d1, rfl⟩ := hd
    rw [CExpr.lv_group] at ht
    obtain ⟨ts, e', h1, h2, h3, h4, h5, h6⟩ := reprint hc hn e m w2 (fun t h => ht t (by simp [h])) d1
    refine ⟨(.L_PAREN, py!"(") :: (ts ++ [(.R_PAREN, py!")")]), .group (Tok.ofWhat (.L_PAREN, py!"(")) e' (Tok.ofWhat (.R_PAREN, py!")")), ?_,
      ⟨rfl, h2, rfl⟩, ?_, ⟨m, h4, by rw [span_none hc, span_none hc]⟩, ?_, rfl⟩
    · have := (Laid.one_cons (ty := .L_PAREN) (w := py!"(") (.fixed (by decide)) (by simp [Sticks]) h1).append
        (Laid.one (ty := .R_PAREN) (w := py!")") (.fixed (by decide)))
        (by simp only [List.head?_cons, Option.some.injEq]; rintro c rfl; exact free_of (by decide))
      simpa [Node.exprText, Node.exprTexts, joinWith] using this
    · rw [CExpr.lv_group, h3]; simp
    · simp [CExpr.toTree, PTree.map, PTree.mapL, h5, Tok.ty, Tok.ofWhat, w1, w3]
  | .or f rest, n, hw, ht, hd => by
    obtain ⟨w1, w2, w3, w4⟩ := hw
    obtain ⟨m, ms, d1, d2, rfl⟩ := hd
    rw [CExpr.lv_or] at ht
    obtain ⟨ts, e', h1, h2, h3, h4, h5, h6⟩ := reprint hc hn f m w1 (fun t h => ht t (by simp [h])) d1
    obtain ⟨ts', t', k1, k2, k3, k4, k5, k6⟩ := reprintTail hc hn (.OR, py!"|") (by simp) .expression_or rest ms w4 (fun t h => ht t (by simp [h])) d2
    refine ⟨ts ++ ts', .or e' t', ?_, ⟨h2, by rw [h6]; exact w2, fun e => w3 (k6 e), k2⟩, ?_, ⟨m, ms, h4, k4, by rw [span_none hc, span_none hc]⟩, ?_, rfl⟩
    · have := h1.append k1 (tail_free (s := (.OR, py!"|")) (by simp) ms)
      rw [Node.exprText, joinWith_tail]
      exact this
    · rw [CExpr.lv_or, h3, k3, bare_append]
    · simp [CExpr.toTree, PTree.map, PTree.mapL, h5, k5]
  | .and f rest, n, hw, ht, hd => by
    obtain ⟨w1, w2, w2', w3, w4⟩ := hw
    obtain ⟨m, ms, d1, d2, rfl⟩ := hd
    rw [CExpr.lv_and] at ht
    obtain ⟨ts, e', h1, h2, h3, h4, h5, h6⟩ := reprint hc hn f m w1 (fun t h => ht t (by simp [h])) d1
    obtain ⟨ts', t', k1, k2, k3, k4, k5, k6⟩ := reprintTail hc hn (.AND, py!"&") (by simp) .expression_and rest ms w4 (fun t h => ht t (by simp [h])) d2
    refine ⟨ts ++ ts', .and e' t', ?_, ⟨h2, by rw [h6]; exact w2, by rw [h6]; exact w2', fun e => w3 (k6 e), k2⟩, ?_,
      ⟨m, ms, h4, k4, by rw [span_none hc, span_none hc]⟩, ?_, rfl⟩
    · have := h1.append k1 (tail_free (s := (.AND, py!"&")) (by simp) ms)
      rw [Node.exprText, joinWith_tail]
      exact this
    · rw [CExpr.lv_and, h3, k3, bare_append]
    · simp [CExpr.toTree, PTree.map, PTree.mapL, h5, k5]
  | .not b e, n, hw, ht, hd => by
    obtain ⟨w1, w2⟩ := hw
    obtain ⟨m, d1, rfl⟩ := hd
    rw [CExpr.lv_not] at ht
    obtain ⟨ts, e', h1, h2, h3, h4, h5, h6⟩ := reprint hc hn e m w2 (fun t h => ht t (by simp [h])) d1
    refine ⟨(.NOT, py!"!") :: ts, .not (Tok.ofWhat (.NOT, py!"!")) e', ?_, ⟨rfl, h2⟩, ?_, ⟨m, h4, by rw [span_none hc, span_none hc]⟩, ?_, rfl⟩
    · have := laid_nots h1 (laid_head h1 h2 h3) 1
      simpa [Node.exprText, Node.exprTexts, joinWith] using this
    · rw [CExpr.lv_not, h3]; simp
    · simp [CExpr.toTree, PTree.map, PTree.mapL, h5, Tok.ty, Tok.ofWhat, w1]
theorem reprintTail {rt : PyRuntime} {cfg : Config} (hc : cfg.enableSourceLocations = false) (hn : NormOk rt cfg) (s : TokType × PyStr)
    (hs : s ∈ [(.AND, py!"&"), (.OR, py!"|")]) (no : Rule) : ∀ (t : CTail) (ns : List Node), t.WF s.1 no →
    (∀ x ∈ PTree.leavesL t.forest, TokenText x.type x.text) → t.Denotes rt cfg ns → ReprintedTail rt cfg s no t ns
  | .nil, ns, hw, ht, hd => by
    have hd : ns = [] := hd
    subst hd
    exact ⟨[], .nil, .nil (by simp [tailText]), trivial, by simp [CTail.forest, PTree.leavesL], rfl, rfl, fun h => h⟩
  | .cons o e rest, ns, hw, ht, hd => by
    obtain ⟨w1, w2, w3, w4⟩ := hw
    obtain ⟨m, ms, d1, d2, rfl⟩ := hd
    rw [CTail.lv_cons] at ht
    obtain ⟨ts, e', h1, h2, h3, h4, h5, h6⟩ := reprint hc hn e m w2 (fun t h => ht t (by simp [h])) d1
    obtain ⟨ts', t', k1, k2, k3, k4, k5, k6⟩ := reprintTail hc hn s hs no rest ms w4 (fun t h => ht t (by simp [h])) d2
    refine ⟨s :: (ts ++ ts'), .cons (Tok.ofWhat s) e' t', ?_, ⟨rfl, h2, by rw [h6]; exact w3, k2⟩, ?_, ⟨m, ms, h4, k4, rfl⟩, ?_, by simp⟩
    · have := laid_op hs (h1.append k1 (tail_free hs ms))
      simpa [tailText] using this
    · rw [CTail.lv_cons, h3, k3]; simp [bare]
    · simp [CTail.forest, PTree.mapL, PTree.map, h5, k5, Tok.ty, Tok.ofWhat, w1]
end

/-- The text of an expression of a returned tree is read back. -/
theorem exprOf_text {rt : Runtime} {cfg : Config} (hc : cfg.enableSourceLocations = false) (hn : NormOk rt.toPyRuntime cfg) {e : CExpr} {n : Node} (hw : e.WF)
    (ht : ∀ t ∈ e.lv, TokenText t.type t.text) (hb : e.Best) (hd : e.Denotes rt.toPyRuntime cfg n) : ExprOf rt cfg n.exprText n := by
  obtain ⟨ts, e', h1, h2, h3, h4, h5, -⟩ := reprint hc hn e n hw ht hd
  exact ⟨ts, e', h1, h2, h3, CExpr.best_of_types h5.symm hb, h4⟩

/-! ### Expressions meant to be written -/

theorem best_basic {a : CAttr} {op : Tok} {r : CRegexp} (h : (CExpr.basic a op r).WF) : (CExpr.basic a op r).Best :=
  (least_rule (r := .expression) (least_altL (v := []) (K := (· = [])) (least_basic h (by simp)))).chosen

theorem best_paren {lp rp : Tok} {e : CExpr} (h : (CExpr.group lp e rp).WF) (hb : e.Best) : (CExpr.group lp e rp).Best := by
  refine (least_rule (r := .expression) (least_altR (v := []) (K := (· = [])) (dead_basic ?_) (least_altL (least_group h hb)))).chosen
  intro x hx
  rw [CExpr.lv_group] at hx
  simp at hx
  subst hx
  simp [isNameTok, h.1]

theorem nameTy {w : PyStr} (h : IsName w) : ∃ ty, TokenText ty w ∧ isNameTy ty := by
  by_cases h1 : w = py!"within"
  · subst h1; exact ⟨.WITHIN, .fixed (by decide), .inr (.inl rfl)⟩
  by_cases h2 : IsScopeWord w
  · exact ⟨_, .scope h2, .inr (.inr (.inl rfl))⟩
  by_cases h3 : IsFlags w
  · exact ⟨_, .flags h3, .inr (.inr (.inr rfl))⟩
  · exact ⟨_, .identifier h h1 h2 h3, .inl rfl⟩

theorem exprOf_cmp {rt : Runtime} {cfg : Config} (hc : cfg.enableSourceLocations = false) {ql : Option PyStr} {i v : PyStr} {o : Operator}
    {fl : Option FlagSet} (hq : ∀ q, ql = some q → IsName q) (hi : IsName i) (hv : GoodValue rt.toPyRuntime cfg v) (hf : GoodFlags fl) :
    ExprOf rt cfg (qualifierText ql ++ i ++ operatorText o ++ regexText v fl) (.mk (.expression ql i o v fl) [] none) := by
  obtain ⟨ti, k1, k2⟩ := nameTy hi
  obtain ⟨q, hq1, hq2⟩ : ∃ q : Option (TokType × PyStr), q.map Prod.snd = ql ∧ ∀ x, q = some x → TokenText x.1 x.2 ∧ isNameTy x.1 := by
    cases ql with
    | none => exact ⟨none, rfl, by simp⟩
    | some w =>
      obtain ⟨tq, h1, h2⟩ := nameTy (hq w rfl)
      exact ⟨some (tq, w), rfl, by rintro x ⟨⟩; exact ⟨h1, h2⟩⟩
  subst hq1
  have hw := cmp_wf (q := q) (i := (ti, i)) o (v := v) (fl := fl) (fun x hx => (hq2 x hx).2) k2
  exact ⟨_, cmpSyntax q (ti, i) o v fl, cmp_laid o hq2 (i := (ti, i)) ⟨k1, k2⟩ hv.1 hf, hw, cmp_lv _ _ _ _ _, best_basic hw, cmp_denotes hc q (ti, i) o hv hf⟩

theorem exprOf_paren {rt : Runtime} {cfg : Config} (hc : cfg.enableSourceLocations = false) {a : PyStr} {n : Node} (h : ExprOf rt cfg a n) :
    ExprOf rt cfg (py!"(" ++ a ++ py!")") (.mk .group [n] none) := by
  obtain ⟨ts, e, h1, h2, h3, h4, h5⟩ := h
  have hw : (CExpr.group (Tok.ofWhat (.L_PAREN, py!"(")) e (Tok.ofWhat (.R_PAREN, py!")"))).WF := ⟨rfl, h2, rfl⟩
  refine ⟨(.L_PAREN, py!"(") :: (ts ++ [(.R_PAREN, py!")")]), _, ?_, hw, ?_, best_paren hw h4, n, h5, by rw [span_none hc]⟩
  · exact (Laid.one_cons (ty := .L_PAREN) (w := py!"(") (.fixed (by decide)) (by simp [Sticks]) h1).append
      (Laid.one (ty := .R_PAREN) (w := py!")") (.fixed (by decide)))
      (by simp only [List.head?_cons, Option.some.injEq]; rintro c rfl; exact free_of (by decide))
  · rw [CExpr.lv_group, h3]; simp

theorem exprTexts_map (ns : List Node) : Node.exprTexts ns = ns.map Node.exprText := by
  induction ns with
  | nil => rfl
  | cons n ns ih => simp [Node.exprTexts, ih]

theorem negated_text (k : Nat) (n : Node) : (negated k n).exprText = List.replicate k 33 ++ n.exprText := by
  induction k with
  | zero => rfl
  | succ k ih => simp [negated, Node.exprText, Node.exprTexts, joinWith, ih, List.replicate_succ]

theorem conjunction_text {ns : List Node} (h : ns ≠ []) : (conjunction ns).exprText = joinWith py!"&" (ns.map Node.exprText) := by
  match ns, h with
  | [n], _ => rfl
  | n :: m :: ns, _ => simp only [conjunction, Node.exprText, exprTexts_map]

theorem disjunction_text {ns : List Node} (h : ns ≠ []) : (disjunctionOf ns).exprText = joinWith py!"|" (ns.map Node.exprText) := by
  match ns, h with
  | [n], _ => rfl
  | n :: m :: ns, _ => simp only [disjunctionOf, Node.exprText, exprTexts_map]

/-- The units with their texts. -/
def withTexts (Cs : List (List (Nat × Node))) : List (List ExprUnit) := Cs.map fun C => C.map fun u => (u.1, u.2.exprText, u.2)

theorem exprOf_chunks {rt : Runtime} {cfg : Config} (hc : cfg.enableSourceLocations = false) {Cs : List (List (Nat × Node))} (hne : Cs ≠ [])
    (hC : ∀ C ∈ Cs, C ≠ []) (hu : ∀ C ∈ Cs, ∀ u ∈ C, ExprOf rt cfg u.2.exprText u.2 ∧ u.2.isAtom) (hcalm : Calm Cs) :
    ExprOf rt cfg (disjunctionOf (Cs.map fun C => conjunction (C.map fun u => negated u.1 u.2))).exprText
      (disjunctionOf (Cs.map fun C => conjunction (C.map fun u => negated u.1 u.2))) := by
  have hp : UnitsParse rt cfg (withTexts Cs) := by
    intro D hD
    obtain ⟨C, h1, rfl⟩ := List.mem_map.1 hD
    refine ⟨by simpa using hC C h1, ?_⟩
    intro u hu'
    obtain ⟨w, h2, rfl⟩ := List.mem_map.1 hu'
    exact ⟨bracket_parse hc (hu C h1 w h2).1, (hu C h1 w h2).2⟩
  obtain ⟨ts, e, h1, h2, h3, h4, h5⟩ := whole_of_parse hc (by simpa [withTexts] using hne) hp
  have e1 : chunksText (withTexts Cs) = (disjunctionOf (Cs.map fun C => conjunction (C.map fun u => negated u.1 u.2))).exprText := by
    rw [disjunction_text (by simpa using hne), chunksText, withTexts, List.map_map, List.map_map]
    congr 1
    refine List.map_congr_left fun C h => ?_
    simp only [Function.comp_apply]
    rw [conjunction_text (by simpa using hC C h)]
    simp [Function.comp_def, negated_text]
  have e2 : byPrecedence (withTexts Cs) = disjunctionOf (Cs.map fun C => conjunction (C.map fun u => negated u.1 u.2)) := by
    simp [byPrecedence, withTexts, Function.comp_def]
  rw [e1] at h1
  rw [e2] at h4
  refine ⟨ts, e, h1, h2, h3, h5.2 ?_, h4⟩
  exact (calm_map (fun u : Nat × Node => (u.2.exprText, u.2)) Cs).2 hcalm

/-- The text of a well-formed expression is read back. -/
theorem goodExpr_text {rt : Runtime} {cfg : Config} (hc : cfg.enableSourceLocations = false) {n : Node} (h : GoodExpr rt.toPyRuntime cfg n) :
    ExprOf rt cfg n.exprText n := by
  refine GoodExpr.rec (motive_1 := fun n _ => ExprOf rt cfg n.exprText n ∧ n.isAtom) (motive_2 := fun n _ => ExprOf rt cfg n.exprText n)
    ?_ ?_ ?_ h
  · intro ql i v o fl h1 h2 h3 h4
    exact ⟨exprOf_cmp hc h1 h2 h3 h4, .inl ⟨_, _, _, _, _, rfl⟩⟩
  · intro e _ ih
    refine ⟨?_, .inr rfl⟩
    have := exprOf_paren hc ih
    simpa [Node.exprText, Node.exprTexts, joinWith] using this
  · intro Cs h1 h2 _ h4 ih
    exact exprOf_chunks hc h1 h2 ih h4

end Fcsql
