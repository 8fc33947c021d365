/-
C89, C90: the records of a failed parse, with the error strategy of the runtime library as it is.
-/
import Verif.Proofs.ErrorStrategyOrder
import Verif.Props.AntlrParse

set_option autoImplicit false
set_option linter.unusedSimpArgs false

namespace Fcsql

attribute [local irreducible] parserAtn parseQuery

/-! ### A runtime with these errors -/

/-- No error is reported exactly for the queries `antlr_parse` accepts. -/
theorem reports_nil {q : PyStr} {rs : List Report} {u : Nat} (h : AntlrReports q rs u) : rs = [] ↔ ∃ t, antlrParse q = .ok t := by
  obtain ⟨T, f, hf⟩ := h.returns
  constructor
  · rintro rfl
    exact ⟨_, (C79_antlr_silent_iff_accepted _ (replay_antlr T) 0 q f).1 hf⟩
  · rintro ⟨t, ht⟩
    obtain ⟨c, hc⟩ := (parseTokens_some _ _).1 (antlrParse_ok.1 ht)
    obtain ⟨f', rfl⟩ := chosen_query_node hc
    have := hf.unique ((C79_antlr_silent_iff_accepted _ (replay_antlr T) 0 q f').2 ht)
    simpa using this.2

theorem listener_ne (q : PyStr) (done u : Nat) {rs : List Report} (h : rs ≠ []) : listenerErrors q done rs u ≠ [] := by
  cases rs with
  | nil => exact absurd rfl h
  | cons r rs => simp [listenerErrors]

/-- A runtime whose syntax errors are those of the runtime library. -/
noncomputable def Runtime.withAntlr (rt : Runtime) : Runtime :=
  { rt with
    syntaxErrors := fun q =>
      match listenerErrors q 0 (antlrReports_exists q).choose (antlrReports_exists q).choose_spec.choose with
      | [] => (.parser (eofTok q) [], [])
      | e :: es => (e, es) }

theorem rawErrors_refused (rt : Runtime) {q : PyStr} (h : ∀ t, antlrParse q ≠ .ok t) :
    rawErrors rt q = (rt.syntaxErrors q).1 :: (rt.syntaxErrors q).2 := by
  cases hp : parseTokens (tokenStream q) with
  | some t => exact absurd (antlrParse_ok.2 hp) (h t)
  | none => rw [rawErrors, hp]

theorem rawErrors_accepted (rt : Runtime) {q : PyStr} {t : PTree} (h : antlrParse q = .ok t) : rawErrors rt q = (lexErrors q).map .lexer := by
  rw [rawErrors, antlrParse_ok.1 h]

theorem Runtime.withAntlr_antlr (rt : Runtime) : rt.withAntlr.Antlr := by
  intro q hq
  have hr := (antlrReports_exists q).choose_spec.choose_spec
  refine ⟨_, _, hr, ?_⟩
  have hne := listener_ne q 0 (antlrReports_exists q).choose_spec.choose
    (rs := (antlrReports_exists q).choose) (fun e => by obtain ⟨t, ht⟩ := (reports_nil hr).1 e; exact hq t ht)
  rw [rawErrors_refused _ hq]
  change (match listenerErrors q 0 (antlrReports_exists q).choose (antlrReports_exists q).choose_spec.choose with
      | [] => ((RawErr.parser (eofTok q) [], []) : RawErr × List RawErr)
      | e :: es => (e, es)).1 :: (match listenerErrors q 0 (antlrReports_exists q).choose (antlrReports_exists q).choose_spec.choose with
      | [] => ((RawErr.parser (eofTok q) [], []) : RawErr × List RawErr)
      | e :: es => (e, es)).2 = _
  revert hne
  cases listenerErrors q 0 (antlrReports_exists q).choose (antlrReports_exists q).choose_spec.choose with
  | nil => intro hne; exact absurd rfl hne
  | cons e es => intro _; rfl

/-! ### C89 -/

/-- **C89.** The parser with this error strategy comes to an end on every query, and what it has reported then is determined
by the query; nothing exactly if `antlr_parse` accepts the query. -/
theorem C89_determined (q : PyStr) : ∃ rs u, (∀ rs' u', AntlrReports q rs' u' ↔ rs' = rs ∧ u' = u) ∧
    (rs = [] ↔ ∃ t, antlrParse q = .ok t) := by
  obtain ⟨rs, u, h⟩ := antlrReports_exists q
  exact ⟨rs, u, fun rs' u' => ⟨fun h' => h'.unique h, fun e => by rw [e.1, e.2]; exact h⟩, reports_nil h⟩

theorem rawErrors_antlr {rt rt' : Runtime} (h : rt.Antlr) (h' : rt'.Antlr) (q : PyStr) : rawErrors rt q = rawErrors rt' q := by
  by_cases hq : ∃ t, antlrParse q = .ok t
  · obtain ⟨t, ht⟩ := hq
    rw [rawErrors_accepted rt ht, rawErrors_accepted rt' ht]
  · have hq : ∀ t, antlrParse q ≠ .ok t := fun t ht => hq ⟨t, ht⟩
    obtain ⟨rs, u, h1, h2⟩ := h q hq
    obtain ⟨rs', u', h3, h4⟩ := h' q hq
    obtain ⟨rfl, rfl⟩ := h1.unique h3
    rw [h2, h4]

/-- **C89.** There are such runtimes (whatever the rest of Python does), and the records of a parse are the same with all of
them and for all settings; so is the exception, if there are records. -/
theorem C89_same_records (rt rt' : Runtime) (h : rt.Antlr) (h' : rt'.Antlr) (cfg cfg' : Config) (q : PyStr) :
    (parseQuery rt cfg q).2 = (parseQuery rt' cfg' q).2 ∧
      ((parseQuery rt cfg q).2 ≠ [] → (parseQuery rt cfg q).1 = (parseQuery rt' cfg' q).1) := by
  have he := rawErrors_antlr h h' q
  by_cases hg : lexErrors q = [] ∧ Grammatical (tokenStream q)
  · obtain ⟨cst, hs⟩ := (grammatical_iff_syntax q).1 hg.2
    rw [parseQuery_syntax rt cfg q hs hg.1, parseQuery_syntax rt' cfg' q hs hg.1]
    exact ⟨rfl, fun hne => absurd rfl hne⟩
  · obtain ⟨e, es, h1, h2⟩ := parseQuery_error rt cfg q hg
    obtain ⟨e', es', h3, h4⟩ := parseQuery_error rt' cfg' q hg
    rw [he, h3] at h1
    cases h1
    rw [h2, h4]
    exact ⟨rfl, fun _ => rfl⟩

theorem C89_exists (rt : Runtime) : rt.withAntlr.Antlr ∧ rt.withAntlr.toPyRuntime = rt.toPyRuntime := ⟨rt.withAntlr_antlr, rfl⟩

/-- A record `d` about what the listener was told. -/
def RecordOf (q : PyStr) : RawErr → ErrorDetail → Prop
  | .lexer p, d => p ∈ lexErrors q ∧ AtPiece q d p
  | .parser t msg, d => t ∈ tokenStream q ∧ AtToken q d t ∧ d.message = msg ∧ Worded (tokenStream q) t msg

theorem raw_antlr {rt : Runtime} (h : rt.Antlr) (q : PyStr) :
    (rawErrors rt q).filterMap RawErr.piece? = lexErrors q ∧ ((rawErrors rt q).filterMap RawErr.tok? = [] ↔ ∃ t, antlrParse q = .ok t) ∧
    (∀ t msg, .parser t msg ∈ rawErrors rt q → t ∈ tokenStream q ∧ Worded (tokenStream q) t msg) ∧
    (∀ as t msg bs, rawErrors rt q = as ++ .parser t msg :: bs → ∀ p ∈ lexErrors q, (p.start : Int) < t.start → .lexer p ∈ as) := by
  by_cases hq : ∃ t, antlrParse q = .ok t
  · obtain ⟨t, ht⟩ := hq
    rw [rawErrors_accepted rt ht]
    have hno : ∀ t msg, RawErr.parser t msg ∉ (lexErrors q).map RawErr.lexer := by
      intro t msg hm
      obtain ⟨p, -, hp⟩ := List.mem_map.1 hm
      cases hp
    refine ⟨pieces_map _, ⟨fun _ => ⟨t, ht⟩, fun _ => ?_⟩, fun t msg hm => absurd hm (hno t msg), ?_⟩
    · rw [List.filterMap_eq_nil_iff]
      intro e he
      obtain ⟨p, -, rfl⟩ := List.mem_map.1 he
      rfl
    · intro as t msg bs e
      exact absurd (by rw [e]; simp) (hno t msg)
  · have hq' : ∀ t, antlrParse q ≠ .ok t := fun t ht => hq ⟨t, ht⟩
    obtain ⟨rs, u, hr, he⟩ := h q hq'
    obtain ⟨T, hT⟩ := hr.reportedBy
    rw [he]
    refine ⟨hr.pieces, ?_, ?_, hT.order⟩
    · rw [listener_toks, List.map_eq_nil_iff]; exact reports_nil hr
    · intro t msg hm
      obtain ⟨as, bs, e⟩ := List.append_of_mem hm
      obtain ⟨f, hf⟩ := hT.parser
      refine ⟨(C79_reports _ 0 q f _ hf).1 t ?_, ?_⟩
      · rw [e, List.filterMap_append, List.filterMap_cons_some (f := RawErr.tok?) (b := t) rfl]; simp
      · obtain ⟨N, hN⟩ := hr
        obtain ⟨rfl, s, hs, rfl⟩ := callE_reading (hN N (Nat.le_refl _))
        obtain ⟨r, hr, rfl, rfl, -⟩ := listener_split q _ _ _ _ _ _ _ hs.order e
        exact hs.worded r hr

theorem parse_records (rt : Runtime) (cfg : Config) (q : PyStr) : (parseQuery rt cfg q).2 = (rawErrors rt q).map (listenerDetail q) := by
  by_cases hg : lexErrors q = [] ∧ Grammatical (tokenStream q)
  · obtain ⟨cst, hs⟩ := (grammatical_iff_syntax q).1 hg.2
    rw [parseQuery_syntax rt cfg q hs hg.1, (rawErrors_nil_iff rt q).2 hg]
    rfl
  · obtain ⟨e, es, h1, h2⟩ := parseQuery_error rt cfg q hg
    rw [h2, h1]
    rfl

/-- **C89.** The records of a parse, completely: each is about a text the lexer does not recognise, or about a token the
parser complained of, with the message in one of the known forms (C90); every text that is not recognised has its record, in
order; there are no others exactly if `antlr_parse` accepts the query; and a text that is not recognised comes before any
token after it. -/
theorem C89_records (rt : Runtime) (h : rt.Antlr) (cfg : Config) (q : PyStr) :
    ∃ es : List RawErr, es.length = (parseQuery rt cfg q).2.length ∧
      (∀ (i : Nat) (e : RawErr) (d : ErrorDetail), es[i]? = some e → (parseQuery rt cfg q).2[i]? = some d → RecordOf q e d) ∧
      es.filterMap RawErr.piece? = lexErrors q ∧
      (es.filterMap RawErr.tok? = [] ↔ ∃ t, antlrParse q = .ok t) ∧
      (∀ as t msg bs, es = as ++ .parser t msg :: bs → ∀ p ∈ lexErrors q, (p.start : Int) < t.start → .lexer p ∈ as) := by
  obtain ⟨h1, h2, h3, h4⟩ := raw_antlr h q
  refine ⟨rawErrors rt q, by rw [parse_records, List.length_map], ?_, h1, h2, h4⟩
  intro i e d he hd
  rw [parse_records, List.getElem?_map, he] at hd
  cases hd
  have hm := List.mem_of_getElem? he
  cases e with
  | lexer p =>
    have hp : p ∈ lexErrors q := by
      rw [← h1]
      exact List.mem_filterMap.2 ⟨_, hm, rfl⟩
    exact ⟨hp, at_piece hp⟩
  | parser t msg => exact ⟨(h3 t msg hm).1, at_token msg (h3 t msg hm).1, rfl, (h3 t msg hm).2⟩

/-- **C89.** When `parse` raises because of syntax, the message of the exception is that of the first record, and this record
is about the first unrecognised text, or about a token (or the end) of the query such that the tokens before it are the
beginning of some query, if nothing before that token is unrecognised. -/
theorem C89_first_record (rt : Runtime) (h : rt.Antlr) (cfg : Config) (q : PyStr) (hq : ¬ (lexErrors q = [] ∧ Grammatical (tokenStream q))) :
    ∃ d ds, parseQuery rt cfg q = (.error ⟨py!"unable to parse query: " ++ d.message⟩, d :: ds) ∧
      ((∃ p ps, lexErrors q = p :: ps ∧ AtPiece q d p) ∨
       ∃ us x vs, tokenStream q = us ++ x :: vs ∧ Begins us ∧ AtToken q d x ∧ ∀ p ∈ lexErrors q, x.start ≤ p.start) := by
  obtain ⟨T, hT⟩ : ∃ T, (∀ t, antlrParse q ≠ .ok t) → ReportedBy (parserAtn.replay T) 0 q (rawErrors rt q) := by
    by_cases hg : ∀ t, antlrParse q ≠ .ok t
    · obtain ⟨rs, u, hr, he⟩ := h q hg
      obtain ⟨T, hT⟩ := hr.reportedBy
      exact ⟨T, fun _ => by rw [he]; exact hT⟩
    · exact ⟨fun _ => .skipped 0, fun h' => absurd h' hg⟩
  obtain ⟨d, ds, h1, h2⟩ := C82_first_record (parserAtn.replay T) (replay_antlr T) 0 rt cfg q hT hq
  refine ⟨d, ds, h1, h2.imp id ?_⟩
  rintro ⟨us, x, vs, e1, e2, e3, e4, -⟩
  exact ⟨us, x, vs, e1, e2, e3, e4⟩

/-! ### C90 -/

/-- **C90.** Every message of the parser is in one of the known forms. -/
theorem C90_worded (q : PyStr) (rs : List Report) (u : Nat) (h : AntlrReports q rs u) (r : Report) (hr : r ∈ rs) :
    r.token ∈ tokenStream q ∧ Worded (tokenStream q) r.token r.message := by
  refine ⟨?_, h.worded r hr⟩
  obtain ⟨T, f, hf⟩ := h.returns
  exact (C79_reports _ 0 q f _ hf).1 _ (List.mem_map_of_mem hr)

/-- **C90.** `antlr_parse` raises `SyntaxError` exactly if it does not accept the query; the message is the place and the
message of the first error. -/
theorem C90_syntax_error (q : PyStr) : ∃ s, (∃ N, ∀ n, N ≤ n → antlrSyntaxError n q = some s) ∧
    ((s = none ↔ ∃ t, antlrParse q = .ok t) ∧
      ∀ msg, s = some msg → ∃ us x vs w, tokenStream q = us ++ x :: vs ∧ Begins us ∧ Worded (tokenStream q) x w ∧
        msg = py!"line " ++ decStr (lineAt q x.start.toNat) ++ py!":" ++ decStr (columnAt q x.start.toNat) ++ py!" " ++ w) := by
  obtain ⟨rs, u, h⟩ := antlrReports_exists q
  have hn := reports_nil h
  have hw := C90_worded q rs u h
  obtain ⟨T, f, hf⟩ := h.returns
  obtain ⟨N, hN⟩ := h
  cases rs with
  | nil =>
    refine ⟨none, ⟨N, fun n hn => by rw [antlrSyntaxError, hN n hn]⟩, ⟨fun _ => hn.1 rfl, fun _ => rfl⟩, ?_⟩
    intro msg hm; cases hm
  | cons r rs =>
    refine ⟨_, ⟨N, fun n hn => by rw [antlrSyntaxError, hN n hn]⟩, ⟨fun e => (by cases e), fun e => absurd (hn.2 e) (by simp)⟩, ?_⟩
    intro msg hm
    cases hm
    obtain ⟨us, vs, hq, hb⟩ := C80_not_late _ (replay_antlr T) 0 q f r.token _ hf
    obtain ⟨h1, h2⟩ := hw r (by simp)
    refine ⟨us, r.token, vs, r.message, hq, hb, h2, ?_⟩
    rw [placeOf_eq h1]
    rfl

/-- Every token type, for checks. -/
theorem all_types {p : TokType → Prop} [DecidablePred p] (h : ∀ t ∈ symbolOrder, p t) (t : TokType) : p t := h t (mem_symbolOrder t)

theorem symbol_apart (s t : TokType) (h : (symbol s ++ py!", ") <+: (symbol t ++ py!", ")) : s = t := by
  have : ∀ s ∈ symbolOrder, ∀ t ∈ symbolOrder, (symbol s ++ py!", ") <+: (symbol t ++ py!", ") → s = t := by decide +kernel
  exact this s (mem_symbolOrder s) t (mem_symbolOrder t) h

theorem symbol_alone (s t : TokType) : ¬ (symbol s ++ py!", ") <+: symbol t := by
  have : ∀ s ∈ symbolOrder, ∀ t ∈ symbolOrder, ¬ (symbol s ++ py!", ") <+: symbol t := by decide +kernel
  exact this s (mem_symbolOrder s) t (mem_symbolOrder t)

theorem symbol_inj (s t : TokType) (h : symbol s = symbol t) : s = t := symbol_apart s t (by rw [h]; exact List.prefix_refl _)

theorem symbol_ne (t : TokType) : symbol t ≠ [] ∧ (symbol t).head? ≠ some 123 := by cases t <;> decide

theorem commas_inj : ∀ l l' : List TokType, commas (l.map symbol) = commas (l'.map symbol) → l = l'
  | [], [], _ => rfl
  | [], [t], h => absurd h.symm (symbol_ne t).1
  | [], t :: u :: l, h => by simp [commas] at h
  | [t], [], h => absurd h (symbol_ne t).1
  | [s], [t], h => by rw [symbol_inj s t h]
  | [s], t :: u :: l, h => by
    refine absurd ?_ (symbol_alone t s)
    simp only [List.map_cons, List.map_nil, commas] at h
    rw [h]
    exact List.prefix_append _ _
  | t :: u :: l, [], h => by simp [commas] at h
  | t :: u :: l, [s], h => by
    refine absurd ?_ (symbol_alone t s)
    simp only [List.map_cons, List.map_nil, commas] at h
    rw [← h]
    exact List.prefix_append _ _
  | s :: a :: l, t :: b :: l', h => by
    have h' : symbol s ++ py!", " ++ commas ((a :: l).map symbol) = symbol t ++ py!", " ++ commas ((b :: l').map symbol) := h
    have hst : s = t := by
      have h1 : (symbol s ++ py!", ") <+: symbol t ++ py!", " ++ commas ((b :: l').map symbol) := by
        rw [← h']; exact List.prefix_append _ _
      have h2 := List.prefix_append (symbol t ++ py!", ") (commas ((b :: l').map symbol))
      rcases List.prefix_or_prefix_of_prefix h1 h2 with h3 | h3
      · exact symbol_apart s t h3
      · exact (symbol_apart t s h3).symm
    subst hst
    rw [commas_inj (a :: l) (b :: l') (List.append_cancel_left h')]

/-- **C90.** A list of expected tokens in a message can be read back: different lists are written differently. -/
theorem C90_readable (l l' : List TokType) : listing l = listing l' ↔ l = l' := by
  refine ⟨fun h => ?_, fun h => by rw [h]⟩
  have brace : ∀ {t : TokType} {s : PyStr}, symbol t ≠ py!"{" ++ s := by
    intro t s e
    exact (symbol_ne t).2 (by rw [e]; rfl)
  unfold listing at h
  split at h <;> split at h
  · exact commas_inj _ _ h
  · rename_i h1 h2
    obtain ⟨t, rfl⟩ := List.length_eq_one_iff.1 h1
    rw [List.append_assoc] at h
    exact absurd h brace
  · rename_i h1 h2
    obtain ⟨t, rfl⟩ := List.length_eq_one_iff.1 h2
    rw [List.append_assoc] at h
    exact absurd h.symm brace
  · exact commas_inj _ _ (List.append_cancel_left (List.append_cancel_right h))

/-! ### Non-vacuity -/

/-- A run with enough steps. -/
theorem parse_of_run {rt : Runtime} (h : rt.Antlr) (cfg : Config) {q : PyStr} {n : Nat} {rs : List Report} {u : Nat}
    (hc : callE parserAtn (eofTok q) code n .query (tokenStream q) = some (rs, u)) (hne : rs ≠ []) :
    (parseQuery rt cfg q).2 = (listenerErrors q 0 rs u).map (listenerDetail q) := by
  have hr := antlrReports_of_callE hc
  obtain ⟨rs', u', h1, h2⟩ := h q fun t ht => hne ((reports_nil hr).2 ⟨t, ht⟩)
  obtain ⟨rfl, rfl⟩ := h1.unique hr
  rw [parse_records, h2]

-- README.md:117
example (rt : Runtime) (h : rt.Antlr) (cfg : Config) : (parseQuery rt cfg py!"pos = NOUN").2 =
    [{ message := py!"mismatched input 'pos' expecting {'(', '[', REGEXP}", type := some py!"syntax-error", position := .loc ⟨0, 3⟩,
       fragment := some py!"pos" }] := by
  have hc : (callE parserAtn (eofTok py!"pos = NOUN") code 20 .query (tokenStream py!"pos = NOUN")) =
      some ([⟨(tokenStream py!"pos = NOUN").headD (eofTok []), py!"mismatched input 'pos' expecting {'(', '[', REGEXP}", 2⟩], 0) := by decide +kernel
  rw [parse_of_run h cfg hc (by simp)]
  decide +kernel

-- tests/validation/test_validation.py:52-60
example (rt : Runtime) (h : rt.Antlr) (cfg : Config) : (parseQuery rt cfg py!"[").2 =
    [{ message := py!"no viable alternative at input '['", type := some py!"syntax-error", position := .loc ⟨1, 1⟩,
       fragment := some py!"[" }] := by
  have hc : (callE parserAtn (eofTok py!"[") code 40 .query (tokenStream py!"[")) =
      some ([⟨eofTok py!"[", py!"no viable alternative at input '['", 0⟩], 0) := by decide +kernel
  rw [parse_of_run h cfg hc (by simp)]
  decide +kernel

-- errors of the lexer and of the parser: when the parser complains of `pos` it has already asked for the token after it, so
-- the lexer has found `$`; what is found later comes later
example (rt : Runtime) (h : rt.Antlr) (cfg : Config) : (parseQuery rt cfg py!"pos $ = # 'a'").2 =
    [{ message := py!"token recognition error at: '$'", type := some py!"syntax-error", position := .offset 4, fragment := none },
     { message := py!"mismatched input 'pos' expecting {'(', '[', REGEXP}", type := some py!"syntax-error", position := .loc ⟨0, 3⟩,
       fragment := some py!"pos" },
     { message := py!"token recognition error at: '#'", type := some py!"syntax-error", position := .offset 8, fragment := none }] := by
  have hc : (callE parserAtn (eofTok py!"pos $ = # 'a'") code 20 .query (tokenStream py!"pos $ = # 'a'")) =
      some ([⟨(tokenStream py!"pos $ = # 'a'").headD (eofTok []), py!"mismatched input 'pos' expecting {'(', '[', REGEXP}", 2⟩], 0) := by decide +kernel
  rw [parse_of_run h cfg hc (by simp)]
  decide +kernel

-- `antlr_parse("'a' )")`
example : antlrSyntaxError 60 py!"'a' )" = some (some py!"line 1:4 extraneous input ')' expecting {<EOF>, 'within'}") := by decide +kernel

-- what C90 lists: all four forms
example : Worded [] (eofTok []) py!"mismatched input '<EOF>' expecting {'(', '[', REGEXP}" :=
  .mismatched [.L_PAREN, .L_SQUARE_BRACKET, .REGEXP] (by decide) (by decide) (by decide)

end Fcsql
