/-
C95, C96: `QueryParser.parse` and `antlr_parse` with everything they set in motion.
-/
import Verif.Proofs.ProgramRun
import Verif.Props.Messages
import Verif.Props.TreeBuilder
import Verif.Props.Adaptive
import Verif.Spec.Program
import Verif.Props.Examples

set_option autoImplicit false
set_option linter.unusedSimpArgs false

namespace Fcsql

attribute [local irreducible] parserAtn parseQuery lexerAtn lexPieces

/-! ### What the listener is told -/

theorem record_callOf {q : PyStr} {e : RawErr} (h : ∀ t msg, e = .parser t msg → t ∈ tokenStream q) :
    (callOf q e).record q = listenerDetail q e := by
  cases e with
  | lexer p => rfl
  | parser t msg =>
    have ht := tok_rawOf (h t msg rfl)
    have h1 : (rawOf q t).text q = t.text := congrArg Tok.text ht
    have h2 : ((rawOf q t).start : Int) = t.start := congrArg Tok.start ht
    simp only [callOf, ListenerCall.record, listenerDetail, ht, h1, h2]
    rfl

/-- The run of the generated parser, with all it does on the way. -/
theorem callP_total (m : Nat) (hm : 28 ≤ m) (q : PyStr) : ∃ N rs f, AntlrReports q rs 0 ∧
    (∀ n, N ≤ n → callP lexerAtn m q parserAtn code n .query = some (f, (listenerErrors q 0 rs 0).map (callOf q))) ∧
    (∀ n, callP lexerAtn m q parserAtn code n .query = none ∨
      callP lexerAtn m q parserAtn code n .query = some (f, (listenerErrors q 0 rs 0).map (callOf q))) ∧
    (rs = [] → antlrParse q = .ok (.node .query f)) := by
  obtain ⟨rs, u, hr⟩ := antlrReports_exists q
  have hr' := hr
  obtain ⟨N, hN⟩ := hr
  obtain ⟨rfl, -⟩ := callE_reading (hN N (Nat.le_refl _))
  have hc : ∀ n, N ≤ n → (callP lexerAtn m q parserAtn code n .query).map Prod.snd = some ((listenerErrors q 0 rs 0).map (callOf q)) := by
    intro n hn
    rw [callP_calls hm, hN n hn]
    rfl
  cases h0 : callP lexerAtn m q parserAtn code N .query with
  | none => have := hc N (Nat.le_refl _); rw [h0] at this; cases this
  | some r =>
    obtain ⟨f, cs⟩ := r
    have h1 := hc N (Nat.le_refl _)
    rw [h0] at h1
    simp only [Option.map_some, Option.some.injEq] at h1
    subst h1
    have hall : ∀ n, N ≤ n → callP lexerAtn m q parserAtn code n .query = some (f, (listenerErrors q 0 rs 0).map (callOf q)) :=
      fun n hn => callP_mono hn h0
    refine ⟨N, rs, f, hr', hall, ?_, ?_⟩
    · intro n
      cases hx : callP lexerAtn m q parserAtn code n .query with
      | none => exact .inl rfl
      | some r =>
        right
        rw [← hall (max n N) (Nat.le_max_right ..), ← hx]
        exact (hx.trans (callP_mono (Nat.le_max_left n N) hx).symm)
    · intro hnil
      obtain ⟨t, ht⟩ := (reports_nil hr').1 hnil
      obtain ⟨c, hcs⟩ := (parseTokens_some _ _).1 (antlrParse_ok.1 ht)
      obtain ⟨f', rfl⟩ := chosen_query_node hcs
      obtain ⟨M, hM⟩ := ((C87_generated_parser q).1 f' []).2 ⟨ht, rfl⟩
      have h2 := callP_forest (A := parserAtn) (prog := code) hm (max M N) q f' [] (hM _ (Nat.le_max_left ..))
      rw [hall _ (Nat.le_max_right ..)] at h2
      simp only [Option.map_some, Option.some.injEq] at h2
      rw [h2]
      exact ht

theorem filter_ofParser (q : PyStr) (es : List RawErr) :
    (((es.map (callOf q)).filter ListenerCall.ofParser).length = 0) ↔ es.filterMap RawErr.tok? = [] := by
  induction es with
  | nil => simp
  | cons e es ih => cases e <;> simp_all [callOf, ListenerCall.ofParser, RawErr.tok?]

theorem isEmpty_false {α : Type} {l : List α} (h : l ≠ []) : l.isEmpty = false := by cases l <;> simp_all

/-! ### C95 -/

/-- **C95.** The whole program - tokens fetched from the lexer when they are asked for, the generated parser with prediction and
error recovery, the listener called by both in between, the tree builder - comes to an end on every query, and the outcome
and `errors` are those of `parseQuery`, of which the other properties speak; with any bound on the number of steps there is
this answer or none. -/
theorem C95_program (L A : Atn) (hL : deserialize lexerData = some L) (hA : deserialize parserData = some A) (m : Nat) (hm : 28 ≤ m)
    (rt : Runtime) (hrt : rt.Antlr) (cfg : Config) (q : PyStr) :
    (∃ N, ∀ n, N ≤ n → parseProgram L A m n rt.toPyRuntime cfg q = some (parseQuery rt cfg q)) ∧
    ∀ n, parseProgram L A m n rt.toPyRuntime cfg q = none ∨ parseProgram L A m n rt.toPyRuntime cfg q = some (parseQuery rt cfg q) := by
  rw [lexerAtn_eq] at hL
  rw [parserAtn_eq] at hA
  cases hL
  cases hA
  obtain ⟨N, rs, f, hr, h1, h2, h3⟩ := callP_total m hm q
  have key : ∀ n, callP lexerAtn m q parserAtn code n .query = some (f, (listenerErrors q 0 rs 0).map (callOf q)) →
      parseProgram lexerAtn parserAtn m n rt.toPyRuntime cfg q = some (parseQuery rt cfg q) := by
    intro n hn
    have hraw : rawErrors rt q = listenerErrors q 0 rs 0 := by
      by_cases hq : ∃ t, antlrParse q = .ok t
      · obtain ⟨t, ht⟩ := hq
        have : rs = [] := (reports_nil hr).2 ⟨t, ht⟩
        subst this
        rw [rawErrors_accepted rt ht, listenerErrors, lexErrorsBy_zero, List.drop_zero]
      · obtain ⟨rs', u', h4, h5⟩ := hrt q fun t ht => hq ⟨t, ht⟩
        obtain ⟨rfl, rfl⟩ := h4.unique hr
        exact h5
    obtain ⟨-, r2, r3, -⟩ := raw_antlr hrt q
    have hrec : ((listenerErrors q 0 rs 0).map (callOf q)).map (ListenerCall.record q) = (rawErrors rt q).map (listenerDetail q) := by
      rw [← hraw, List.map_map]
      refine List.map_congr_left fun e he => record_callOf fun t msg h => ?_
      subst h
      exact (r3 t msg he).1
    unfold parseProgram parseOutcome
    rw [hn]
    simp only
    rw [hrec, ← hraw]
    by_cases hg : lexErrors q = [] ∧ Grammatical (tokenStream q)
    · have hnil : rawErrors rt q = [] := (rawErrors_nil_iff rt q).2 hg
      have hrs : rs = [] := by
        cases rs with
        | nil => rfl
        | cons r rs => rw [hnil] at hraw; exact absurd hraw.symm (listener_ne q 0 0 (by simp))
      have hp := parse_records rt cfg q
      rw [hnil] at hp ⊢
      have ht := C77_parse rt cfg q _ (h3 hrs) hg.1
      simp only [List.map_nil, List.filter_nil, List.isEmpty_nil, List.length_nil, decide_true, Bool.and_self, if_true, ← ht]
      rw [Option.some.injEq]
      exact Prod.ext rfl hp.symm
    · obtain ⟨e, es, h4, h5⟩ := parseQuery_error rt cfg q hg
      rw [h4, h5]
      simp
  exact ⟨⟨N, fun n hn => key n (h1 n hn)⟩, fun n => (h2 n).imp (fun h => by unfold parseProgram; rw [h]) (key n)⟩

-- `$` is fetched, and reported, before the parser complains about `)`; the call about `#` comes after that
example : (parseProgram lexerAtn parserAtn 28 60 rt0.toPyRuntime defaultConfig py!"'a' $ ) 'b' #").map Prod.snd = some
    [{ message := py!"token recognition error at: '$'", type := some py!"syntax-error", position := .offset 4, fragment := none },
     { message := py!"mismatched input ')' expecting {<EOF>, 'within'}", type := some py!"syntax-error", position := .loc ⟨6, 7⟩,
       fragment := some py!"'a' $ )" },
     { message := py!"token recognition error at: '#'", type := some py!"syntax-error", position := .offset 12, fragment := none }] := by
  decide +kernel

-- a query without errors
example : parseProgram lexerAtn parserAtn 28 200 rt0.toPyRuntime defaultConfig py!"[ word = 'a' ]" =
    some (parseQuery rt0 defaultConfig py!"[ word = 'a' ]") := by
  decide +kernel

/-! ### C96 -/

theorem listeners_lexer (q : PyStr) : ∀ ps : List Piece, (∀ p ∈ ps, p ∈ lexErrors q) → ∀ cs : List ListenerCall,
    antlrListeners ((ps.map RawErr.lexer).map (callOf q) ++ cs) =
      (ps.map (errorLine q) ++ (antlrListeners cs).1, (antlrListeners cs).2) := by
  intro ps
  induction ps with
  | nil => intro _ cs; rfl
  | cons p ps ih =>
    intro h cs
    have hp := piece_column (List.mem_filter.1 (h p (List.mem_cons_self ..))).1
    rw [List.map_cons, List.map_cons, List.cons_append, callOf, antlrListeners, ih (fun p hp => h p (List.mem_cons_of_mem _ hp)) cs]
    simp only [List.map_cons, List.cons_append, reportOf, consoleLine, errorLine, LexReport.message, hp]
    simp [List.append_assoc]

/-- **C96.** `antlr_parse` comes to an end on every query, in one way.  If it accepts the query it returns the tree of C09-C11,
and has printed a line about every text the lexer does not recognise, and nothing else.  If not, it raises `SyntaxError` (the
one of C90) about a token, or the end, such that the tokens before it are the beginning of some query; the last line printed
is the message of the exception, and before it there are lines about unrecognised texts from the first one on, with all of
those before the token. -/
theorem C96_program (L A : Atn) (hL : deserialize lexerData = some L) (hA : deserialize parserData = some A) (m : Nat) (hm : 28 ≤ m)
    (q : PyStr) : ∃ out r, (∃ N, ∀ n, N ≤ n → antlrProgram L A m n q = some (out, r)) ∧
      (∀ n, antlrProgram L A m n q = none ∨ antlrProgram L A m n q = some (out, r)) ∧
      (∀ t, r = .ok t ↔ antlrParse q = .ok t) ∧
      (∀ t, r = .ok t → out = (lexErrors q).map (errorLine q)) ∧
      ∀ msg, r = .error msg →
        (∃ K, ∀ n, K ≤ n → antlrSyntaxError n q = some (some msg)) ∧
        ∃ ps us x vs w, out = ps.map (errorLine q) ++ [msg] ∧ ps <+: lexErrors q ∧ tokenStream q = us ++ x :: vs ∧ Begins us ∧
          Worded (tokenStream q) x w ∧ (∀ p ∈ lexErrors q, (p.start : Int) < x.start → p ∈ ps) ∧
          msg = py!"line " ++ decStr (lineAt q x.start.toNat) ++ py!":" ++ decStr (columnAt q x.start.toNat) ++ py!" " ++ w := by
  rw [lexerAtn_eq] at hL
  rw [parserAtn_eq] at hA
  cases hL
  cases hA
  obtain ⟨N, rs, f, hr, h1, h2, h3⟩ := callP_total m hm q
  cases rs with
  | nil =>
    have h3 := h3 rfl
    have hl : antlrListeners ((listenerErrors q 0 [] 0).map (callOf q)) = ((lexErrors q).map (errorLine q), none) := by
      rw [listenerErrors, lexErrorsBy_zero, List.drop_zero]
      have := listeners_lexer q (lexErrors q) (fun p hp => hp) []
      rw [List.append_nil] at this
      rw [this]
      simp [antlrListeners]
    have key : ∀ n, callP lexerAtn m q parserAtn code n .query = some (f, (listenerErrors q 0 [] 0).map (callOf q)) →
        antlrProgram lexerAtn parserAtn m n q = some ((lexErrors q).map (errorLine q), .ok (.node .query f)) := by
      intro n hn
      unfold antlrProgram antlrOutcome
      rw [hn]
      simp only
      rw [hl]
    refine ⟨_, _, ⟨N, fun n hn => key n (h1 n hn)⟩, fun n => (h2 n).imp (fun h => by unfold antlrProgram; rw [h]) (key n), ?_, ?_, ?_⟩
    · intro t
      rw [h3]
      simp
    · intro t _; rfl
    · intro msg h; cases h
  | cons r rs =>
    obtain ⟨hmem, hw⟩ := C90_worded q _ _ hr r (by simp)
    have hraw := hr
    obtain ⟨T, f', hf⟩ := hr.returns
    obtain ⟨us, vs, hq, hb⟩ := C80_not_late _ (replay_antlr T) 0 q f' r.token _ hf
    obtain ⟨T', hT⟩ := hr.reportedBy
    have hpre : lexErrorsBy q r.unread <+: lexErrors q := lexErrorsBy_prefix q _
    have hord := hT.order ((lexErrorsBy q r.unread).map .lexer) r.token r.message _ (by rw [listenerErrors, List.drop_zero])
    have hl : antlrListeners ((listenerErrors q 0 (r :: rs) 0).map (callOf q)) =
        ((lexErrorsBy q r.unread).map (errorLine q) ++ [consoleLine (lineAt q r.token.start.toNat) (columnAt q r.token.start.toNat) r.message],
          some (consoleLine (lineAt q r.token.start.toNat) (columnAt q r.token.start.toNat) r.message)) := by
      rw [listenerErrors, List.drop_zero, List.map_append, listeners_lexer q _ fun p hp => hpre.subset hp, List.map_cons, callOf, antlrListeners]
      rfl
    have key : ∀ n, callP lexerAtn m q parserAtn code n .query = some (f, (listenerErrors q 0 (r :: rs) 0).map (callOf q)) →
        antlrProgram lexerAtn parserAtn m n q = some ((lexErrorsBy q r.unread).map (errorLine q) ++ [consoleLine (lineAt q r.token.start.toNat) (columnAt q r.token.start.toNat) r.message],
          .error (consoleLine (lineAt q r.token.start.toNat) (columnAt q r.token.start.toNat) r.message)) := by
      intro n hn
      unfold antlrProgram antlrOutcome
      rw [hn]
      simp only
      rw [hl]
    refine ⟨_, _, ⟨N, fun n hn => key n (h1 n hn)⟩, fun n => (h2 n).imp (fun h => by unfold antlrProgram; rw [h]) (key n), ?_, ?_, ?_⟩
    · intro t
      constructor
      · intro h; cases h
      · intro ht
        have := (reports_nil hr).2 ⟨t, ht⟩
        cases this
    · intro t h; cases h
    · intro msg h
      cases h
      refine ⟨?_, lexErrorsBy q r.unread, us, r.token, vs, r.message, rfl, hpre, hq, hb, hw, ?_, rfl⟩
      · obtain ⟨K, hK⟩ := hr
        refine ⟨K, fun n hn => ?_⟩
        rw [antlrSyntaxError, hK n hn]
        simp only
        rw [placeOf_eq hmem]
        rfl
      · intro p hp hlt
        have := hord p hp hlt
        obtain ⟨p', h4, h5⟩ := List.mem_map.1 this
        cases h5
        exact h4

-- two lines printed, the second one is that of the exception; `#` is never read
example : ((antlrProgram lexerAtn parserAtn 28 60 py!"'a' $\n ) 'b' #").map fun o => (o.1, match o.2 with | .ok _ => none | .error e => some e)) =
    some ([py!"line 1:4 token recognition error at: '$'", py!"line 2:1 mismatched input ')' expecting {<EOF>, 'within'}"],
      some py!"line 2:1 mismatched input ')' expecting {<EOF>, 'within'}") := by
  decide +kernel

-- accepted, with a line printed
example : (antlrProgram lexerAtn parserAtn 28 60 py!"'a' $").map Prod.fst = some [py!"line 1:4 token recognition error at: '$'"] := by
  decide +kernel

end Fcsql
