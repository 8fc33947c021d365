/-
C91: the first message of the parser says something true about the query.
-/
import Verif.Proofs.ErrorStrategyFirst
import Verif.Props.Messages

set_option autoImplicit false
set_option linter.unusedSimpArgs false

namespace Fcsql

attribute [local irreducible] parserAtn parseQuery

/-- **C91.** The first message of the parser about a query, and the token it is about: the tokens before it are the beginning
of a query; what the message lists as expected could have come instead of the token, each of it, and the token is not listed;
a token said to be extraneous is followed by one of the listed; and if one of the tokens listed as missing is put before the
token, the tokens including it are the beginning of a query. -/
theorem C91_first_message (q : PyStr) (r : Report) (rs : List Report) (u : Nat) (h : AntlrReports q (r :: rs) u) :
    ∃ us vs, tokenStream q = us ++ r.token :: vs ∧ Begins us ∧ Helpful us r.token vs r.message := by
  obtain ⟨T, f, hf⟩ := h.returns
  obtain ⟨us, vs, hq, hb⟩ := C80_not_late _ (replay_antlr T) 0 q f r.token _ hf
  obtain ⟨N, hN⟩ := h
  obtain ⟨us', vs', hq', hh⟩ := first_helpful (hN N (Nat.le_refl _))
  have := place_unique hq' hq
  subst this
  exact ⟨us', vs', hq', hb, hh⟩

theorem laid_then {p w : PyStr} {us : List Tok} {t : TokType} (h : LaidAt 0 us p) (hw : TokenText t w) :
    ∃ y : Tok, y.type = t ∧ LaidAt 0 (us ++ [y]) (p ++ 32 :: w) := by
  refine ⟨tokAt (0 + p.length + 1) t w, rfl, ?_⟩
  refine h.append (LaidAt.pre_ws (ws := [32]) (LaidAt.one hw) (by simp; decide)) ?_
  intro c hc
  simp only [List.singleton_append, List.head?_cons, Option.some.injEq] at hc
  subst hc
  exact free_ws (by decide)

theorem begins_inner {us : List Tok} {y : Tok} (h : Begins (us ++ [y])) (hy : y.type ≠ .EOF) : innerTy y.type = true := by
  obtain ⟨ws, f, c, hd⟩ := h
  obtain ⟨vs, x, e, hx, hv⟩ := query_tokens hd
  have : y ∈ vs ++ [x] := by rw [← e]; simp
  rcases List.mem_append.1 this with h' | h'
  · exact hv y h'
  · rw [List.mem_singleton] at h'
    subst h'
    exact absurd hx hy

theorem offers {p : PyStr} {us : List Tok} {l : List TokType} (h : LaidAt 0 us p) (hl : ∀ y : Tok, y.type ∈ l → Begins (us ++ [y])) : Offers p l := by
  refine ⟨fun t ht hne => ⟨someText t, someText_ok (begins_inner (hl ⟨t, [], 0, 0⟩ ht) hne)⟩, ?_, ?_⟩
  · intro t ht w hw
    obtain ⟨y, hy, hlay⟩ := laid_then h hw
    obtain ⟨rest, t', h'⟩ := begins_text hlay (hl y (hy ▸ ht))
    exact ⟨_, t', h'⟩
  · intro he
    have := hl (eofTok p) he
    refine (begins_stream p).1 ?_
    rw [tokenStream, ((laidAt_iff _ _).1 h).2]
    exact this

/-- **C91.** The same for the texts of queries without unrecognised characters: what the first message lists as expected can be
written after what is before the offending token, any text of that type, and the whole be completed to a query that is
accepted; if `<EOF>` is listed, what is before the token is accepted as it is. -/
theorem C91_advice (q : PyStr) (hl : lexErrors q = []) (r : Report) (rs : List Report) (u : Nat) (h : AntlrReports q (r :: rs) u) :
    CanComplete (q.take r.token.start.toNat) ∧ Advice q r.token r.message := by
  obtain ⟨us, vs, hq, hb, hh⟩ := C91_first_message q r rs u h
  have hlay := laid_before hl hq
  refine ⟨text_before hl hq hb, ?_⟩
  cases hh with
  | mismatched l h1 h2 h3 h4 h5 => exact .mismatched l h1 h4 h3 (offers hlay h5)
  | extraneous l h1 h2 h3 h4 h5 h6 =>
    obtain ⟨z, ws, rfl, hz⟩ := h6
    exact .extraneous l us z ws h1 h4 h3 (offers hlay h5) hq hz
  | missing l h1 h2 h3 h4 h5 =>
    have hin : ∀ t ∈ l, innerTy t = true := by
      intro t ht
      obtain ⟨ws, f, c, hd⟩ := h5 ⟨t, [], 0, 0⟩ ht
      obtain ⟨vs', x, e, hx, hv⟩ := query_tokens hd
      rw [show us ++ [⟨t, [], 0, 0⟩, r.token] ++ ws = (us ++ [⟨t, [], 0, 0⟩]) ++ (r.token :: ws) by simp] at e
      rcases List.eq_nil_or_concat (r.token :: ws) with h0 | ⟨l', z, h0⟩
      · cases h0
      · rw [h0, List.concat_eq_append, ← List.append_assoc] at e
        exact hv ⟨t, [], 0, 0⟩ (by rw [← (List.append_inj' e rfl).1]; simp)
    refine .missing l h1 h4 h3 (fun t ht => ⟨someText t, someText_ok (hin t ht)⟩) ?_
    intro t ht w hw
    obtain ⟨y, hy, hlay'⟩ := laid_then hlay hw
    refine offers hlay' ?_
    intro x' hx'
    rw [List.mem_singleton] at hx'
    obtain ⟨ws, f, c, hd⟩ := h5 y (hy ▸ ht)
    obtain ⟨f', hd'⟩ := D_types hd (us ++ [y] ++ [x'] ++ ws) (by simp [hx'])
    exact ⟨ws, f', c, hd'⟩
  | noViable ws mid h1 h2 => exact .noViable ws mid vs (by rw [hq, h1]) h2

/-- **C91.** So `errors[0]` after a failed `parse`, if no character was unrecognised. -/
theorem C91_record (rt : Runtime) (h : rt.Antlr) (cfg : Config) (q : PyStr) (hl : lexErrors q = []) (hq : ∀ t, antlrParse q ≠ .ok t) :
    ∃ d ds x, parseQuery rt cfg q = (.error ⟨py!"unable to parse query: " ++ d.message⟩, d :: ds) ∧ x ∈ tokenStream q ∧
      AtToken q d x ∧ CanComplete (q.take x.start.toNat) ∧ Advice q x d.message := by
  have hg : ¬ (lexErrors q = [] ∧ Grammatical (tokenStream q)) := by
    rintro ⟨-, hg⟩
    obtain ⟨t, ht⟩ := (grammatical_iff _).1 hg
    exact hq t (antlrParse_ok.2 ht)
  obtain ⟨d, ds, h1, -⟩ := C89_first_record rt h cfg q hg
  obtain ⟨rs, u, hr, he⟩ := h q hq
  have hrec := parse_records rt cfg q
  rw [h1, he] at hrec
  cases rs with
  | nil =>
    obtain ⟨t, ht⟩ := (reports_nil hr).1 rfl
    exact absurd ht (hq t)
  | cons r rs =>
    have hnone : lexErrorsBy q r.unread = [] := by
      have := hr.pieces
      rw [hl, List.filterMap_eq_nil_iff] at this
      cases hby : lexErrorsBy q r.unread with
      | nil => rfl
      | cons p ps =>
        have := this (.lexer p) (by rw [listenerErrors, hby]; simp)
        cases this
    rw [listenerErrors, hnone] at hrec
    simp only [List.drop_nil, List.map_nil, List.nil_append, List.map_cons, List.cons.injEq] at hrec
    have ha := C91_advice q hl r rs u hr
    have hm := (C90_worded q _ u hr r (by simp)).1
    refine ⟨d, ds, r.token, h1, hm, ?_, ha.1, ?_⟩
    · rw [hrec.1]; exact at_token r.message hm
    · rw [hrec.1]; exact ha.2

/-! ### Non-vacuity -/

/-- A run whose first message is known. -/
theorem advice_of_run {q : PyStr} {n : Nat} {x : Tok} {msg : PyStr} (hl : lexErrors q = [])
    (hc : (callE parserAtn (eofTok q) code n .query (tokenStream q)).map (fun p => p.1.head?.map fun r => (r.token, r.message)) = some (some (x, msg))) :
    CanComplete (q.take x.start.toNat) ∧ Advice q x msg := by
  cases hr : callE parserAtn (eofTok q) code n .query (tokenStream q) with
  | none => rw [hr] at hc; cases hc
  | some p =>
    obtain ⟨rs, u⟩ := p
    rw [hr] at hc
    cases rs with
    | nil => simp at hc
    | cons r rs =>
      simp only [Option.map_some, List.head?_cons, Option.some.injEq, Prod.mk.injEq] at hc
      obtain ⟨rfl, rfl⟩ := hc
      exact C91_advice q hl r rs u (antlrReports_of_callE hr)

-- all four kinds of messages are first messages of queries
example : Advice py!"pos = NOUN" ((tokenStream py!"pos = NOUN").headD (eofTok [])) py!"mismatched input 'pos' expecting {'(', '[', REGEXP}" :=
  (advice_of_run (n := 20) (by decide +kernel) (by decide +kernel)).2

example : Advice py!"'a' )" ((tokenStream py!"'a' )").getD 1 (eofTok [])) py!"extraneous input ')' expecting {<EOF>, 'within'}" :=
  (advice_of_run (n := 60) (by decide +kernel) (by decide +kernel)).2

example : Advice py!"'a' within" (eofTok py!"'a' within") py!"missing SIMPLE_WITHIN_SCOPE at '<EOF>'" :=
  (advice_of_run (n := 60) (by decide +kernel) (by decide +kernel)).2

example : Advice py!"[a = b]" ((tokenStream py!"[a = b]").getD 3 (eofTok [])) py!"no viable alternative at input '[a=b'" :=
  (advice_of_run (n := 60) (by decide +kernel) (by decide +kernel)).2

-- what is said about `'a' )`: `'a'` alone is a query, and `within` can follow it
example : (∃ t, antlrParse py!"'a' " = .ok t) ∧ CanComplete py!"'a'  within" := by
  have h := (advice_of_run (q := py!"'a' )") (n := 60) (x := (tokenStream py!"'a' )").getD 1 (eofTok []))
    (msg := py!"extraneous input ')' expecting {<EOF>, 'within'}") (by decide +kernel) (by decide +kernel)).2
  have e : (py!"'a' )").take ((tokenStream py!"'a' )").getD 1 (eofTok [])).start.toNat = py!"'a' " := by decide +kernel
  cases h with
  | mismatched l h1 h2 h3 h4 => exact absurd (List.cons.inj h3).1 (by decide)
  | missing l h1 h2 h3 h4 => exact absurd (List.cons.inj h3).1 (by decide)
  | noViable us mid vs h1 h2 => exact absurd (List.cons.inj h2).1 (by decide)
  | extraneous l us z vs h1 h2 h3 h4 h5 h6 =>
    have hlst : l = [.EOF, .WITHIN] := by
      have e : (py!"extraneous input ')' expecting {<EOF>, 'within'}" : PyStr) = py!"extraneous input " ++
        quoted ((tokenStream py!"'a' )").getD 1 (eofTok [])).text ++ py!" expecting " ++ listing [.EOF, .WITHIN] := by decide +kernel
      rw [e] at h3
      exact ((C90_readable _ _).1 (List.append_cancel_left h3)).symm
    subst hlst
    rw [e] at h4
    exact ⟨h4.eof (by simp), h4.tok .WITHIN (by simp) py!"within" (.fixed (by decide))⟩

-- the list need not be complete: `'b'` could follow `'a'` as well
example : ∃ t, antlrParse py!"'a' 'b'" = .ok t := antlrParse_toBool (by decide +kernel)

end Fcsql
