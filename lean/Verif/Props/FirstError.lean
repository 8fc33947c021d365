/-
C80, C88: where the first syntax error is reported.
-/
import Verif.Proofs.FirstErrorText
import Verif.Proofs.Adjacent
import Verif.Props.Recovery

set_option autoImplicit false
set_option linter.unusedSimpArgs false

namespace Fcsql

attribute [local irreducible] parseQuery

variable {σ : Type} {S : Strategy σ} {m : σ}

/-- The start of the rule `query`, before the first token. -/
theorem onTrack_start {e : Nat} (he : parserAtn.isStop e = true)
    (hi : Impl parserAtn (body .query) (code .query) (parserAtn.start .query) e (followOf .query)) {us : List Tok} {x : Tok}
    {vs : List Tok} (h : Begins us) : OnTrack parserAtn Begins us x vs (parserAtn.start .query) [] (us ++ x :: vs) := by
  have hacc : ∀ w, Accepts parserAtn (parserAtn.start .query) [] w ↔ ∃ f c, D (.rule .query) w f c := by
    intro w
    rw [hi.seg.accepts code_ok.impl]
    constructor
    · rintro ⟨u, v, f, c, rfl, hd, hv⟩
      rw [accepts_stop_nil code_ok.impl he] at hv
      subst hv
      exact ⟨_, c, by rw [List.append_nil]; exact .rule hd⟩
    · rintro ⟨f, c, hd⟩
      obtain ⟨f', hd, -⟩ := D_rule.1 hd
      exact ⟨w, [], f', c, by simp, hd, (accepts_stop_nil code_ok.impl he).2 rfl⟩
  refine ⟨[], us, rfl, rfl, ?_, ?_⟩
  · obtain ⟨ws, f, c, hd⟩ := h
    exact ⟨ws, (hacc _).2 ⟨f, c, hd⟩⟩
  · rintro w ⟨ws, hw⟩
    obtain ⟨f, c, hd⟩ := (hacc _).1 hw
    exact ⟨ws, f, c, hd⟩

/-- What is reported first. -/
theorem first_report (hS : S.Exact parserAtn) {q : PyStr} {f : List PTree} {es : List Tok}
    (h : Returns S m (eofTok q) code .query (tokenStream q) f es) {us vs : List Tok} {x : Tok}
    (hq : tokenStream q = us ++ x :: vs) (hu : Begins us) (hx : ¬ Begins (us ++ [x])) : es.head? = some x := by
  obtain ⟨e, he, hi⟩ := code_ok.rule .query
  obtain ⟨N, hN⟩ := h
  have hN := hN N (Nat.le_refl _)
  have hg := first_of_impl (S := S) (eof := eofTok q) (vs := vs) code_ok hS hx N hi N (Nat.le_refl _) [] []
    { rest := tokenStream q, stuck := 0, recovering := false, reports := [], mem := m }
    (fun _ => True) ⟨rfl, rfl⟩ (by dsimp only; rw [hq]; exact onTrack_start he hi hu) (by
      intro w hw
      rw [accepts_stop_nil code_ok.impl he] at hw
      subst hw
      decide) (by
      intro m' _ st' h1 _
      cases m' with
      | zero => simp [execR, UpTo]
      | succ m' => rw [execR]; exact .inl ⟨h1, trivial⟩)
  rw [List.append_nil] at hg
  unfold callR at hN
  cases hex : execR S (eofTok q) code N [] (code .query)
      { rest := tokenStream q, stuck := 0, recovering := false, reports := [], mem := m } with
  | timeout => rw [hex] at hN; cases hN
  | ok f' s' =>
    rw [hex] at hN hg
    simp only [Option.some.injEq, Prod.mk.injEq] at hN
    obtain ⟨rfl, rfl⟩ := hN
    rcases hg with ⟨h1, -⟩ | hg
    · exfalso
      have hs : Returns S m (eofTok q) code .query (tokenStream q) f' [] := by
        refine ⟨N, fun n hn => ?_⟩
        have := execR_mono (S := S) (eof := eofTok q) (prog := code) hn (by rw [hex]; simp)
        rw [callR, this, hex]
        show some (f', s'.reports) = _
        rw [h1.1]
      have ha := (C79_silent_iff_accepted S hS.ideal m q f').1 hs
      have := (begins_stream q).2 ⟨_, ha⟩
      rw [hq] at this
      have e2 : us ++ x :: vs = (us ++ [x]) ++ vs := by simp
      rw [e2] at this
      exact hx this.left
    · exact hg
  | raised k s' =>
    rw [hex] at hN hg
    simp only [Option.some.injEq, Prod.mk.injEq] at hN
    obtain ⟨-, rfl⟩ := hN
    exact caught_head hg

/-! ### C80 -/

/-- **C80.** A query is malformed exactly if there is a token at which it stops being the beginning of some query (the tokens
before it are one, with it they are not); there is only one such token. -/
theorem C80_malformed_iff (q : PyStr) : (∀ t, antlrParse q ≠ .ok t) ↔
    ∃ us x vs, (tokenStream q = us ++ x :: vs ∧ Begins us ∧ ¬ Begins (us ++ [x])) ∧
      ∀ us' x' vs', tokenStream q = us' ++ x' :: vs' → Begins us' → ¬ Begins (us' ++ [x']) → us' = us ∧ x' = x ∧ vs' = vs := by
  constructor
  · intro h
    have hn : ¬ Begins (tokenStream q) := fun hb => by
      obtain ⟨t, ht⟩ := (begins_stream q).1 hb
      exact h t ht
    obtain ⟨us, x, vs, e, h1, h2⟩ := first_bad (tokenStream q) [] begins_nil (by simpa using hn)
    rw [List.nil_append] at e
    refine ⟨us, x, vs, ⟨e, h1, h2⟩, fun us' x' vs' e' h1' h2' => ?_⟩
    exact first_bad_unique (e'.symm.trans e) h1' h1 h2' h2
  · rintro ⟨us, x, vs, ⟨e, h1, h2⟩, -⟩ t ht
    have := (begins_stream q).2 ⟨t, ht⟩
    rw [e, show us ++ x :: vs = (us ++ [x]) ++ vs by simp] at this
    exact h2 this.left

/-! ### C88

Exactness, for prediction that looks ahead as far as it can (`Strategy.Exact`).  The prediction of the runtime library does
not (Props/EarlyError.lean), so this is only part of C88. -/

/-- **C88.** With exact prediction, the first error the generated parser reports is at that token, whatever its error
strategy does. -/
theorem C88_first_error_partial (S : Strategy σ) (hS : S.Exact parserAtn) (m : σ) (q : PyStr) (f : List PTree) (es : List Tok)
    (h : Returns S m (eofTok q) code .query (tokenStream q) f es) (us : List Tok) (x : Tok) (vs : List Tok)
    (hq : tokenStream q = us ++ x :: vs) : es.head? = some x ↔ Begins us ∧ ¬ Begins (us ++ [x]) := by
  constructor
  · intro hx
    have hm : ∀ t, antlrParse q ≠ .ok t := by
      intro t ht
      obtain ⟨c, hc⟩ := (parseTokens_some _ _).1 (antlrParse_ok.1 ht)
      obtain ⟨f', rfl⟩ := chosen_query_node hc
      have := h.unique ((C79_silent_iff_accepted S hS.ideal m q f').2 ht)
      rw [this.2] at hx
      cases hx
    obtain ⟨us', x', vs', ⟨e', h1, h2⟩, -⟩ := (C80_malformed_iff q).1 hm
    have := first_report hS h e' h1 h2
    rw [hx] at this
    cases this
    -- the same token, so the same place
    rw [hq] at e'
    have hl : us = us' := place_unique hq (hq.trans e')
    subst hl
    exact ⟨h1, h2⟩
  · rintro ⟨h1, h2⟩
    exact first_report hS h hq h1 h2

/-- The place in the text. -/
theorem stream_laid {q : PyStr} (hl : lexErrors q = []) {us vs : List Tok} {x : Tok} (hq : tokenStream q = us ++ x :: vs) :
    (LaidAt 0 (us ++ x :: vs.dropLast) q ∧ x.type ≠ .EOF) ∨ (x = eofTok q ∧ LaidAt 0 us q) := by
  have h0 := (laidAt_iff _ q).2 ⟨hl, rfl⟩
  rcases List.eq_nil_or_concat vs with rfl | ⟨vs', z, rfl⟩
  · right
    rw [tokenStream] at hq
    obtain ⟨h1, h2⟩ := List.append_inj' hq rfl
    cases h2
    exact ⟨rfl, by rw [← h1]; exact h0⟩
  · left
    rw [List.concat_eq_append] at hq ⊢
    rw [tokenStream, show us ++ x :: (vs' ++ [z]) = (us ++ x :: vs') ++ [z] by simp] at hq
    obtain ⟨h1, -⟩ := List.append_inj' hq rfl
    rw [List.dropLast_concat, ← h1]
    refine ⟨h0, ?_⟩
    exact (lexTokens_noEof _ _ (by rw [h1]; simp))

/-- A text whose tokens are the beginning of a query can be completed to a query that is accepted. -/
theorem begins_text {p : PyStr} {us : List Tok} (hlay : LaidAt 0 us p) (hb : Begins us) : ∃ rest t, antlrParse (p ++ 32 :: rest) = .ok t := by
  obtain ⟨ws, fw, cw, hd⟩ := hb
  obtain ⟨vs', y, e, hy, hv⟩ := query_tokens hd
  -- the tokens before the error are not `EOF`, so `EOF` is among those that follow
  rcases List.eq_nil_or_concat ws with rfl | ⟨ws', z, rfl⟩
  · exfalso
    have hy' : y ∈ us := by rw [List.append_nil] at e; rw [e]; simp
    have hmem2 := ((laidAt_iff _ _).1 hlay).2
    rw [← hmem2] at hy'
    exact lexTokens_noEof _ _ hy' hy
  · rw [List.concat_eq_append, ← List.append_assoc] at e
    obtain ⟨e1, e2⟩ := List.append_inj' e rfl
    cases e2
    obtain ⟨r, us', h1, h2⟩ := text_for (ws'.map Tok.type) (by
      intro t ht
      obtain ⟨t', ht', rfl⟩ := List.mem_map.1 ht
      exact hv t' (by rw [← e1]; simp [ht'])) (0 + (p).length)
    have hlaid := hlay.append h1 (by
      intro c hc
      simp only [List.head?_cons, Option.some.injEq] at hc
      subst hc
      exact free_ws (by decide))
    obtain ⟨-, ht⟩ := (laidAt_iff _ _).1 hlaid
    obtain ⟨f', hd'⟩ := D_types hd (tokenStream (p ++ 32 :: r)) (by
      rw [tokenStream, ht]
      simp [h2, eofTok, hy])
    obtain ⟨t, ht'⟩ := (grammatical_iff _).1 ⟨f', _, hd'⟩
    exact ⟨_, t, antlrParse_ok.2 ht'⟩

theorem laid_before {q : PyStr} (hl : lexErrors q = []) {us vs : List Tok} {x : Tok} (hq : tokenStream q = us ++ x :: vs) :
    LaidAt 0 us (q.take x.start.toNat) := by
  rcases stream_laid hl hq with ⟨hla, -⟩ | ⟨rfl, hla⟩
  · obtain ⟨n, hn, -, hla⟩ := hla.before
    rw [hn]
    simpa using hla
  · simpa [eofTok] using hla

/-- In a text without unrecognised characters, what is before a token can be completed to a query that is accepted, if the
tokens before it can. -/
theorem text_before {q : PyStr} (hl : lexErrors q = []) {us vs : List Tok} {x : Tok} (hq : tokenStream q = us ++ x :: vs)
    (hb : Begins us) : ∃ rest t, antlrParse (q.take x.start.toNat ++ rest) = .ok t := by
  obtain ⟨rest, t, h⟩ := begins_text (laid_before hl hq) hb
  exact ⟨_, t, h⟩

/-- In a text without unrecognised characters, if the tokens through a token cannot be completed, nor can the text through
it, followed by whitespace. -/
theorem text_through {q : PyStr} (hl : lexErrors q = []) {us vs : List Tok} {x : Tok} (hq : tokenStream q = us ++ x :: vs)
    (hb : ¬ Begins (us ++ [x])) (hx : x.type ≠ .EOF) (c : Nat) (hc : isWs c = true) (rest : PyStr) :
    ∀ t, antlrParse (q.take (x.stop + 1).toNat ++ c :: rest) ≠ .ok t := by
  rcases stream_laid hl hq with ⟨hla, -⟩ | ⟨rfl, hla⟩
  · obtain ⟨n, hn, -, hla⟩ := hla.through
    intro t ht
    have hp := hla.tokens_prefix (q' := c :: rest) (by
      intro d hd
      simp only [List.head?_cons, Option.some.injEq] at hd
      subst hd
      exact free_ws hc)
    rw [hn] at ht
    simp only [Nat.zero_add, Int.toNat_natCast] at ht
    obtain ⟨w, hw⟩ := hp
    have := (begins_stream _).2 ⟨t, ht⟩
    rw [tokenStream, ← hw, List.append_assoc] at this
    exact hb this.left
  · exact absurd rfl hx

/-- **C80.** In terms of texts: in a malformed query without unrecognised characters there is a token such that the
text before it can be completed to a query that is accepted, and the text through it cannot, whatever follows after
whitespace (or the token is the end of the query). -/
theorem C80_malformed_text (q : PyStr) (hl : lexErrors q = []) (hm : ∀ t, antlrParse q ≠ .ok t) :
    ∃ x ∈ tokenStream q, (∃ rest t, antlrParse (q.take x.start.toNat ++ rest) = .ok t) ∧
      (x.type ≠ .EOF → ∀ c, isWs c = true → ∀ rest t, antlrParse (q.take (x.stop + 1).toNat ++ c :: rest) ≠ .ok t) := by
  obtain ⟨us, x, vs, ⟨hq, h1, h2⟩, -⟩ := (C80_malformed_iff q).1 hm
  exact ⟨x, by rw [hq]; simp, text_before hl hq h1, fun hx c hc rest => text_through hl hq h2 hx c hc rest⟩

/-- **C88.** With exact prediction, the text through the first token complained about cannot be completed: whatever follows it,
after whitespace, the query is rejected. -/
theorem C88_text_through_partial (S : Strategy σ) (hS : S.Exact parserAtn) (m : σ) (q : PyStr) (hl : lexErrors q = []) (f : List PTree)
    (x : Tok) (es : List Tok) (h : Returns S m (eofTok q) code .query (tokenStream q) f (x :: es)) (hx : x.type ≠ .EOF)
    (c : Nat) (hc : isWs c = true) (rest : PyStr) : ∀ t, antlrParse (q.take (x.stop + 1).toNat ++ c :: rest) ≠ .ok t := by
  have hmem := (C79_reports S m q f _ h).1 x (by simp)
  obtain ⟨us, vs, hq⟩ := List.append_of_mem hmem
  obtain ⟨-, hb⟩ := (C88_first_error_partial S hS m q f _ h us x vs hq).1 rfl
  exact text_through hl hq hb hx c hc rest

/-! ### Non-vacuity -/

/-- Where prediction fails: after the longest beginning of the tokens that some alternative can consume. -/
theorem reach_or (A : Atn) (d : Nat) (ctx : List Nat) (us : List Tok) {vs : List Tok} {j : Nat}
    (h : Reaches A d ctx (us ++ vs) j) : Reaches A d ctx us j := by
  obtain ⟨ws, h⟩ := h
  exact ⟨vs ++ ws, by rw [← List.append_assoc]; exact h⟩

open Classical in
/-- `skipStrategy` (Props/Recovery.lean), with the offending token of a failed prediction as it should be. -/
noncomputable def exactStrategy : Strategy Unit :=
  { skipStrategy with
    onNoViable := fun _ d ctx ts =>
      (if h : ∃ n, n < ts.length ∧ (∃ j, Reaches parserAtn d ctx (ts.take n) j) ∧ ∀ j, ¬ Reaches parserAtn d ctx (ts.take (n + 1)) j
        then h.choose else 0, ()) }

theorem exactStrategy_exact : exactStrategy.Exact parserAtn := by
  refine ⟨bestPredictor_ideal parserAtn, ?_, ?_⟩
  · intro d ctx ts i us j h hu hj
    simp only [exactStrategy, skipStrategy, bestPredictor] at h
    split at h
    · rename_i hex
      cases h
      obtain ⟨vs, rfl⟩ := hu
      exact ⟨vs, hex.choose_spec.1⟩
    · cases h
  · intro m d ctx us x vs j h hj hn
    have hex : ∃ n, n < (us ++ x :: vs).length ∧ (∃ j, Reaches parserAtn d ctx ((us ++ x :: vs).take n) j) ∧
        ∀ j, ¬ Reaches parserAtn d ctx ((us ++ x :: vs).take (n + 1)) j := by
      refine ⟨us.length, by simp, ⟨j, by simpa using hj⟩, ?_⟩
      rw [show us ++ x :: vs = (us ++ [x]) ++ vs by simp, show us.length + 1 = (us ++ [x]).length by simp, List.take_left]
      exact hn
    simp only [exactStrategy]
    rw [dif_pos hex]
    obtain ⟨h1, ⟨j', h2⟩, h3⟩ := hex.choose_spec
    generalize hex.choose = n at h1 h2 h3
    rcases Nat.lt_trichotomy n us.length with hlt | he | hgt
    · exfalso
      refine h3 j (reach_or (vs := us.drop (n + 1)) _ _ _ _ ?_)
      rw [List.take_append_of_le_length (by omega), List.take_append_drop]
      exact hj
    · exact he
    · exfalso
      refine hn j' (reach_or (vs := vs.take (n - (us.length + 1))) _ _ _ _ ?_)
      have : (us ++ x :: vs).take n = (us ++ [x]) ++ vs.take (n - (us.length + 1)) := by
        rw [show us ++ x :: vs = (us ++ [x]) ++ vs by simp, List.take_append, List.take_of_length_le (by simp; omega)]
        simp
      rw [← this]
      exact h2

theorem exactStrategy_sound : exactStrategy.Sound parserAtn :=
  ⟨skipStrategy_sound.ideal, skipStrategy_sound.starts⟩

/-- The token `|` of the query `'a' [b= | )`. -/
def barTok : Tok := (tokenStream py!"'a' [b= | )")[4]

theorem bar_bad : Begins ((tokenStream py!"'a' [b= | )").take 4) ∧ ¬ Begins ((tokenStream py!"'a' [b= | )").take 4 ++ [barTok]) := by
  constructor
  · have h := (begins_stream py!"'a' [b='c']").2 (antlrParse_toBool (by decide +kernel))
    rw [← List.take_append_drop 4 (tokenStream py!"'a' [b='c']")] at h
    have e : (tokenStream py!"'a' [b='c']").take 4 = (tokenStream py!"'a' [b= | )").take 4 := by decide +kernel
    rw [e] at h
    exact h.left
  · rintro ⟨ws, f, c, hd⟩
    have e : (tokenStream py!"'a' [b= | )").take 4 ++ [barTok] ++ ws =
        (tokenStream py!"'a' [b= | )").take 3 ++ (tokenStream py!"'a' [b= | )")[3] :: barTok :: ws := by
      have e0 : (tokenStream py!"'a' [b= | )").take 4 = (tokenStream py!"'a' [b= | )").take 3 ++ [(tokenStream py!"'a' [b= | )")[3]] := by
        decide +kernel
      rw [e0, List.append_assoc, List.append_assoc]
      rfl
    have := adjacent_of_D hd e
    revert this
    decide +kernel

-- `'a' [b= | )` can be begun up to `=`, not up to `|`; errors are reported, the first one at `|`
example : ∃ f es, Returns exactStrategy () (eofTok py!"'a' [b= | )") code .query (tokenStream py!"'a' [b= | )") f es ∧
    es.head? = some barTok ∧ barTok.text = py!"|" := by
  obtain ⟨f, es, h, -⟩ := C79_terminates exactStrategy exactStrategy_sound () py!"'a' [b= | )"
  refine ⟨f, es, h, ?_, by decide +kernel⟩
  refine (C88_first_error_partial _ exactStrategy_exact () _ f es h ((tokenStream py!"'a' [b= | )").take 4) barTok
    ((tokenStream py!"'a' [b= | )").drop 5) (by decide +kernel)).2 bar_bad

-- in the text: something can be written after `'a' [b= ` to make it a query, nothing after `'a' [b= | `
example : (∃ rest t, antlrParse (py!"'a' [b= " ++ rest) = .ok t) ∧ ∀ rest t, antlrParse (py!"'a' [b= | " ++ rest) ≠ .ok t := by
  obtain ⟨f, es, h, -⟩ := C79_terminates exactStrategy exactStrategy_sound () py!"'a' [b= | )"
  have hh := (C88_first_error_partial _ exactStrategy_exact () _ f es h ((tokenStream py!"'a' [b= | )").take 4) barTok
    ((tokenStream py!"'a' [b= | )").drop 5) (by decide +kernel)).2 bar_bad
  cases es with
  | nil => cases hh
  | cons x es =>
    cases hh
    have hl : lexErrors py!"'a' [b= | )" = [] := by decide +kernel
    refine ⟨?_, fun rest t => ?_⟩
    · have := text_before hl (show tokenStream py!"'a' [b= | )" = (tokenStream py!"'a' [b= | )").take 4 ++ barTok ::
        (tokenStream py!"'a' [b= | )").drop 5 by decide +kernel) bar_bad.1
      rwa [show (py!"'a' [b= | )").take barTok.start.toNat = py!"'a' [b= " by decide +kernel] at this
    · have := C88_text_through_partial _ exactStrategy_exact () _ hl f barTok es h (by decide +kernel) 32 (by decide) rest t
      rwa [show (py!"'a' [b= | )").take (barTok.stop + 1).toNat = py!"'a' [b= |" by decide +kernel] at this

-- the error may be at the end of the text
example : ∃ us, tokenStream py!"'a' [" = us ++ [eofTok py!"'a' ["] ∧ Begins us ∧ ¬ Begins (us ++ [eofTok py!"'a' ["]) := by
  refine ⟨lexTokens py!"'a' [", rfl, ?_, fun h => ?_⟩
  · have h := (begins_stream py!"'a' []").2 (antlrParse_toBool (by decide +kernel))
    rw [← List.take_append_drop 2 (tokenStream py!"'a' []")] at h
    have e : (tokenStream py!"'a' []").take 2 = lexTokens py!"'a' [" := by decide +kernel
    rw [e] at h
    exact h.left
  · obtain ⟨t, ht⟩ := (begins_stream py!"'a' [").1 h
    rw [antlrParse_toBool_false (by decide +kernel)] at ht
    cases ht

end Fcsql
