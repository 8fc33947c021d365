/-
Beginnings of grammatical token sequences, and of texts.
-/
import Verif.Spec.FirstError
import Verif.Proofs.Grammar
import Verif.Proofs.GenRun
import Verif.Proofs.LaidAt
import Verif.Proofs.Tiling
import Verif.Proofs.FirstError
import Verif.Props.Layout
import Verif.Props.Grammar

set_option autoImplicit false
set_option linter.unusedSimpArgs false

namespace Fcsql

/-! ### Token types in derivations -/

/-- Types of tokens inside queries. -/
def innerTy (t : TokType) : Bool := t != .EOF && t != .Space && t != .QUOTED_STRING

/-- Only such tokens occur, and the rule `query` does not. -/
def G.inner : G → Bool
  | .eps => true
  | .tok t => innerTy t
  | .rule r => r != .query
  | .seq a b => a.inner && b.inner
  | .alt a b => a.inner && b.inner
  | .star a => a.inner

theorem inner_body {r : Rule} (h : r ≠ .query) : (body r).inner = true := by cases r <;> first | (exact absurd rfl h) | decide

theorem inner_of_D {g : G} {ts : List Tok} {f : List PTree} {c : List Bool} (h : D g ts f c) (hg : g.inner = true) :
    ∀ t ∈ ts, innerTy t.type = true := by
  induction h with
  | eps => simp
  | tok h => intro t ht; rw [List.mem_singleton] at ht; subst ht; rw [h]; exact hg
  | rule _ ih => exact ih (inner_body (by simpa [G.inner] using hg))
  | seq _ _ ih ih' =>
    simp only [G.inner, Bool.and_eq_true] at hg
    intro t ht
    rcases List.mem_append.1 ht with ht | ht
    · exact ih hg.1 t ht
    · exact ih' hg.2 t ht
  | altL _ ih => simp only [G.inner, Bool.and_eq_true] at hg; exact ih hg.1
  | altR _ ih => simp only [G.inner, Bool.and_eq_true] at hg; exact ih hg.2
  | starNil => simp
  | starCons _ _ ih ih' =>
    intro t ht
    rcases List.mem_append.1 ht with ht | ht
    · exact ih hg t ht
    · exact ih' hg t ht

/-- A grammatical sequence: inner tokens, then `EOF`. -/
theorem query_tokens {us : List Tok} {f : List PTree} {c : List Bool} (h : D (.rule .query) us f c) :
    ∃ ws x, us = ws ++ [x] ∧ x.type = .EOF ∧ ∀ t ∈ ws, innerTy t.type = true := by
  obtain ⟨f', h, -⟩ := D_rule.1 h
  obtain ⟨u1, v1, g1, h1, c1, d1, rfl, -, -, k1, h⟩ := D_seq.1 h
  obtain ⟨u2, v2, g2, h2, c2, d2, rfl, -, -, k2, h⟩ := D_seq.1 h
  obtain ⟨x, hx, rfl, -⟩ := D_tok.1 h
  refine ⟨u1 ++ u2, x, by simp, hx, ?_⟩
  intro t ht
  rcases List.mem_append.1 ht with ht | ht
  · exact inner_of_D k1 (by decide) t ht
  · exact inner_of_D k2 (by decide) t ht

theorem innerTy_eof {t : TokType} (h : innerTy t = true) : t ≠ .EOF := by rintro rfl; cases h

/-! ### Beginnings -/

theorem begins_nil : Begins [] := by
  obtain ⟨us, f, c, h⟩ := productive (.rule .query)
  exact ⟨us, f, c, h⟩

theorem Begins.left {us vs : List Tok} (h : Begins (us ++ vs)) : Begins us := by
  obtain ⟨ws, f, c, h⟩ := h
  exact ⟨vs ++ ws, f, c, by rw [← List.append_assoc]; exact h⟩

theorem Grammatical.begins {ts : List Tok} (h : Grammatical ts) : Begins ts := by
  obtain ⟨f, c, h⟩ := h
  exact ⟨[], f, c, by rw [List.append_nil]; exact h⟩

/-- With `EOF` at its end, a beginning is complete. -/
theorem begins_eof {us : List Tok} {x : Tok} (hx : x.type = .EOF) (h : Begins (us ++ [x])) : Grammatical (us ++ [x]) := by
  obtain ⟨ws, f, c, h⟩ := h
  obtain ⟨vs, y, e, hy, hv⟩ := query_tokens h
  rcases List.eq_nil_or_concat ws with rfl | ⟨ws', z, rfl⟩
  · exact ⟨f, c, by rw [List.append_nil] at h; exact h⟩
  · exfalso
    rw [List.concat_eq_append, ← List.append_assoc] at e
    have e1 := (List.append_inj' e (by simp)).1
    have := hv x (by rw [← e1]; simp)
    exact innerTy_eof this hx

theorem begins_stream (q : PyStr) : Begins (tokenStream q) ↔ ∃ t, antlrParse q = .ok t := by
  constructor
  · intro h
    obtain ⟨t, ht⟩ := (grammatical_iff _).1 (begins_eof (us := lexTokens q) (x := eofTok q) rfl h)
    exact ⟨t, antlrParse_ok.2 ht⟩
  · rintro ⟨t, h⟩
    exact ((grammatical_iff _).2 ⟨t, antlrParse_ok.1 h⟩).begins

/-- Where a list stops being a beginning. -/
theorem first_bad : ∀ (vs us : List Tok), Begins us → ¬ Begins (us ++ vs) →
    ∃ us' x vs', us ++ vs = us' ++ x :: vs' ∧ Begins us' ∧ ¬ Begins (us' ++ [x])
  | [], us, h, hn => absurd (by rwa [List.append_nil]) hn
  | y :: vs, us, h, hn => by
    by_cases hy : Begins (us ++ [y])
    · obtain ⟨us', x, vs', e, h1, h2⟩ := first_bad vs (us ++ [y]) hy (by simpa using hn)
      exact ⟨us', x, vs', by rw [← e]; simp, h1, h2⟩
    · exact ⟨us, y, vs, rfl, h, hy⟩

theorem first_bad_unique {us us' vs vs' : List Tok} {x x' : Tok} (e : us ++ x :: vs = us' ++ x' :: vs') (h : Begins us)
    (h' : Begins us') (hx : ¬ Begins (us ++ [x])) (hx' : ¬ Begins (us' ++ [x'])) : us = us' ∧ x = x' ∧ vs = vs' := by
  have key : ∀ {us us' vs vs' : List Tok} {x x' : Tok}, us ++ x :: vs = us' ++ x' :: vs' → Begins us' → ¬ Begins (us ++ [x]) →
      us'.length ≤ us.length := by
    intro us us' vs vs' x x' e h' hx
    refine Nat.le_of_not_lt fun hlt => hx ?_
    have e2 : us ++ [x] <+: us' := by
      refine List.prefix_of_prefix_length_le (l₃ := us ++ x :: vs) ⟨vs, by simp⟩ ⟨x' :: vs', e.symm⟩ ?_
      simp; omega
    obtain ⟨w, rfl⟩ := e2
    exact h'.left
  have hl : us.length = us'.length := Nat.le_antisymm (key e.symm h hx') (key e h' hx)
  obtain ⟨rfl, e2⟩ := List.append_inj e hl
  cases e2
  exact ⟨rfl, rfl, rfl⟩

/-! ### Only types matter -/

theorem D_types {g : G} {us : List Tok} {f : List PTree} {c : List Bool} (h : D g us f c) :
    ∀ vs : List Tok, vs.map Tok.type = us.map Tok.type → ∃ f', D g vs f' c := by
  induction h with
  | eps => intro vs e; obtain rfl : vs = [] := by simpa using e
           exact ⟨_, .eps⟩
  | @tok t x h =>
    intro vs e
    match vs with
    | [] => simp at e
    | [y] => exact ⟨_, .tok (by rw [← h]; simpa using e)⟩
    | _ :: _ :: _ => simp at e
  | rule _ ih => intro vs e; obtain ⟨f', h⟩ := ih vs e; exact ⟨_, .rule h⟩
  | seq _ _ ih ih' =>
    intro vs e
    rw [List.map_append] at e
    obtain ⟨a, b, rfl, ea, eb⟩ := List.map_eq_append_iff.1 e
    obtain ⟨_, h1⟩ := ih a ea
    obtain ⟨_, h2⟩ := ih' b eb
    exact ⟨_, .seq h1 h2⟩
  | altL _ ih => intro vs e; obtain ⟨f', h⟩ := ih vs e; exact ⟨_, .altL h⟩
  | altR _ ih => intro vs e; obtain ⟨f', h⟩ := ih vs e; exact ⟨_, .altR h⟩
  | starNil => intro vs e; obtain rfl : vs = [] := by simpa using e
               exact ⟨_, .starNil⟩
  | starCons _ _ ih ih' =>
    intro vs e
    rw [List.map_append] at e
    obtain ⟨a, b, rfl, ea, eb⟩ := List.map_eq_append_iff.1 e
    obtain ⟨_, h1⟩ := ih a ea
    obtain ⟨_, h2⟩ := ih' b eb
    exact ⟨_, .starCons h1 h2⟩

/-! ### Texts -/

/-- A text for a token of each type. -/
def someText : TokType → PyStr
  | .SIMPLE_WITHIN_SCOPE => py!"s"
  | .REGEXP_FLAGS => py!"i"
  | .IDENTIFIER => py!"word"
  | .INTEGER => py!"1"
  | .REGEXP => py!"'a'"
  | t => ((fixedTokens.find? fun p => p.1 == t).map Prod.snd).getD []

theorem someText_ok {t : TokType} (h : innerTy t = true) : TokenText t (someText t) := by
  have one : ∀ {t : TokType} {w q : PyStr}, Laid [(t, w)] q → TokenText t w := by
    intro t w q h
    generalize hT : [(t, w)] = T at h
    cases h with
    | nil => cases hT
    | cons _ h _ _ => cases hT; exact h
  have lit : TokenText .REGEXP py!"'a'" :=
    one ((laid_iff [(.REGEXP, py!"'a'")] py!"'a'").2 ⟨by decide +kernel, by decide +kernel⟩)
  have ident : TokenText .IDENTIFIER py!"word" :=
    one ((laid_iff [(.IDENTIFIER, py!"word")] py!"word").2 ⟨by decide +kernel, by decide +kernel⟩)
  have scope : TokenText .SIMPLE_WITHIN_SCOPE py!"s" :=
    one ((laid_iff [(.SIMPLE_WITHIN_SCOPE, py!"s")] py!"s").2 ⟨by decide +kernel, by decide +kernel⟩)
  cases t <;> first
    | exact lit
    | exact ident
    | exact scope
    | exact .flags ⟨by decide, by decide⟩
    | exact .integer (by decide) (by decide)
    | exact .fixed (by decide)
    | cases h

/-- A text after a space, for tokens of given types. -/
theorem text_for : ∀ (ts : List TokType), (∀ t ∈ ts, innerTy t = true) → ∀ k,
    ∃ q us, LaidAt k us (32 :: q) ∧ us.map Tok.type = ts
  | [], _, k => ⟨[], [], .nil (by simp; decide), rfl⟩
  | t :: ts, h, k => by
    obtain ⟨q, us, h1, h2⟩ := text_for ts (fun t ht => h t (by simp [ht])) (k + 1 + (someText t).length)
    refine ⟨someText t ++ 32 :: q, tokAt (k + 1) t (someText t) :: us, ?_, by simp [tokAt, h2]⟩
    exact .cons (ws := [32]) (by simp; decide) (someText_ok (h t (by simp))) h1 fun c hc => by
      simp only [List.head?_cons, Option.some.injEq] at hc
      subst hc
      exact not_sticks_ws (by decide)

/-- The text before a token. -/
theorem LaidAt.before {k : Nat} {us vs : List Tok} {x : Tok} {q : PyStr} (h : LaidAt k (us ++ x :: vs) q) :
    ∃ n, x.start = ((k + n : Nat) : Int) ∧ n ≤ q.length ∧ LaidAt k us (q.take n) := by
  induction us generalizing k q with
  | nil =>
    rw [List.nil_append] at h
    cases h with
    | @cons _ ws w rest ty ts h1 h2 h3 h4 =>
      refine ⟨ws.length, rfl, by simp, ?_⟩
      rw [List.take_left']
      · exact .nil h1
      · rfl
  | cons u us ih =>
    rw [List.cons_append] at h
    cases h with
    | @cons _ ws w rest ty ts h1 h2 h3 h4 =>
      obtain ⟨n, hn, hle, hl⟩ := ih h3
      refine ⟨ws.length + w.length + n, by rw [hn]; simp; omega, by simp; omega, ?_⟩
      have : (ws ++ (w ++ rest)).take (ws.length + w.length + n) = ws ++ (w ++ rest.take n) := by
        rw [List.take_append, List.take_of_length_le (by omega), List.take_append, List.take_of_length_le (l := w) (by omega)]
        congr 3; omega
      rw [this]
      refine .cons h1 h2 hl ?_
      intro c hc
      refine h4 c ?_
      rw [List.head?_take] at hc
      split at hc
      · cases hc
      · exact hc

/-- The text through a token. -/
theorem LaidAt.through {k : Nat} {us vs : List Tok} {x : Tok} {q : PyStr} (h : LaidAt k (us ++ x :: vs) q) :
    ∃ n, x.stop + 1 = ((k + n : Nat) : Int) ∧ n ≤ q.length ∧ LaidAt k (us ++ [x]) (q.take n) := by
  induction us generalizing k q with
  | nil =>
    rw [List.nil_append] at h
    cases h with
    | @cons _ ws w rest ty ts h1 h2 h3 h4 =>
      refine ⟨ws.length + w.length, by simp [tokAt]; omega, by simp, ?_⟩
      have : (ws ++ (w ++ rest)).take (ws.length + w.length) = ws ++ (w ++ []) := by
        rw [← List.append_assoc, List.take_left' (by simp), List.append_nil]
      rw [this]
      exact .cons h1 h2 (.nil (by simp)) (by simp)
  | cons u us ih =>
    rw [List.cons_append] at h
    cases h with
    | @cons _ ws w rest ty ts h1 h2 h3 h4 =>
      obtain ⟨n, hn, hle, hl⟩ := ih h3
      refine ⟨ws.length + w.length + n, by rw [hn]; simp; omega, by simp; omega, ?_⟩
      have : (ws ++ (w ++ rest)).take (ws.length + w.length + n) = ws ++ (w ++ rest.take n) := by
        rw [List.take_append, List.take_of_length_le (by omega), List.take_append, List.take_of_length_le (l := w) (by omega)]
        congr 3; omega
      rw [this]
      refine .cons h1 h2 hl ?_
      intro c hc
      refine h4 c ?_
      rw [List.head?_take] at hc
      split at hc
      · cases hc
      · exact hc

theorem splits_exists (s : PyStr) (pos col : Nat) : ∃ ps, Splits s pos col ps := ⟨_, lexLoop_splits _ s pos col (Nat.le_refl _)⟩

theorem splits_ws_any {ws rest : PyStr} (h : ∀ c ∈ ws, isWs c = true) : ∀ {k : Nat} {ts : List Tok},
    (∀ col, ∃ ps, Splits rest (k + ws.length) col ps ∧ ts <+: ps.filterMap Piece.tok?) →
    ∀ col, ∃ ps, Splits (ws ++ rest) k col ps ∧ ts <+: ps.filterMap Piece.tok? := by
  induction ws with
  | nil => exact fun hr => hr
  | cons c ws ih =>
    intro k ts hr col
    have e : k + (c :: ws).length = k + 1 + ws.length := by simp only [List.length_cons]; omega
    rw [e] at hr
    obtain ⟨ps, h1, h2⟩ := ih (fun d hd => h d (by simp [hd])) hr (advanceColumn col [c])
    exact ⟨_, .token (w := [c]) (t := .Space) (longest_ws (h c (by simp))) h1, h2⟩

/-- Whatever follows laid-out tokens, after something that does not stick to them, they are the first tokens. -/
theorem LaidAt.first_tokens {k : Nat} {ts : List Tok} {q q' : PyStr} (h : LaidAt k ts q) (hc : ∀ c, q'.head? = some c → Free c) :
    ∀ col, ∃ ps, Splits (q ++ q') k col ps ∧ ts <+: ps.filterMap Piece.tok? := by
  induction h with
  | @nil k ws h =>
    refine splits_ws_any h fun col => ?_
    obtain ⟨ps, hp⟩ := splits_exists q' (k + ws.length) col
    exact ⟨ps, hp, List.nil_prefix⟩
  | @cons k ws w rest ty ts h1 h2 h3 h4 ih =>
    rw [List.append_assoc, List.append_assoc]
    refine splits_ws_any h1 fun col => ?_
    obtain ⟨ps, e1, e2⟩ := ih (advanceColumn col w)
    refine ⟨_, .token (longest_token h2 ?_) e1, ?_⟩
    · intro d hd
      cases rest with
      | nil => exact hc d (by simpa using hd) ty
      | cons a r => exact h4 d (by simpa using hd)
    · have hne : ty ≠ .Space := by rintro rfl; exact TokenText.ne_space h2
      have : kindOf ty = .tok ty := by simp [kindOf, hne]
      simp only [List.filterMap_cons, this, Piece.tok?, tokAt]
      exact List.cons_prefix_cons.2 ⟨rfl, e2⟩

theorem LaidAt.tokens_prefix {ts : List Tok} {q q' : PyStr} (h : LaidAt 0 ts q) (hc : ∀ c, q'.head? = some c → Free c) :
    ts <+: lexTokens (q ++ q') := by
  obtain ⟨ps, h1, h2⟩ := h.first_tokens hc 0
  rw [← lexPieces_iff] at h1
  subst h1
  exact h2

/-! ### No token comes twice -/

theorem stream_nodup (q : PyStr) : (tokenStream q).Nodup := by
  have hp := tokens_pairwise q
  rw [tokenStream, List.nodup_append]
  refine ⟨hp.imp_of_mem fun {a b} ha hb hab => ?_, by simp, ?_⟩
  · rintro rfl
    have := token_bounds ha
    omega
  · intro a ha b hb
    rw [List.mem_singleton] at hb
    subst hb
    rintro rfl
    have := token_bounds ha
    simp [eofTok] at this

theorem nodup_place : ∀ {a b c d : List Tok} {y : Tok}, a ++ y :: b = c ++ y :: d → (a ++ y :: b).Nodup → a = c := by
  intro a
  induction a with
  | nil =>
    intro b c d y e hn
    cases c with
    | nil => rfl
    | cons z c =>
      simp only [List.nil_append, List.cons_append, List.cons.injEq] at e
      obtain ⟨rfl, rfl⟩ := e
      simp at hn
  | cons w a ih =>
    intro b c d y e hn
    cases c with
    | nil =>
      simp only [List.nil_append, List.cons_append, List.cons.injEq] at e
      obtain ⟨rfl, rfl⟩ := e
      simp at hn
    | cons z c =>
      simp only [List.cons_append, List.cons.injEq] at e
      obtain ⟨rfl, e⟩ := e
      rw [List.cons_append, List.nodup_cons] at hn
      rw [ih e hn.2]

theorem place_unique {q : PyStr} {us us' vs vs' : List Tok} {x : Tok} (h : tokenStream q = us ++ x :: vs)
    (h' : tokenStream q = us' ++ x :: vs') : us = us' :=
  nodup_place (h.symm.trans h') (h ▸ stream_nodup q)

end Fcsql
