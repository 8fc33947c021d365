/-
Complete runs of the generated functions.
-/
import Verif.Proofs.GenCheck
import Verif.Proofs.Subtree

set_option autoImplicit false
set_option linter.unusedSimpArgs false

namespace Fcsql

section
variable {P : Predictor}

theorem Ends.unique {prog : Rule → List Stmt} {r : Rule} {ts : List Tok} {a b : Res} (h : Ends P prog r ts a)
    (h' : Ends P prog r ts b) : a = b := by
  obtain ⟨N, h⟩ := h
  obtain ⟨M, h'⟩ := h'
  rw [← h (max N M) (by omega), h' (max N M) (by omega)]

theorem ends_of_exec {prog : Rule → List Stmt} {r : Rule} {ts : List Tok} {n : Nat}
    (h : exec P prog n [] (prog r) ts ≠ .timeout) : Ends P prog r ts (exec P prog n [] (prog r) ts) :=
  ⟨n, fun _ hm => exec_mono hm h⟩

/-- Every call comes to an end. -/
theorem code_halts (hR : P.InRange parserAtn) (r : Rule) (ts : List Tok) :
    ∃ res, Ends P code r ts res ∧ res ≠ .timeout := by
  obtain ⟨e, -, hi⟩ := code_ok.rule r
  obtain ⟨n, hn⟩ := halts_of_impl code_ok hR ts.length _ hi [] [] ts (Nat.le_refl _) (Nat.le_refl _)
    (fun us ts' f c _ _ => ⟨1, by simp [exec]⟩)
  rw [List.append_nil] at hn
  exact ⟨_, ends_of_exec hn, hn⟩

/-- A call that succeeds has built a derivation of what it consumed. -/
theorem code_sound (hR : P.InRange parserAtn) {r : Rule} {ts vs : List Tok} {f : List PTree}
    (h : Ends P code r ts (.ok f vs)) : ∃ us c, ts = us ++ vs ∧ D (.rule r) us [.node r f] c := by
  obtain ⟨e, -, hi⟩ := code_ok.rule r
  obtain ⟨N, h⟩ := h
  have h := h N (Nat.le_refl _)
  obtain ⟨us, ts', f1, f2, c, k, h1, h2, h3, h4, h5⟩ :=
    did_of_impl code_ok hR N hi N (Nat.le_refl _) [] [] ts f vs (by rw [List.append_nil]; exact h)
  cases k with
  | zero => exact (exec_zero h5).elim
  | succ k =>
    simp only [exec, Res.ok.injEq] at h5
    obtain ⟨rfl, rfl⟩ := h5
    rw [List.append_nil] at h2
    subst h2
    exact ⟨us, c, h1, .rule h3⟩

/-- With an ideal predictor, the top function builds the chosen derivation. -/
theorem code_chosen (hP : P.Ideal parserAtn) {ts : List Tok} {f : List PTree} {c : List Bool}
    (h : Chosen (.rule .query) ts [.node .query f] c) : Ends P code .query ts (.ok f []) := by
  obtain ⟨e, he, hi⟩ := code_ok.rule .query
  have hd := h.derives
  have hA := code_ok.impl
  rw [D_rule] at hd
  obtain ⟨f', hd, hf⟩ := hd
  cases hf
  have hL : LeastRun (body .query) (Accepts parserAtn e []) ts ts [] f c := by
    refine ⟨by simp, hd, (accepts_stop_nil hA he).2 rfl, ?_⟩
    intro us' vs' f' c' e' hd' hk hb
    rw [accepts_stop_nil hA he] at hk
    subst hk
    rw [List.append_nil] at e'
    subst e'
    rcases h.first _ _ (.rule hd') with ⟨-, e2⟩ | hb'
    · rw [e2] at hb; exact hb.irrefl
    · exact hb.asymm hb'
  have hla : ∀ w, Accepts parserAtn e [] w → la w ∈ followOf .query := by
    intro w hw
    rw [accepts_stop_nil hA he] at hw
    subst hw
    decide
  obtain ⟨k, N, hr⟩ := performs_of_impl code_ok hP (PTree.depthL f) hi [] ts ts [] f c hla hL (Nat.le_refl _)
  refine ⟨k + (N + 1), fun n hn => ?_⟩
  have := hr (n - k) (by omega) []
  rw [List.append_nil, show k + (n - k) = n by omega] at this
  rw [this]
  obtain ⟨m, hm⟩ : ∃ m, n - k = m + 1 := ⟨n - k - 1, by omega⟩
  rw [hm, exec]
  simp [Res.prepend]

theorem chosen_query_node {ts : List Tok} {t : PTree} {c : List Bool} (h : Chosen (.rule .query) ts [t] c) :
    ∃ f, t = .node .query f := by
  obtain ⟨f, -, e⟩ := D_rule.1 h.derives
  cases e
  exact ⟨f, rfl⟩

theorem D_query_eof {us : List Tok} {f : List PTree} {c : List Bool} (h : D (.rule .query) us f c) :
    ∃ ws x, us = ws ++ [x] ∧ x.type = .EOF := by
  obtain ⟨f', h, -⟩ := D_rule.1 h
  obtain ⟨u1, v1, g1, h1, c1, d1, rfl, -, -, -, h⟩ := D_seq.1 h
  obtain ⟨u2, v2, g2, h2, c2, d2, rfl, -, -, -, h⟩ := D_seq.1 h
  obtain ⟨x, hx, rfl, -⟩ := D_tok.1 h
  exact ⟨u1 ++ u2, x, by simp, hx⟩

/-- Runs of the top function on tokens that have `EOF` at the end only. -/
theorem code_query (hP : P.Ideal parserAtn) (ts : List Tok) (x : Tok) (hn : ∀ t ∈ ts, t.type ≠ .EOF) :
    (∀ f, parseTokens (ts ++ [x]) = some (.node .query f) → Ends P code .query (ts ++ [x]) (.ok f [])) ∧
    (parseTokens (ts ++ [x]) = none → Ends P code .query (ts ++ [x]) .error) := by
  constructor
  · intro f h
    obtain ⟨c, hc⟩ := (parseTokens_some _ _).1 h
    exact code_chosen hP hc
  · intro h
    rw [parseTokens_none] at h
    obtain ⟨res, hr, hne⟩ := code_halts (P := P) hP.range .query (ts ++ [x])
    cases res with
    | timeout => exact absurd rfl hne
    | error => exact hr
    | ok f vs =>
      exfalso
      obtain ⟨us, c, he, hd⟩ := code_sound hP.range hr
      obtain ⟨ws, y, rfl, hy⟩ := D_query_eof hd
      have hv : vs = [] := by
        rcases List.eq_nil_or_concat vs with rfl | ⟨vs', z, rfl⟩
        · rfl
        · exfalso
          have := he
          simp only [List.concat_eq_append] at this
          rw [← List.append_assoc] at this
          have h1 := (List.append_inj' this (by simp)).1
          exact hn y (by rw [h1]; simp) hy
      subst hv
      rw [List.append_nil] at he
      exact h ⟨_, c, by rw [he]; exact hd⟩

end

open Classical in
/-- A predictor that looks for the least viable alternative. -/
noncomputable def bestPredictor (A : Atn) : Predictor where
  predict d ctx ts := if h : ∃ i, ViableAlt A d ctx ts i ∧ ∀ j, j < i → ¬ ViableAlt A d ctx ts j then some h.choose else none
  sync st _ ts := decide (Expected A st (la ts))

theorem bestPredictor_ideal (A : Atn) : (bestPredictor A).Ideal A := by
  refine ⟨?_, ?_, ?_⟩
  · intro d ctx ts i hv hl
    have h : ∃ i, ViableAlt A d ctx ts i ∧ ∀ j, j < i → ¬ ViableAlt A d ctx ts j := ⟨i, hv, hl⟩
    simp only [bestPredictor, dif_pos h, Option.some.injEq]
    obtain ⟨h1, h2⟩ := h.choose_spec
    rcases Nat.lt_trichotomy h.choose i with hlt | heq | hgt
    · exact absurd h1 (hl _ hlt)
    · exact heq
    · exact absurd hv (h2 _ hgt)
  · intro d ctx ts i s h hd
    simp only [bestPredictor] at h
    split at h
    · rename_i hex
      cases h
      obtain ⟨⟨s', t, h1, h2, h3, -⟩, -⟩ := hex.choose_spec
      rw [h1] at hd
      cases hd
      obtain ⟨h4, -⟩ := List.getElem?_eq_some_iff.1 h3
      exact ⟨h2, by omega⟩
    · cases h
  · intro st ctx ts h
    simpa [bestPredictor] using h

end Fcsql
