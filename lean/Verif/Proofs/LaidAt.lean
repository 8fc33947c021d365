/-
Layout with positions.
-/
import Verif.Proofs.Shift
import Verif.Proofs.Join

set_option autoImplicit false
set_option linter.unusedSimpArgs false

namespace Fcsql

/-- The token of type `ty` and text `w` at position `k`. -/
def tokAt (k : Nat) (ty : TokType) (w : PyStr) : Tok := ⟨ty, w, k, (k : Int) + w.length - 1⟩

/-- `Laid`, with the positions of the tokens in a text that begins at position `k`. -/
inductive LaidAt : Nat → List Tok → PyStr → Prop
  | nil {k : Nat} {ws : PyStr} : (∀ c ∈ ws, isWs c = true) → LaidAt k [] ws
  | cons {k : Nat} {ws w rest : PyStr} {ty : TokType} {ts : List Tok} : (∀ c ∈ ws, isWs c = true) →
      TokenText ty w → LaidAt (k + ws.length + w.length) ts rest → (∀ c, rest.head? = some c → ¬ Sticks ty c) →
      LaidAt k (tokAt (k + ws.length) ty w :: ts) (ws ++ (w ++ rest))

theorem tokAt_shift (k j : Nat) (ty : TokType) (w : PyStr) : (tokAt k ty w).shift j = tokAt (k + j) ty w := by
  simp only [tokAt, Tok.shift, Tok.mk.injEq, true_and]
  omega

theorem LaidAt.shift {k : Nat} {ts : List Tok} {q : PyStr} (h : LaidAt k ts q) (j : Nat) :
    LaidAt (k + j) (ts.map (Tok.shift j)) q := by
  induction h with
  | nil h => exact .nil h
  | @cons k ws w rest ty ts h1 h2 h3 h4 ih =>
    rw [List.map_cons, tokAt_shift]
    have e : k + ws.length + j = k + j + ws.length := by omega
    have e' : k + ws.length + w.length + j = k + j + ws.length + w.length := by omega
    rw [e]
    rw [e'] at ih
    exact .cons h1 h2 ih h4

theorem LaidAt.laid {k : Nat} {ts : List Tok} {q : PyStr} (h : LaidAt k ts q) : Laid (ts.map Tok.what) q := by
  induction h with
  | nil h => exact .nil h
  | cons h1 h2 _ h4 ih => exact .cons h1 h2 ih h4

theorem Laid.at {T : List (TokType × PyStr)} {q : PyStr} (h : Laid T q) : ∀ k, ∃ ts, LaidAt k ts q ∧ ts.map Tok.what = T := by
  induction h with
  | nil h => exact fun k => ⟨[], .nil h, rfl⟩
  | @cons ws w rest ty ts h1 h2 h3 h4 ih =>
    intro k
    obtain ⟨ts, g1, rfl⟩ := ih (k + ws.length + w.length)
    exact ⟨_, .cons h1 h2 g1 h4, rfl⟩

theorem splits_ws_at {ws rest : PyStr} (h : ∀ c ∈ ws, isWs c = true) {ts : List Tok} : ∀ {k : Nat},
    (∀ col, ∃ ps, Splits rest (k + ws.length) col ps ∧ (∀ p ∈ ps, p.kind ≠ .err) ∧ ps.filterMap Piece.tok? = ts) →
    ∀ col, ∃ ps, Splits (ws ++ rest) k col ps ∧ (∀ p ∈ ps, p.kind ≠ .err) ∧ ps.filterMap Piece.tok? = ts := by
  induction ws with
  | nil => exact fun hr => hr
  | cons c ws ih =>
    intro k hr col
    have e : k + (c :: ws).length = k + 1 + ws.length := by simp only [List.length_cons]; omega
    rw [e] at hr
    obtain ⟨ps, h1, h2, h3⟩ := ih (fun d hd => h d (by simp [hd])) hr (advanceColumn col [c])
    refine ⟨_, .token (w := [c]) (t := .Space) (longest_ws (h c (by simp))) h1, ?_, ?_⟩
    · intro p hp
      rcases List.mem_cons.1 hp with rfl | hp
      · exact kindOf_err (t := .Space)
      · exact h2 p hp
    · rw [← h3]; rfl

theorem LaidAt.splits {k : Nat} {ts : List Tok} {q : PyStr} (h : LaidAt k ts q) :
    ∀ col, ∃ ps, Splits q k col ps ∧ (∀ p ∈ ps, p.kind ≠ .err) ∧ ps.filterMap Piece.tok? = ts := by
  induction h with
  | @nil k ws h =>
    have := splits_ws_at (rest := []) (ts := []) (k := k) h fun col => ⟨[], .nil, by simp, rfl⟩
    simpa using this
  | @cons k ws w rest ty ts h1 h2 h3 h4 ih =>
    refine splits_ws_at h1 fun col => ?_
    obtain ⟨ps, e1, e2, e3⟩ := ih (advanceColumn col w)
    refine ⟨_, .token (longest_token h2 h4) e1, ?_, ?_⟩
    · intro p hp
      rcases List.mem_cons.1 hp with rfl | hp
      · exact kindOf_err
      · exact e2 p hp
    · have hne : ty ≠ .Space := by rintro rfl; exact TokenText.ne_space h2
      have : kindOf ty = .tok ty := by simp [kindOf, hne]
      simp only [List.filterMap_cons, this, Piece.tok?, tokAt]
      rw [← e3]

/-- The lexer finds laid-out tokens at their positions. -/
theorem laidAt_iff (ts : List Tok) (q : PyStr) : LaidAt 0 ts q ↔ lexErrors q = [] ∧ lexTokens q = ts := by
  have key : ∀ {ts : List Tok}, LaidAt 0 ts q → lexErrors q = [] ∧ lexTokens q = ts := by
    intro ts h
    obtain ⟨ps, h1, h2, h3⟩ := h.splits 0
    rw [← lexPieces_iff] at h1
    subst h1
    refine ⟨?_, h3⟩
    simp only [lexErrors, List.filter_eq_nil_iff, decide_eq_true_eq]
    exact h2
  refine ⟨key, ?_⟩
  rintro ⟨h1, rfl⟩
  obtain ⟨ts, g1, g2⟩ := ((laid_iff _ q).2 ⟨h1, rfl⟩).at 0
  rw [(key g1).2]; exact g1

theorem LaidAt.pre_ws {k : Nat} {ts : List Tok} {q ws : PyStr} (h : LaidAt (k + ws.length) ts q) (hw : ∀ c ∈ ws, isWs c = true) :
    LaidAt k ts (ws ++ q) := by
  generalize hj : k + ws.length = j at h
  cases h with
  | @nil _ ws' h =>
    refine .nil ?_
    intro c hc
    rcases List.mem_append.1 hc with hc | hc
    · exact hw c hc
    · exact h c hc
  | @cons _ ws' w rest ty ts h1 h2 h3 h4 =>
    subst hj
    have e : ws ++ (ws' ++ (w ++ rest)) = (ws ++ ws') ++ (w ++ rest) := by simp
    have e' : k + ws.length + ws'.length = k + (ws ++ ws').length := by simp; omega
    rw [e, e']
    rw [e'] at h3
    refine .cons ?_ h2 h3 h4
    intro c hc
    rcases List.mem_append.1 hc with hc | hc
    · exact hw c hc
    · exact h1 c hc

/-- Two texts put together, where the second one's first character does not stick to a token. -/
theorem LaidAt.append {k : Nat} {ts ts' : List Tok} {q q' : PyStr} (h : LaidAt k ts q) (h' : LaidAt (k + q.length) ts' q')
    (hc : ∀ c, q'.head? = some c → Free c) : LaidAt k (ts ++ ts') (q ++ q') := by
  induction h with
  | @nil k ws h =>
    exact LaidAt.pre_ws h' h
  | @cons k ws w rest ty ts h1 h2 h3 h4 ih =>
    have : ws ++ (w ++ rest) ++ q' = ws ++ (w ++ (rest ++ q')) := by simp
    rw [this, List.cons_append]
    have e : k + (ws ++ (w ++ rest)).length = k + ws.length + w.length + rest.length := by simp; omega
    rw [e] at h'
    refine .cons h1 h2 (ih h') ?_
    intro d hd
    cases rest with
    | nil => exact hc d (by simpa using hd) ty
    | cons a r => exact h4 d (by simpa using hd)

theorem free_ws {c : Nat} (h : isWs c = true) : Free c := fun _ => not_sticks_ws h

theorem LaidAt.one {k : Nat} {ty : TokType} {w : PyStr} (h : TokenText ty w) : LaidAt k [tokAt k ty w] w := by
  have := LaidAt.cons (k := k) (ws := []) (rest := []) (by simp) h (.nil (by simp)) (by simp)
  simpa using this

theorem LaidAt.one_cons {k : Nat} {ty : TokType} {w : PyStr} {ts : List Tok} {q : PyStr} (h : TokenText ty w) (hty : ∀ c, ¬ Sticks ty c)
    (h' : LaidAt (k + w.length) ts q) : LaidAt k (tokAt k ty w :: ts) (w ++ q) := by
  have := LaidAt.cons (k := k) (ws := []) (by simp) h (by simpa using h') (fun c _ => hty c)
  simpa using this

theorem LaidAt.of_lex {q : PyStr} (h : lexErrors q = []) (k : Nat) : LaidAt k ((lexTokens q).map (Tok.shift k)) q := by
  simpa using ((laidAt_iff _ q).2 ⟨h, rfl⟩).shift k

end Fcsql
