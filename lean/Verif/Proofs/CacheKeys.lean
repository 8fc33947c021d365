/-
What the calls store in the parser's tables: nothing is taken out, what was looked up is there afterwards, and nothing is
stored twice.
-/
import Verif.Spec.Memory
import Verif.Proofs.Cache
import Verif.Proofs.CacheGrowth

set_option autoImplicit false
set_option linter.unusedSimpArgs false
set_option linter.unusedSectionVars false

namespace Fcsql

attribute [local irreducible] parserAtn lexPieces

section
variable {τ : Type} [DecidableEq τ] {sim : Simulator τ} {env : Others τ}

theorem find_key {l : Memo (Nat × Option (τ × Int)) τ} {a : Nat × Option (τ × Int)} :
    (∃ p, l.find? (fun p => p.1 = a) = some p) ↔ a ∈ l.map (·.1) := by
  constructor
  · rintro ⟨p, hp⟩
    have h1 := List.find?_some hp
    simp only [decide_eq_true_eq] at h1
    exact List.mem_map.2 ⟨p, List.mem_of_find?_eq_some hp, h1⟩
  · intro h
    obtain ⟨p, hp, h1⟩ := List.mem_map.1 h
    cases hf : l.find? fun p => p.1 = a with
    | some q => exact ⟨q, rfl⟩
    | none =>
      have := List.find?_eq_none.1 hf p hp
      simp [h1] at this

theorem getDfa_keeps (he : env.Keeps) (a b : Nat × Option (τ × Int)) (c : Caches τ) (hb : b ∈ c.keys) : b ∈ (getDfa sim env a c).2.keys := by
  have h1 : b ∈ Caches.keys { env c.clock c with clock := c.clock + 1 } := he _ _ _ hb
  simp only [getDfa]
  split
  · exact h1
  · exact List.mem_cons_of_mem _ (he (c.clock + 1) _ b h1)

theorem getDfa_has (a : Nat × Option (τ × Int)) (c : Caches τ) : a ∈ (getDfa sim env a c).2.keys := by
  simp only [getDfa]
  split
  · rename_i p hp
    exact find_key.1 ⟨p, hp⟩
  · exact List.mem_cons_self

theorem walkDfa_keeps (he : env.Keeps) (d : Nat) (ctx : List Nat) (ts look : List Tok) (s : τ) (b : Nat × Option (τ × Int)) (c : Caches τ)
    (hb : b ∈ c.keys) : b ∈ (walkDfa sim env d ctx ts look s c).2.keys := by
  induction look generalizing s c with
  | nil => exact hb
  | cons x xs ih =>
    have h := getDfa_keeps (sim := sim) he (d, some (s, x.type.num)) b c hb
    simp only [walkDfa]
    split
    · exact h
    · exact h
    · exact h
    · exact ih _ _ h

theorem predictC_keeps (he : env.Keeps) (d : Nat) (ctx : List Nat) (ts : List Tok) (b : Nat × Option (τ × Int)) (c : Caches τ)
    (hb : b ∈ c.keys) : b ∈ (predictC sim env d ctx ts c).2.keys :=
  walkDfa_keeps he _ _ _ _ _ _ _ (getDfa_keeps he _ _ _ hb)

theorem execC_keeps (he : env.Keeps) (prog : Rule → List Stmt) (b : Nat × Option (τ × Int)) (n : Nat) (ctx : List Nat) (ss : List Stmt)
    (ts : List Tok) (c : Caches τ) (hb : b ∈ c.keys) : b ∈ (execC sim env prog n ctx ss ts c).2.keys := by
  induction n generalizing ctx ss ts c with
  | zero => exact hb
  | succ n ih =>
    cases ss with
    | nil => exact hb
    | cons s ss =>
      cases s with
      | sync st =>
        simp only [execC]
        split
        · exact ih ctx ss ts c hb
        · exact hb
      | matchTok st k =>
        cases ts with
        | nil => exact hb
        | cons x xs =>
          simp only [execC]
          split
          · exact ih ctx ss xs c hb
          · exact hb
      | matchSet st t =>
        cases ts with
        | nil => exact hb
        | cons x xs =>
          simp only [execC]
          split
          · exact ih ctx ss xs c hb
          · exact hb
      | call st r =>
        have h1 := ih (st :: ctx) (prog r) ts c hb
        simp only [execC]
        generalize execC sim env prog n (st :: ctx) (prog r) ts c = p at h1
        obtain ⟨res, c'⟩ := p
        cases res with
        | ok f ts' => exact ih ctx ss ts' c' h1
        | error => exact h1
        | timeout => exact h1
      | predict d bs =>
        have h1 := predictC_keeps (sim := sim) he d ctx ts b c hb
        simp only [execC]
        generalize predictC sim env d ctx ts c = p at h1
        obtain ⟨res, c'⟩ := p
        cases res with
        | none => exact h1
        | some a => exact ih _ _ _ _ h1
      | switchLA cs =>
        simp only [execC]
        cases switchCase (la ts) cs with
        | none => exact hb
        | some b => exact ih _ _ _ _ hb
      | ifLA t b => exact ih _ _ _ _ hb
      | whileLA b st t => exact ih _ _ _ _ hb
      | whilePredict b st d => exact ih _ _ _ _ hb
      | loopPredict b st d =>
        have h1 := predictC_keeps (sim := sim) he d ctx ts ‹_› c hb
        simp only [execC]
        generalize predictC sim env d ctx ts c = p at h1
        obtain ⟨res, c'⟩ := p
        cases res with
        | none => exact h1
        | some a =>
          simp only
          split
          · exact ih _ _ _ _ h1
          · split
            · exact ih _ _ _ _ h1
            · exact h1

/-! ### Nothing is stored for what is there already -/

theorem getDfa_again {a : Nat × Option (τ × Int)} {c : Caches τ} (h : a ∈ c.keys) :
    (getDfa sim (.alone τ) a c).2.dfas = c.dfas := by
  obtain ⟨p, hp⟩ := find_key.2 h
  simp only [getDfa, Others.alone, hp]

theorem alone_fair : (Others.alone τ).Fair sim := fun _ _ h => h

theorem alone_keeps : (Others.alone τ).Keeps := fun _ _ _ h => h

/-- A step that, run where everything it stores elsewhere is there already, stores nothing. -/
def Settles (f : Caches τ → Caches τ) (sim : Simulator τ) : Prop :=
  ∀ c c' : Caches τ, c.Right sim → c'.Right sim → (∀ a ∈ (f c).keys, a ∈ c'.keys) → (f c').dfas = c'.dfas

theorem keys_dfas {c c' : Caches τ} (h : c.dfas = c'.dfas) : c.keys = c'.keys := by simp [Caches.keys, h]

theorem walkDfa_settles (d : Nat) (ctx : List Nat) (ts look : List Tok) (s : τ) :
    Settles (fun c => (walkDfa sim (.alone τ) d ctx ts look s c).2) sim := by
  induction look generalizing s with
  | nil => exact fun c c' _ _ _ => rfl
  | cons x xs ih =>
    intro c c' hc hc' hk
    obtain ⟨h1, h2⟩ := getDfa_right alone_fair (d, some (s, x.type.num)) c hc
    obtain ⟨h3, h4⟩ := getDfa_right alone_fair (d, some (s, x.type.num)) c' hc'
    have h5 := getDfa_has (sim := sim) (env := .alone τ) (d, some (s, x.type.num)) c
    simp only [walkDfa] at hk ⊢
    rw [h1] at hk
    rw [h3]
    cases hv : sim.verdict (sim.stored (d, some (s, x.type.num))) with
    | more =>
      simp only [hv] at hk ⊢
      have h6 := getDfa_again (sim := sim) (hk _ (walkDfa_keeps alone_keeps _ _ _ _ _ _ _ h5))
      rw [← h6]
      exact ih _ _ _ h2 h4 (fun a ha => keys_dfas h6 ▸ hk a ha)
    | alt i => simp only [hv] at hk ⊢; exact getDfa_again (hk _ h5)
    | fail => simp only [hv] at hk ⊢; exact getDfa_again (hk _ h5)
    | full => simp only [hv] at hk ⊢; exact getDfa_again (hk _ h5)

theorem predictC_settles (d : Nat) (ctx : List Nat) (ts : List Tok) :
    Settles (fun c => (predictC sim (.alone τ) d ctx ts c).2) sim := by
  intro c c' hc hc' hk
  obtain ⟨h1, h2⟩ := getDfa_right alone_fair (d, none) c hc
  obtain ⟨h3, h4⟩ := getDfa_right alone_fair (d, none) c' hc'
  have h5 := getDfa_has (sim := sim) (env := .alone τ) (d, none) c
  simp only [predictC] at hk ⊢
  have h6 := getDfa_again (sim := sim) (hk _ (walkDfa_keeps alone_keeps _ _ _ _ _ _ _ h5))
  rw [h1] at hk
  rw [h3, ← h6]
  exact walkDfa_settles d ctx ts ts _ _ _ h2 h4 (fun a ha => keys_dfas h6 ▸ hk a ha)

theorem execC_settles (prog : Rule → List Stmt) (n : Nat) (ctx : List Nat) (ss : List Stmt) (ts : List Tok) :
    Settles (fun c => (execC sim (.alone τ) prog n ctx ss ts c).2) sim := by
  induction n generalizing ctx ss ts with
  | zero => exact fun c c' _ _ _ => rfl
  | succ n ih =>
    cases ss with
    | nil => exact fun c c' _ _ _ => rfl
    | cons s ss =>
      cases s with
      | sync st =>
        intro c c' hc hc' hk
        simp only [execC] at hk ⊢
        split
        · rename_i h
          rw [if_pos h] at hk
          exact ih ctx ss ts c c' hc hc' hk
        · rfl
      | matchTok st k =>
        cases ts with
        | nil => exact fun c c' _ _ _ => rfl
        | cons x xs =>
          intro c c' hc hc' hk
          simp only [execC] at hk ⊢
          split
          · rename_i h
            rw [if_pos h] at hk
            exact ih ctx ss xs c c' hc hc' hk
          · rfl
      | matchSet st t =>
        cases ts with
        | nil => exact fun c c' _ _ _ => rfl
        | cons x xs =>
          intro c c' hc hc' hk
          simp only [execC] at hk ⊢
          split
          · rename_i h
            rw [if_pos h] at hk
            exact ih ctx ss xs c c' hc hc' hk
          · rfl
      | call st r =>
        intro c c' hc hc' hk
        have h1 := ih (st :: ctx) (prog r) ts c c' hc hc'
        simp only at h1
        obtain ⟨h2, h3⟩ := execC_right alone_fair prog n (st :: ctx) (prog r) ts c hc
        obtain ⟨h4, h5⟩ := execC_right alone_fair prog n (st :: ctx) (prog r) ts c' hc'
        simp only [execC] at hk ⊢
        rw [← h2] at h4
        generalize execC sim (.alone τ) prog n (st :: ctx) (prog r) ts c = p at *
        generalize execC sim (.alone τ) prog n (st :: ctx) (prog r) ts c' = p' at *
        obtain ⟨res, d⟩ := p
        obtain ⟨res', d'⟩ := p'
        simp only at h1 h3 h4 h5
        subst h4
        cases res' with
        | ok f ts' =>
          have h6 := h1 fun a ha => hk a (execC_keeps alone_keeps _ _ _ _ _ _ _ ha)
          have h7 := ih ctx ss ts' d d' h3 h5 (fun a ha => keys_dfas h6 ▸ hk a ha)
          exact h7.trans h6
        | error => exact h1 hk
        | timeout => exact h1 hk
      | predict dn bs =>
        intro c c' hc hc' hk
        have h1 := predictC_settles (sim := sim) dn ctx ts c c' hc hc'
        simp only at h1
        obtain ⟨h2, h3⟩ := predictC_right alone_fair dn ctx ts c hc
        obtain ⟨h4, h5⟩ := predictC_right alone_fair dn ctx ts c' hc'
        simp only [execC] at hk ⊢
        rw [← h2] at h4
        generalize predictC sim (.alone τ) dn ctx ts c = p at *
        generalize predictC sim (.alone τ) dn ctx ts c' = p' at *
        obtain ⟨res, d⟩ := p
        obtain ⟨res', d'⟩ := p'
        simp only at h1 h3 h4 h5
        subst h4
        cases res' with
        | none => exact h1 hk
        | some a =>
          have h6 := h1 fun a ha => hk a (execC_keeps alone_keeps _ _ _ _ _ _ _ ha)
          have h7 := ih _ _ _ d d' h3 h5 (fun a ha => keys_dfas h6 ▸ hk a ha)
          exact h7.trans h6
      | switchLA cs =>
        intro c c' hc hc' hk
        simp only [execC] at hk ⊢
        cases hs : switchCase (la ts) cs with
        | none => rfl
        | some b =>
          rw [hs] at hk
          exact ih _ _ _ c c' hc hc' hk
      | ifLA t b => exact fun c c' hc hc' hk => ih _ _ _ c c' hc hc' hk
      | whileLA b st t => exact fun c c' hc hc' hk => ih _ _ _ c c' hc hc' hk
      | whilePredict b st d => exact fun c c' hc hc' hk => ih _ _ _ c c' hc hc' hk
      | loopPredict b st dn =>
        intro c c' hc hc' hk
        have h1 := predictC_settles (sim := sim) dn ctx ts c c' hc hc'
        simp only at h1
        obtain ⟨h2, h3⟩ := predictC_right alone_fair dn ctx ts c hc
        obtain ⟨h4, h5⟩ := predictC_right alone_fair dn ctx ts c' hc'
        simp only [execC] at hk ⊢
        rw [← h2] at h4
        generalize predictC sim (.alone τ) dn ctx ts c = p at *
        generalize predictC sim (.alone τ) dn ctx ts c' = p' at *
        obtain ⟨res, d⟩ := p
        obtain ⟨res', d'⟩ := p'
        simp only at h1 h3 h4 h5
        subst h4
        cases res' with
        | none => exact h1 hk
        | some a =>
          have key : ∀ ss', (∀ x ∈ (execC sim (.alone τ) prog n ctx ss' ts d).2.keys, x ∈ c'.keys) →
              (execC sim (.alone τ) prog n ctx ss' ts d').2.dfas = c'.dfas := by
            intro ss' hk
            have h6 := h1 fun a ha => hk a (execC_keeps alone_keeps _ _ _ _ _ _ _ ha)
            exact (ih _ _ _ d d' h3 h5 (fun a ha => keys_dfas h6 ▸ hk a ha)).trans h6
          simp only at hk ⊢
          by_cases ha : a = 2 ∨ a = 0
          · rw [if_pos ha] at hk ⊢
            exact key _ hk
          · rw [if_neg ha] at hk ⊢
            by_cases hb : a = 1
            · rw [if_pos hb] at hk ⊢
              exact key _ hk
            · rw [if_neg hb] at hk ⊢
              exact h1 hk

theorem getLexDfa_dfas (a : List (TokType × Rx) × Nat) (c : Caches τ) : (getLexDfa (.alone τ) a c).2.dfas = c.dfas := by
  simp only [getLexDfa, Others.alone]
  split
  · split <;> rfl
  · rfl

theorem scanC_dfas (rs : List (TokType × Rx)) (n : Nat) (best : Option (TokType × Nat)) (cs : PyStr) (c : Caches τ) :
    (scanC (.alone τ) rs n best cs c).2.dfas = c.dfas := by
  induction cs generalizing rs n best c with
  | nil => rfl
  | cons ch cs ih =>
    simp only [scanC]
    split
    · exact getLexDfa_dfas _ _
    · rw [ih, getLexDfa_dfas]

theorem lexLoopC_dfas (fuel : Nat) (cs : PyStr) (pos col : Nat) (c : Caches τ) : (lexLoopC (.alone τ) fuel cs pos col c).2.dfas = c.dfas := by
  induction fuel generalizing cs pos col c with
  | zero => rfl
  | succ fuel ih =>
    cases cs with
    | nil => rfl
    | cons ch cs =>
      have h : (nextPieceC (.alone τ) (ch :: cs) c).2.dfas = c.dfas := by
        simp only [nextPieceC]
        split <;> exact scanC_dfas _ _ _ _ _
      simp only [lexLoopC]
      rw [ih, h]

theorem parseC_settles (n : Nat) (q : PyStr) : Settles (fun c => (parseC sim (.alone τ) n q c).2) sim := by
  intro c c' hc hc' hk
  obtain ⟨h1, h2⟩ := lexLoopC_right alone_fair q.length q 0 0 c hc
  obtain ⟨h3, h4⟩ := lexLoopC_right alone_fair q.length q 0 0 c' hc'
  simp only [parseC] at hk ⊢
  rw [h1] at hk
  rw [h3]
  have h5 := lexLoopC_dfas q.length q 0 0 c'
  have h6 := execC_settles (sim := sim) code n [] (code .query) ((lexLoop q.length q 0 0).filterMap Piece.tok? ++ [eofTok q]) _ _ h2 h4
    (fun a ha => keys_dfas h5 ▸ hk a ha)
  exact h6.trans h5

end

/-! ### Before a row of opening brackets -/

/-- Tokens that begin with this many opening brackets. -/
def bracketRun : Nat → List Tok → Prop
  | 0, _ => True
  | _ + 1, [] => False
  | n + 1, x :: xs => x.type = .L_PAREN ∧ bracketRun n xs

theorem walk_brackets {env : Others AConfigSet} (hf : env.Fair (Atn.simulator parserAtn)) (he : env.Keeps) (ctx : List Nat) (ts : List Tok) :
    ∀ (N i : Nat) (look : List Tok) (c : Caches AConfigSet), bracketRun N look → c.Right (Atn.simulator parserAtn) → ∀ j, j < N →
      (1, some (bracketSet (i + j), 1)) ∈ (walkDfa (Atn.simulator parserAtn) env 1 ctx ts look (bracketSet i) c).2.keys := by
  intro N
  induction N with
  | zero => intro i look c _ _ j hj; omega
  | succ N ih =>
    intro i look c hl hc j hj
    cases look with
    | nil => exact hl.elim
    | cons x xs =>
      obtain ⟨hx, hl⟩ := hl
      have hn : x.type.num = 1 := by rw [hx]; rfl
      obtain ⟨h1, h2⟩ := getDfa_right hf (1, some (bracketSet i, x.type.num)) c hc
      have h3 := getDfa_has (sim := Atn.simulator parserAtn) (env := env) (1, some (bracketSet i, x.type.num)) c
      have h4 : (Atn.simulator parserAtn).stored (1, some (bracketSet i, x.type.num)) = bracketSet (i + 1) := by
        rw [hn]; rfl
      have h5 : (Atn.simulator parserAtn).verdict (bracketSet (i + 1)) = .more := (opened i).more
      simp only [walkDfa]
      rw [h1, h4, h5]
      simp only
      cases j with
      | zero =>
        refine walkDfa_keeps he _ _ _ _ _ _ _ ?_
        rw [hn] at h3 ⊢
        exact h3
      | succ j =>
        have := ih (i + 1) xs _ hl h2 j (by omega)
        rw [show i + 1 + j = i + (j + 1) by omega] at this
        exact this

theorem sync_bracket {ts : List Tok} (h : la ts = 1) : (Atn.simulator parserAtn).sync 57 [46] ts = true := by
  have h1 : ((parserAtn.lookSet (parserAtn.states.length + 1) 57 [] []).any fun
    | none => true
    | some l => l.any fun p => p.1 ≤ 1 && 1 ≤ p.2) = true := by decide +kernel
  show parserAtn.syncOk 57 ts = true
  unfold Atn.syncOk
  rw [h]
  exact h1

theorem exec_brackets {env : Others AConfigSet} (hf : env.Fair (Atn.simulator parserAtn)) (he : env.Keeps) (N : Nat) (ts : List Tok)
    (hl : bracketRun (N + 1) ts) (n : Nat) (hn : 3 ≤ n) (c : Caches AConfigSet) (hc : c.Right (Atn.simulator parserAtn)) (j : Nat) (hj : j < N + 1) :
    (1, some (bracketSet j, 1)) ∈ (execC (Atn.simulator parserAtn) env code n [] (code .query) ts c).2.keys := by
  obtain ⟨n, rfl⟩ : ∃ m, n = m + 3 := ⟨n - 3, by omega⟩
  have hla : la ts = 1 := by
    cases ts with
    | nil => exact hl.elim
    | cons x xs => obtain ⟨hx, -⟩ := hl; simp [la, hx, TokType.num]
  obtain ⟨h1, h2⟩ := getDfa_right hf (1, none) c hc
  have h3 : (1, some (bracketSet j, 1)) ∈ (predictC (Atn.simulator parserAtn) env 1 [46] ts c).2.keys := by
    simp only [predictC]
    rw [h1]
    have := walk_brackets hf he [46] ts (N + 1) 0 ts _ hl h2 j hj
    rw [Nat.zero_add] at this
    exact this
  have h4 : (1, some (bracketSet j, 1)) ∈ (execC (Atn.simulator parserAtn) env code (n + 2) [46] (code .main_query) ts c).2.keys := by
    simp only [code, execC, sync_bracket hla, if_true]
    generalize predictC (Atn.simulator parserAtn) env 1 [46] ts c = p at h3
    obtain ⟨res, c'⟩ := p
    cases res with
    | none => exact h3
    | some a => exact execC_keeps he _ _ _ _ _ _ _ h3
  have e : code .query = .call 46 .main_query :: (code .query).tail := rfl
  rw [e]
  simp only [execC]
  generalize execC (Atn.simulator parserAtn) env code (n + 2) [46] (code .main_query) ts c = p at h4
  obtain ⟨res, c'⟩ := p
  cases res with
  | ok f ts' => exact execC_keeps he _ _ _ _ _ _ _ h4
  | error => exact h4
  | timeout => exact h4

/-! ### The text -/

theorem nextPiece_bracket (s : PyStr) : nextPiece (40 :: s) = (.tok .L_PAREN, 1) := by
  have h1 : lexTarget (lexRules, 40) = [(.L_PAREN, .eps)] := by decide +kernel
  have h2 : scan lexRules 0 none (40 :: s) = ⟨some (.L_PAREN, 1), 1⟩ := by
    simp only [scan]
    have h1 : (List.filter (fun p => !p.2.isVoid) (lexRules.map fun p => (p.1, p.2.deriv 40))) = [(.L_PAREN, .eps)] := h1
    rw [h1]
    cases s with
    | nil => rfl
    | cons x s => rfl
  unfold nextPiece
  rw [h2]
  rfl

theorem lexLoop_brackets (rest : PyStr) : ∀ (N fuel pos col : Nat), N ≤ fuel → ∀ e,
    bracketRun N ((lexLoop fuel (List.replicate N 40 ++ rest) pos col).filterMap Piece.tok? ++ e) := by
  intro N
  induction N with
  | zero => exact fun _ _ _ _ _ => trivial
  | succ N ih =>
    intro fuel pos col hf e
    obtain ⟨fuel, rfl⟩ : ∃ m, fuel = m + 1 := ⟨fuel - 1, by omega⟩
    rw [List.replicate_succ, List.cons_append, lexLoop, nextPiece_bracket]
    simp only [List.drop_succ_cons, List.drop_zero]
    exact ⟨rfl, ih fuel _ _ (by omega) e⟩

theorem tokens_brackets (N : Nat) (rest : PyStr) : bracketRun N (tokenStream (List.replicate N 40 ++ rest)) := by
  have h := lexLoop_brackets rest N (List.replicate N 40 ++ rest).length 0 0 (by simp) [eofTok (List.replicate N 40 ++ rest)]
  unfold tokenStream lexTokens lexPieces
  exact h

theorem brackets_nodup (N : Nat) : ((List.range N).map fun j => ((1, some (bracketSet j, 1)) : Nat × Option (AConfigSet × Int))).Nodup := by
  refine List.Pairwise.map _ ?_ (List.pairwise_lt_range (n := N))
  intro a b hab h
  simp only [Prod.mk.injEq, Option.some.injEq, true_and, and_true] at h
  exact bracketSet_inj hab h

end Fcsql
