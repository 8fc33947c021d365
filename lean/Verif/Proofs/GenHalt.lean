/-
The generated rule functions always come to an end.
-/
import Verif.Proofs.GenParser

set_option autoImplicit false
set_option linter.unusedSimpArgs false

namespace Fcsql

section
variable {A : Atn} {P : Predictor} {prog : Rule → List Stmt}

theorem Res.prepend_timeout {r : Res} {f : List PTree} : r.prepend f = .timeout ↔ r = .timeout := by
  cases r <;> simp [Res.prepend]

/-- More steps do not change a result. -/
theorem exec_succ (n : Nat) : ∀ ctx ss ts, exec P prog n ctx ss ts ≠ .timeout →
    exec P prog (n + 1) ctx ss ts = exec P prog n ctx ss ts := by
  induction n with
  | zero => intro ctx ss ts h; simp [exec] at h
  | succ n ih =>
    intro ctx ss ts h
    cases ss with
    | nil => simp [exec]
    | cons s ss =>
      cases s with
      | sync st =>
        simp only [exec] at h ⊢
        split
        · rename_i hs; rw [if_pos hs] at h; exact ih _ _ _ h
        · rfl
      | matchTok st k =>
        cases ts with
        | nil => rfl
        | cons x xs =>
          simp only [exec] at h ⊢
          split
          · rename_i hs
            rw [if_pos hs] at h
            rw [ih _ _ _ (fun e => h (Res.prepend_timeout.2 e))]
          · rfl
      | matchSet st t =>
        cases ts with
        | nil => rfl
        | cons x xs =>
          simp only [exec] at h ⊢
          split
          · rename_i hs
            rw [if_pos hs] at h
            rw [ih _ _ _ (fun e => h (Res.prepend_timeout.2 e))]
          · rfl
      | call st r =>
        rw [exec] at h
        conv => lhs; rw [exec]
        conv => rhs; rw [exec]
        have hne : exec P prog n (st :: ctx) (prog r) ts ≠ .timeout := by
          intro e; rw [e] at h; exact h rfl
        rw [ih _ _ _ hne]
        cases he : exec P prog n (st :: ctx) (prog r) ts with
        | ok f ts' =>
          rw [he] at h
          simp only at h ⊢
          rw [ih _ _ _ (fun e => h (Res.prepend_timeout.2 e))]
        | error => rfl
        | timeout => rfl
      | predict d bs =>
        simp only [exec] at h ⊢
        cases hp : P.predict d ctx ts with
        | none => rfl
        | some a => rw [hp] at h; exact ih _ _ _ h
      | switchLA cs =>
        simp only [exec] at h ⊢
        cases hp : switchCase (la ts) cs with
        | none => rfl
        | some a => rw [hp] at h; exact ih _ _ _ h
      | ifLA t b => simp only [exec] at h ⊢; exact ih _ _ _ h
      | whileLA b st t => simp only [exec] at h ⊢; exact ih _ _ _ h
      | whilePredict b st d => simp only [exec] at h ⊢; exact ih _ _ _ h
      | loopPredict b st d =>
        simp only [exec] at h ⊢
        cases hp : P.predict d ctx ts with
        | none => rfl
        | some a =>
          rw [hp] at h
          simp only at h ⊢
          split
          · rename_i hs; rw [if_pos hs] at h; exact ih _ _ _ h
          · rename_i hs
            rw [if_neg hs] at h
            split
            · rename_i hs; rw [if_pos hs] at h; exact ih _ _ _ h
            · rfl

theorem exec_mono {n m : Nat} (hm : n ≤ m) {ctx : List Nat} {ss : List Stmt} {ts : List Tok}
    (h : exec P prog n ctx ss ts ≠ .timeout) : exec P prog m ctx ss ts = exec P prog n ctx ss ts := by
  induction hm with
  | refl => rfl
  | step _ ih => rw [exec_succ _ _ _ _ (by rw [ih]; exact h), ih]

/-- The statements come to an end. -/
def Halts (P : Predictor) (prog : Rule → List Stmt) (ctx : List Nat) (ss : List Stmt) (ts : List Tok) : Prop :=
  ∃ n, exec P prog n ctx ss ts ≠ .timeout

theorem Halts.of_step {ctx : List Nat} {ss ss' : List Stmt} {ts : List Tok} (h : Halts P prog ctx ss' ts)
    (hs : ∀ n, exec P prog (n + 1) ctx ss ts = exec P prog n ctx ss' ts) : Halts P prog ctx ss ts := by
  obtain ⟨n, h⟩ := h
  exact ⟨n + 1, by rw [hs]; exact h⟩

theorem rank_alts {gs : List G} {i : Nat} (hi : i < gs.length) : gs[i].rank ≤ (G.alts gs).rank := by
  induction gs generalizing i with
  | nil => simp at hi
  | cons a gs ih =>
    cases gs with
    | nil => obtain rfl : i = 0 := by simp at hi; exact hi
             exact Nat.le_refl _
    | cons b gs =>
      rw [G.alts_cons]
      simp only [G.rank]
      cases i with
      | zero => simp only [List.getElem_cons_zero]; omega
      | succ i =>
        have := ih (i := i) (by simpa using hi)
        simp only [List.getElem_cons_succ]
        omega

theorem halts_of_impl (hc : CodeOk A prog) (hR : P.InRange A) (L R : Nat) {g : G} {code : List Stmt} {s e : Nat} {F : List Int}
    (h : Impl A g code s e F) : ∀ ctx ss ts, ts.length ≤ L → g.rank ≤ R →
      (∀ us ts' f c, ts = us ++ ts' → D g us f c → Halts P prog ctx ss ts') → Halts P prog ctx (code ++ ss) ts := by
  induction L using Nat.strongRecOn generalizing R g code s e F with
  | _ L ihL =>
  induction R using Nat.strongRecOn generalizing g code s e F with
  | _ R ihR =>
    induction h with
    | pre ho _ ih => exact ih
    | post _ ho ih => exact ih
    | @sync g c s e F hi ih =>
      intro ctx ss ts hL hr hk
      cases hs : P.sync s ctx ts with
      | true => exact (ih ctx ss ts hL hr hk).of_step fun n => by simp [exec, hs]
      | false => exact ⟨1, by simp [exec, hs]⟩
    | eps =>
      intro ctx ss ts hL hr hk
      exact hk [] ts [] [] rfl .eps
    | @tok t s e F ho =>
      intro ctx ss ts hL hr hk
      cases ts with
      | nil => exact ⟨1, by simp [exec]⟩
      | cons x xs =>
        by_cases hx : x.type.num = t.num
        · obtain ⟨n, hn⟩ := hk [x] xs _ _ rfl (.tok (TokType.num_inj hx))
          exact ⟨n + 1, by simp [exec, hx, Res.prepend_timeout, hn]⟩
        · exact ⟨1, by simp [exec, hx]⟩
    | @set l ks t s e F ho h0 hl' ht =>
      obtain ⟨h0, -⟩ := h0
      intro ctx ss ts hL hr hk
      cases ts with
      | nil => exact ⟨1, by simp [exec]⟩
      | cons x xs =>
        by_cases hx : t.eval x.type.num = true
        · obtain ⟨c, hd⟩ := (D_alts_toks h0 (ts := [x]) (f := [.leaf x])).2 ⟨x, (ht _).1 hx, rfl, rfl⟩
          obtain ⟨n, hn⟩ := hk [x] xs _ _ rfl hd
          exact ⟨n + 1, by simp [exec, hx, Res.prepend_timeout, hn]⟩
        · exact ⟨1, by simp [exec, hx]⟩
    | @rule r s e F ho hF =>
      intro ctx ss ts hL hr hk
      obtain ⟨e', he, hi⟩ := hc.rule r
      have hrank := body_rank r
      simp only [G.rank] at hr
      obtain ⟨n, hn⟩ := ihR (R - 1) (by omega) hi (s :: ctx) [] ts hL (by omega)
        (fun us ts' f c _ _ => ⟨1, by simp [exec]⟩)
      rw [List.append_nil] at hn
      cases hx : exec P prog n (s :: ctx) (prog r) ts with
      | ok f ts' =>
        obtain ⟨us, ts'', f1, f2, c, k, h1, h2, h3, h4, h5⟩ :=
          did_of_impl hc hR n hi n (Nat.le_refl _) (s :: ctx) [] ts f ts' (by rw [List.append_nil]; exact hx)
        cases k with
        | zero => exact (exec_zero h5).elim
        | succ k =>
          simp only [exec, Res.ok.injEq] at h5
          obtain ⟨rfl, rfl⟩ := h5
          obtain ⟨m, hm⟩ := hk us ts'' _ c h1 (.rule h3)
          refine ⟨max n m + 1, ?_⟩
          simp only [List.singleton_append]
          rw [exec]
          rw [exec_mono (Nat.le_max_left n m) hn, hx]
          simp only [ne_eq, Res.prepend_timeout]
          rw [exec_mono (Nat.le_max_right n m) hm]
          exact hm
      | error =>
        refine ⟨n + 1, ?_⟩
        simp only [List.singleton_append]
        rw [exec, hx]
        simp
      | timeout => exact absurd hx hn
    | @seq a b c c' s m e F h1 h2 ih ih' =>
      intro ctx ss ts hL hr hk
      rw [List.append_assoc]
      simp only [G.rank] at hr
      refine ih ctx _ ts hL (by omega) ?_
      intro us ts' f c1 he hd
      have hk' : ∀ us' ts'' f' c', ts' = us' ++ ts'' → D b us' f' c' → Halts P prog ctx ss ts'' :=
        fun us' ts'' f' c' he' hd' => hk (us ++ us') ts'' _ _ (by rw [he, he']; simp) (.seq hd hd')
      cases us with
      | nil =>
        simp only [nullable_of_D hd rfl, if_true] at hr
        simp only [List.nil_append] at he
        subst he
        exact ih' ctx ss ts hL (by omega) hk'
      | cons x xs =>
        have : ts'.length < L := by rw [he] at hL; simp at hL; omega
        exact ihL ts'.length this b.rank h2 ctx ss ts' (Nat.le_refl _) (Nat.le_refl _) hk'
    | @predict gs ss0 bs d s e F hd ho hlen h0 hi ih =>
      intro ctx ss ts hL hr hk
      cases hp : P.predict d ctx ts with
      | none => exact ⟨1, by simp [exec, hp]⟩
      | some a =>
        obtain ⟨h1, h2⟩ := hR _ _ _ _ _ hp hd
        rw [ho, List.length_map, ← hlen] at h2
        obtain ⟨i, rfl⟩ : ∃ i, a = i + 1 := ⟨a - 1, by omega⟩
        refine (ih i (by omega) (by omega) ctx ss ts hL ?_ ?_).of_step fun n => by simp [exec, hp]
        · exact Nat.le_trans (rank_alts (by omega)) hr
        · intro us ts' f c he hd'
          obtain ⟨c', h'⟩ := (D_alts h0).2 ⟨i, by omega, c, hd'⟩
          exact hk us ts' f c' he h'
    | @switch gs ss0 cs s e F ho hlen hlen' h0 hi hcond ih =>
      intro ctx ss ts hL hr hk
      cases hp : switchCase (la ts) cs with
      | none => exact ⟨1, by simp [exec, hp]⟩
      | some b =>
        obtain ⟨i, hi', rfl⟩ := switchCase_some hp
        refine (ih i (by omega) (by omega) (by omega) ctx ss ts hL ?_ ?_).of_step fun n => by simp [exec, hp]
        · exact Nat.le_trans (rank_alts (by omega)) hr
        · intro us ts' f c he hd'
          obtain ⟨c', h'⟩ := (D_alts h0).2 ⟨i, by omega, c, hd'⟩
          exact hk us ts' f c' he h'
    | @ifLA a t b s s1 s2 e F ho h1 h2 hn hf hF ih ih' =>
      intro ctx ss ts hL hr hk
      simp only [G.rank] at hr
      cases ht : t.eval (la ts) with
      | true =>
        refine (ih ctx ss ts hL (by omega) ?_).of_step fun n => by simp [exec, ht]
        exact fun us ts' f c he hd => hk us ts' f _ he (.altL hd)
      | false =>
        refine (ih' ctx ss ts hL (by simp only [G.rank]; omega) ?_).of_step fun n => by simp [exec, ht]
        exact fun us ts' f c he hd => hk us ts' f _ he (.altR hd)
    | @whileLA a t b s l x F ho h1 hn hf hF ih =>
      intro ctx ss ts hL hr hk
      simp only [G.rank] at hr
      refine Halts.of_step (ss' := b ++ (.sync l :: .ifLA t [.whileLA b l t] :: ss)) ?_ fun n => by simp [exec]
      refine ih ctx _ ts hL (by omega) ?_
      intro us ts' f c he hd
      cases hs : P.sync l ctx ts' with
      | false => exact ⟨1, by simp [exec, hs]⟩
      | true =>
        refine Halts.of_step (ss' := .ifLA t [.whileLA b l t] :: ss) ?_ fun n => by simp [exec, hs]
        cases ht : t.eval (la ts') with
        | false =>
          refine Halts.of_step (ss' := ss) ?_ fun n => by simp [exec, ht]
          exact hk (us ++ []) ts' _ _ (by rw [he]; simp) (.seq hd .starNil)
        | true =>
          refine Halts.of_step (ss' := [.whileLA b l t] ++ ss) ?_ fun n => by simp [exec, ht]
          have hlt : ts'.length < L := by
            cases us with
            | nil => rw [nullable_of_D hd rfl] at hn; cases hn
            | cons y ys => rw [he] at hL; simp at hL; omega
          refine ihL ts'.length hlt _ (.whileLA ho h1 hn hf hF) ctx ss ts' (Nat.le_refl _) (Nat.le_refl _) ?_
          intro us' ts'' f' c' he' hd'
          obtain ⟨ta, tb, fa, fb, ca, cb, rfl, rfl, rfl, ha, hb⟩ := D_seq.1 hd'
          exact hk (us ++ (ta ++ tb)) ts'' _ _ (by rw [he, he']; simp) (.seq hd (.starCons ha hb))
    | @whilePredict a b s l x d F hd0 ho h1 hn ih =>
      intro ctx ss ts hL hr hk
      simp only [G.rank] at hr
      refine Halts.of_step (ss' := b ++ (.sync l :: .loopPredict b l d :: ss)) ?_ fun n => by simp [exec]
      refine ih ctx _ ts hL (by omega) ?_
      intro us ts' f c he hd
      cases hs : P.sync l ctx ts' with
      | false => exact ⟨1, by simp [exec, hs]⟩
      | true =>
        refine Halts.of_step (ss' := .loopPredict b l d :: ss) ?_ fun n => by simp [exec, hs]
        cases hp : P.predict d ctx ts' with
        | none => exact ⟨1, by simp [exec, hp]⟩
        | some i =>
          by_cases h2 : i = 2 ∨ i = 0
          · refine Halts.of_step (ss' := ss) ?_ fun n => by simp [exec, hp, h2]
            exact hk (us ++ []) ts' _ _ (by rw [he]; simp) (.seq hd .starNil)
          · by_cases h3 : i = 1
            · subst h3
              refine Halts.of_step (ss' := [.whilePredict b l d] ++ ss) ?_ fun n => by simp [exec, hp]
              have hlt : ts'.length < L := by
                cases us with
                | nil => rw [nullable_of_D hd rfl] at hn; cases hn
                | cons y ys => rw [he] at hL; simp at hL; omega
              refine ihL ts'.length hlt _ (.whilePredict hd0 ho h1 hn) ctx ss ts' (Nat.le_refl _) (Nat.le_refl _) ?_
              intro us' ts'' f' c' he' hd'
              obtain ⟨ta, tb, fa, fb, ca, cb, rfl, rfl, rfl, ha, hb⟩ := D_seq.1 hd'
              exact hk (us ++ (ta ++ tb)) ts'' _ _ (by rw [he, he']; simp) (.seq hd (.starCons ha hb))
            · exact ⟨1, by simp [exec, hp, h2, h3]⟩

end

end Fcsql
