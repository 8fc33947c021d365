/-
The predictions of a parse, counted.
-/
import Verif.Model.Work
import Verif.Model.ParserCode
import Verif.Model.ParserAtnData
import Verif.Proofs.Census

set_option autoImplicit false
set_option linter.unusedSimpArgs false

namespace Fcsql

/-- With the credit `p`, one more for every token that is matched and less what the calls need, the statements can pay for
their predictions. -/
inductive Pays (alts : Nat → Nat) (v : Rule → Int) : Int → List Stmt → Prop
  | nil {p : Int} : 0 ≤ p → Pays alts v p []
  | sync {p : Int} {st : Nat} {ss : List Stmt} : Pays alts v p ss → Pays alts v p (.sync st :: ss)
  | matchTok {p : Int} {st : Nat} {k : Int} {ss : List Stmt} : Pays alts v (p + 1) ss → Pays alts v p (.matchTok st k :: ss)
  | matchSet {p : Int} {st : Nat} {t : LaTest} {ss : List Stmt} : Pays alts v (p + 1) ss → Pays alts v p (.matchSet st t :: ss)
  | call {p : Int} {st : Nat} {r : Rule} {ss : List Stmt} : Pays alts v (p - v r) ss → Pays alts v p (.call st r :: ss)
  | predict {p : Int} {d : Nat} {bs : List (List Stmt)} {ss : List Stmt} : (∀ b ∈ bs, Pays alts v (p - 1) (b ++ ss)) →
      Pays alts v (p - 1) ss → Pays alts v p (.predict d bs :: ss)
  | predictSome {p : Int} {d : Nat} {bs : List (List Stmt)} {ss : List Stmt} : (∀ b ∈ bs, Pays alts v (p - 1) (b ++ ss)) →
      0 < alts d → alts d ≤ bs.length → Pays alts v p (.predict d bs :: ss)
  | switchLA {p : Int} {cs : List (List Int × List Stmt)} {ss : List Stmt} : (∀ c ∈ cs, Pays alts v p (c.2 ++ ss)) →
      Pays alts v p (.switchLA cs :: ss)
  | ifLA {p : Int} {t : LaTest} {b ss : List Stmt} : Pays alts v p (b ++ ss) → Pays alts v p ss → Pays alts v p (.ifLA t b :: ss)
  | whileLA {p c : Int} {b : List Stmt} {st : Nat} {t : LaTest} {ss : List Stmt} : c ≤ 0 → Pays alts v c b → Pays alts v (p - c) ss →
      Pays alts v p (.whileLA b st t :: ss)
  | whilePredict {p c : Int} {b : List Stmt} {st d : Nat} {ss : List Stmt} : c ≤ -1 → Pays alts v c b → Pays alts v (p - c - 1) ss →
      Pays alts v p (.whilePredict b st d :: ss)
  | loopPredict {p c : Int} {b : List Stmt} {st d : Nat} {ss : List Stmt} : c ≤ -1 → Pays alts v c b → Pays alts v (p - 1) ss →
      Pays alts v p (.loopPredict b st d :: ss)

variable {alts : Nat → Nat} {v : Rule → Int}

theorem Pays.mono {p : Int} {ss : List Stmt} (h : Pays alts v p ss) : ∀ {p' : Int}, p ≤ p' → Pays alts v p' ss := by
  induction h with
  | nil h => intro p' hp; exact .nil (by omega)
  | sync _ ih => intro p' hp; exact .sync (ih hp)
  | matchTok _ ih => intro p' hp; exact .matchTok (ih (by omega))
  | matchSet _ ih => intro p' hp; exact .matchSet (ih (by omega))
  | call _ ih => intro p' hp; exact .call (ih (by omega))
  | predict _ _ ih1 ih2 => intro p' hp; exact .predict (fun b hb => ih1 b hb (by omega)) (ih2 (by omega))
  | predictSome _ h0 hl ih1 => intro p' hp; exact .predictSome (fun b hb => ih1 b hb (by omega)) h0 hl
  | switchLA _ ih => intro p' hp; exact .switchLA fun c hc => ih c hc hp
  | ifLA _ _ ih1 ih2 => intro p' hp; exact .ifLA (ih1 hp) (ih2 hp)
  | whileLA hc hb _ _ ih => intro p' hp; exact .whileLA hc hb (ih (by omega))
  | whilePredict hc hb _ _ ih => intro p' hp; exact .whilePredict hc hb (ih (by omega))
  | loopPredict hc hb _ _ ih => intro p' hp; exact .loopPredict hc hb (ih (by omega))

theorem Pays.append {p : Int} {a : List Stmt} (ha : Pays alts v p a) {q : Int} {b : List Stmt} (hb : Pays alts v q b) :
    Pays alts v (p + q) (a ++ b) := by
  induction ha with
  | nil h => exact hb.mono (by omega)
  | sync _ ih => exact .sync ih
  | matchTok _ ih => exact .matchTok (ih.mono (by omega))
  | matchSet _ ih => exact .matchSet (ih.mono (by omega))
  | call _ ih => exact .call (ih.mono (by omega))
  | predict _ _ ih1 ih2 =>
    refine .predict (fun c hc => ?_) (ih2.mono (by omega))
    have := ih1 c hc
    rw [List.append_assoc] at this
    exact this.mono (by omega)
  | predictSome _ h0 hl ih1 =>
    refine .predictSome (fun c hc => ?_) h0 hl
    have := ih1 c hc
    rw [List.append_assoc] at this
    exact this.mono (by omega)
  | switchLA _ ih =>
    refine .switchLA fun c hc => ?_
    have := ih c hc
    rwa [List.append_assoc] at this
  | ifLA _ _ ih1 ih2 =>
    refine .ifLA ?_ ih2
    rwa [List.append_assoc] at ih1
  | whileLA hc hb _ _ ih => exact .whileLA hc hb (ih.mono (by omega))
  | whilePredict hc hb _ _ ih => exact .whilePredict hc hb (ih.mono (by omega))
  | loopPredict hc hb _ _ ih => exact .loopPredict hc hb (ih.mono (by omega))

/-- How many predictions a function needs, less the tokens it matches. -/
def needs : Rule → Int
  | .query => -1
  | .main_query => 0
  | .query_disjunction => -1
  | .query_sequence => -1
  | .query_group => -2
  | .query_simple => -1
  | .quantifier => -1
  | .query_implicit => -1
  | .query_segment => -2
  | .within_part => -1
  | .within_part_simple => -1
  | .expression => -1
  | .expression_or => -2
  | .expression_and => -2
  | .expression_group => -3
  | .expression_not => -2
  | .expression_basic => -2
  | .attribute_ => 0
  | .qualifier => -1
  | .identifier => -1
  | .regexp => -1
  | .regexp_pattern => -1
  | .regexp_flag => -1

/-- The number of alternatives of a decision. -/
def parserAlts (d : Nat) : Nat :=
  match parserAtn.decisions[d]? with
  | some s => (parserAtn.out s).length
  | none => 0

/-- A checker for `Pays`; the loops are given what their bodies need. -/
def paysChk (alts : Nat → Nat) (v : Rule → Int) : Nat → Int → List Stmt → Bool
  | 0, _, _ => false
  | _ + 1, p, [] => 0 ≤ p
  | n + 1, p, s :: ss =>
    match s with
    | .sync _ => paysChk alts v n p ss
    | .matchTok _ _ => paysChk alts v n (p + 1) ss
    | .matchSet _ _ => paysChk alts v n (p + 1) ss
    | .call _ r => paysChk alts v n (p - v r) ss
    | .predict d bs => bs.all (fun b => paysChk alts v n (p - 1) (b ++ ss)) && (paysChk alts v n (p - 1) ss || (0 < alts d && alts d ≤ bs.length))
    | .switchLA cs => cs.all fun c => paysChk alts v n p (c.2 ++ ss)
    | .ifLA _ b => paysChk alts v n p (b ++ ss) && paysChk alts v n p ss
    | .whileLA b _ _ => [(-2 : Int), -1, 0].any fun c => paysChk alts v n c b && paysChk alts v n (p - c) ss
    | .whilePredict b _ _ => [(-2 : Int), -1].any fun c => paysChk alts v n c b && paysChk alts v n (p - c - 1) ss
    | .loopPredict _ _ _ => false

theorem paysChk_sound : ∀ (n : Nat) (p : Int) (ss : List Stmt), paysChk alts v n p ss = true → Pays alts v p ss
  | 0, _, _, h => by simp [paysChk] at h
  | n + 1, p, [], h => .nil (by simpa [paysChk] using h)
  | n + 1, p, s :: ss, h => by
    cases s with
    | sync st => exact .sync (paysChk_sound n p ss h)
    | matchTok st k => exact .matchTok (paysChk_sound n _ ss h)
    | matchSet st k => exact .matchSet (paysChk_sound n _ ss h)
    | call st r => exact .call (paysChk_sound n _ ss h)
    | predict d bs =>
      simp only [paysChk, Bool.and_eq_true, List.all_eq_true, Bool.or_eq_true, decide_eq_true_eq] at h
      rcases h.2 with h2 | h2
      · exact .predict (fun b hb => paysChk_sound n _ _ (h.1 b hb)) (paysChk_sound n _ _ h2)
      · exact .predictSome (fun b hb => paysChk_sound n _ _ (h.1 b hb)) h2.1 h2.2
    | switchLA cs =>
      simp only [paysChk, List.all_eq_true] at h
      exact .switchLA fun c hc => paysChk_sound n _ _ (h c hc)
    | ifLA t b =>
      simp only [paysChk, Bool.and_eq_true] at h
      exact .ifLA (paysChk_sound n _ _ h.1) (paysChk_sound n _ _ h.2)
    | whileLA b st t =>
      simp only [paysChk, List.any_eq_true, Bool.and_eq_true, List.mem_cons, List.not_mem_nil, or_false] at h
      obtain ⟨c, hc, h1, h2⟩ := h
      exact .whileLA (c := c) (by omega) (paysChk_sound n _ _ h1) (paysChk_sound n _ _ h2)
    | whilePredict b st d =>
      simp only [paysChk, List.any_eq_true, Bool.and_eq_true, List.mem_cons, List.not_mem_nil, or_false] at h
      obtain ⟨c, hc, h1, h2⟩ := h
      exact .whilePredict (c := c) (by omega) (paysChk_sound n _ _ h1) (paysChk_sound n _ _ h2)
    | loopPredict b st d => simp [paysChk] at h

/-- The generated functions can pay. -/
theorem code_pays (r : Rule) : Pays parserAlts needs (needs r) (code r) := by
  refine paysChk_sound 40 _ _ ?_
  cases r <;> decide +kernel

theorem execAsked_ok {P : Predictor} {prog : Rule → List Stmt} (hprog : ∀ r, Pays alts v (v r) (prog r))
    (hr : ∀ d ctx ts i, 0 < alts d → P.predict d ctx ts = some i → 1 ≤ i ∧ i ≤ alts d) :
    ∀ (n : Nat) (ctx : List Nat) (ss : List Stmt) (ts : List Tok) (f : List PTree) (vs : List Tok) (p : Int), Pays alts v p ss →
    exec P prog n ctx ss ts = .ok f vs →
    ((execAsked P prog n ctx ss ts).length : Int) ≤ p + (PTree.leavesL f).length
  | 0, ctx, ss, ts, f, vs, p, hp, h => by simp [exec] at h
  | n + 1, ctx, [], ts, f, vs, p, hp, h => by
    simp only [exec, Res.ok.injEq] at h
    obtain ⟨rfl, rfl⟩ := h
    cases hp
    simp only [execAsked, PTree.contextsL, PTree.leavesL, List.length_nil]
    omega
  | n + 1, ctx, s :: ss, ts, f, vs, p, hp, h => by
    cases hp with
    | sync hp =>
      simp only [exec] at h
      simp only [execAsked]
      split at h
      · next hs => rw [if_pos hs]; exact execAsked_ok hprog hr n ctx ss ts f vs p hp h
      · simp at h
    | matchTok hp =>
      cases ts with
      | nil => simp [exec] at h
      | cons x xs =>
        simp only [exec] at h
        simp only [execAsked]
        split at h
        · next hs =>
          obtain ⟨g, h1, rfl⟩ := Res.prepend_ok_inv h
          have := execAsked_ok hprog hr n ctx ss xs g vs _ hp h1
          rw [if_pos hs]
          simp only [List.cons_append, List.nil_append, PTree.contextsL, PTree.contexts, PTree.leavesL, PTree.leaves, List.length_cons]
          omega
        · simp at h
    | matchSet hp =>
      cases ts with
      | nil => simp [exec] at h
      | cons x xs =>
        simp only [exec] at h
        simp only [execAsked]
        split at h
        · next hs =>
          obtain ⟨g, h1, rfl⟩ := Res.prepend_ok_inv h
          have := execAsked_ok hprog hr n ctx ss xs g vs _ hp h1
          rw [if_pos hs]
          simp only [List.cons_append, List.nil_append, PTree.contextsL, PTree.contexts, PTree.leavesL, PTree.leaves, List.length_cons]
          omega
        · simp at h
    | @call _ st r _ hp =>
      simp only [exec] at h
      simp only [execAsked]
      cases hc : exec P prog n (st :: ctx) (prog r) ts with
      | ok f1 ts' =>
        rw [hc] at h
        obtain ⟨g, h1, rfl⟩ := Res.prepend_ok_inv h
        have a := execAsked_ok hprog hr n _ _ _ f1 ts' _ (hprog r) hc
        have b := execAsked_ok hprog hr n _ _ _ g vs _ hp h1
        simp only [List.length_append, List.cons_append, List.nil_append, PTree.contextsL, PTree.contexts, PTree.leavesL, PTree.leaves]
        omega
      | error => rw [hc] at h; simp at h
      | timeout => rw [hc] at h; simp at h
    | @predict _ d bs _ hp1 hp2 =>
      simp only [exec] at h
      simp only [execAsked]
      split at h
      · simp at h
      · next a hpa =>
        rw [hpa]
        have hb : Pays alts v (p - 1) (branch bs a ++ ss) := by
          cases a with
          | zero => exact hp2
          | succ a =>
            simp only [branch]
            cases hba : bs[a]? with
            | none => exact hp2
            | some b => exact hp1 b (List.mem_of_getElem? hba)
        have := execAsked_ok hprog hr n ctx _ ts f vs _ hb h
        simp only [List.length_cons]
        omega
    | @predictSome _ d bs _ hp1 h0 hl =>
      simp only [exec] at h
      simp only [execAsked]
      split at h
      · simp at h
      · next a hpa =>
        rw [hpa]
        have hb : Pays alts v (p - 1) (branch bs a ++ ss) := by
          have hra := hr _ _ _ _ h0 hpa
          cases a with
          | zero => omega
          | succ a =>
            simp only [branch]
            cases hba : bs[a]? with
            | none => have := List.getElem?_eq_none_iff.1 hba; omega
            | some b => exact hp1 b (List.mem_of_getElem? hba)
        have := execAsked_ok hprog hr n ctx _ ts f vs _ hb h
        simp only [List.length_cons]
        omega
    | @switchLA _ cs _ hp =>
      simp only [exec] at h
      simp only [execAsked]
      split at h
      · simp at h
      · next b hb =>
        rw [hb]
        have : ∃ c ∈ cs, c.2 = b := by
          revert hb
          clear h hp
          induction cs with
          | nil => intro hb; cases hb
          | cons c cs ih =>
            intro hb
            obtain ⟨ks, b'⟩ := c
            simp only [switchCase] at hb
            split at hb
            · simp only [Option.some.injEq] at hb
              exact ⟨(ks, b'), by simp, hb⟩
            · obtain ⟨c, hc, he⟩ := ih hb
              exact ⟨c, by simp [hc], he⟩
        obtain ⟨c, hc, rfl⟩ := this
        exact execAsked_ok hprog hr n ctx _ ts f vs _ (hp c hc) h
    | @ifLA _ t b _ hp1 hp2 =>
      simp only [exec] at h
      simp only [execAsked]
      split at h
      · next hs => rw [if_pos hs]; exact execAsked_ok hprog hr n ctx _ ts f vs _ hp1 h
      · next hs => rw [if_neg hs]; exact execAsked_ok hprog hr n ctx _ ts f vs _ hp2 h
    | @whileLA _ c b st t _ hc hb hp =>
      simp only [exec] at h
      simp only [execAsked]
      refine execAsked_ok hprog hr n ctx _ ts f vs _ ?_ h
      exact (hb.append (.sync (.ifLA (.whileLA hc hb (hp.mono (by omega))) hp))).mono (by omega)
    | @whilePredict _ c b st d _ hc hb hp =>
      simp only [exec] at h
      simp only [execAsked]
      refine execAsked_ok hprog hr n ctx _ ts f vs _ ?_ h
      exact (hb.append (.sync (.loopPredict hc hb (p := p - c) hp))).mono (by omega)
    | @loopPredict _ c b st d _ hc hb hp =>
      simp only [exec] at h
      simp only [execAsked]
      split at h
      · simp at h
      · next hpa =>
        rw [hpa]
        simp only [List.length_cons]
        split at h
        · next hs =>
          rw [if_pos hs]
          have := execAsked_ok hprog hr n ctx _ ts f vs _ hp h
          omega
        · next hs =>
          rw [if_neg hs]
          split at h
          · next hs2 =>
            rw [if_pos hs2]
            have := execAsked_ok hprog hr n ctx _ ts f vs _ (.whilePredict (p := p - 1) hc hb (hp.mono (by omega))) h
            omega
          · simp at h

/-- A run never goes back: what is left after it, and what is left when a prediction is asked for, are parts of the tokens. -/
theorem exec_rest {P : Predictor} {prog : Rule → List Stmt} : ∀ (n : Nat) (ctx : List Nat) (ss : List Stmt) (ts : List Tok),
    (∀ f vs, exec P prog n ctx ss ts = .ok f vs → vs <:+ ts) ∧
    ∀ a ∈ execAsked P prog n ctx ss ts, a.rest <:+ ts
  | 0, ctx, ss, ts => ⟨by intro f vs h; simp [exec] at h, by intro a h; simp [execAsked] at h⟩
  | n + 1, ctx, [], ts => by
    refine ⟨?_, by intro a h; simp [execAsked] at h⟩
    intro f vs h
    simp only [exec, Res.ok.injEq] at h
    rw [h.2]
    exact List.suffix_rfl
  | n + 1, ctx, s :: ss, ts => by
    have eat : ∀ (c : Prop) [Decidable c] (x : Tok) (xs : List Tok),
        (∀ f vs, (if c then (exec P prog n ctx ss xs).prepend [.leaf x] else .error) = .ok f vs → vs <:+ x :: xs) ∧
        ∀ a ∈ (if c then execAsked P prog n ctx ss xs else []), a.rest <:+ x :: xs := by
      intro c _ x xs
      obtain ⟨h1, h2⟩ := exec_rest n ctx ss xs
      constructor
      · intro f vs h
        split at h
        · obtain ⟨g, h3, -⟩ := Res.prepend_ok_inv h
          exact (h1 g vs h3).trans (List.suffix_cons _ _)
        · simp at h
      · intro a ha
        split at ha
        · exact (h2 a ha).trans (List.suffix_cons _ _)
        · simp at ha
    cases s with
    | sync st =>
      simp only [exec, execAsked]
      split
      · exact exec_rest n ctx ss ts
      · simp
    | matchTok st k =>
      cases ts with
      | nil => simp [exec, execAsked]
      | cons x xs => simp only [exec, execAsked]; exact eat _ x xs
    | matchSet st k =>
      cases ts with
      | nil => simp [exec, execAsked]
      | cons x xs => simp only [exec, execAsked]; exact eat _ x xs
    | call st r =>
      obtain ⟨h1, h2⟩ := exec_rest n (st :: ctx) (prog r) ts
      simp only [exec, execAsked]
      cases hc : exec P prog n (st :: ctx) (prog r) ts with
      | ok f1 ts' =>
        obtain ⟨h3, h4⟩ := exec_rest n ctx ss ts'
        have hs := h1 f1 ts' hc
        constructor
        · intro f vs h
          obtain ⟨g, h5, -⟩ := Res.prepend_ok_inv h
          exact (h3 g vs h5).trans hs
        · intro a ha
          rcases List.mem_append.1 ha with ha | ha
          · exact h2 a ha
          · exact (h4 a ha).trans hs
      | error => exact ⟨by simp, h2⟩
      | timeout => exact ⟨by simp, h2⟩
    | predict d bs =>
      simp only [exec, execAsked]
      cases P.predict d ctx ts with
      | none => simp
      | some a =>
        obtain ⟨h1, h2⟩ := exec_rest n ctx (branch bs a ++ ss) ts
        refine ⟨h1, ?_⟩
        intro b hb
        rcases List.mem_cons.1 hb with rfl | hb
        · exact List.suffix_rfl
        · exact h2 b hb
    | switchLA cs =>
      simp only [exec, execAsked]
      cases switchCase (la ts) cs with
      | none => simp
      | some b => exact exec_rest n ctx (b ++ ss) ts
    | ifLA t b => simp only [exec, execAsked]; exact exec_rest n ctx _ ts
    | whileLA b st t => simp only [exec, execAsked]; exact exec_rest n ctx _ ts
    | whilePredict b st d => simp only [exec, execAsked]; exact exec_rest n ctx _ ts
    | loopPredict b st d =>
      simp only [exec, execAsked]
      cases P.predict d ctx ts with
      | none => simp
      | some a =>
        simp only
        split
        · obtain ⟨h1, h2⟩ := exec_rest n ctx ss ts
          refine ⟨h1, ?_⟩
          intro b hb
          rcases List.mem_cons.1 hb with rfl | hb
          · exact List.suffix_rfl
          · exact h2 b hb
        · split
          · obtain ⟨h1, h2⟩ := exec_rest n ctx (.whilePredict b st d :: ss) ts
            refine ⟨h1, ?_⟩
            intro b hb
            rcases List.mem_cons.1 hb with rfl | hb
            · exact List.suffix_rfl
            · exact h2 b hb
          · simp

/-! ### Rounds -/

theorem llRounds_le (A : Atn) : ∀ (ts : List Tok) (S : AConfigSet), A.llRounds S ts ≤ ts.length
  | [], S => by simp [Atn.llRounds]
  | x :: xs, S => by
    have := llRounds_le A xs (A.reachSet true S x.type.num)
    simp only [Atn.llRounds, List.length_cons]
    split
    · omega
    · split
      · omega
      · split <;> omega

theorem sllRounds_le (A : Atn) (d : Nat) (ctx : List Nat) (ts : List Tok) : ∀ (look : List Tok) (S : AConfigSet),
    A.sllRounds d ctx ts look S ≤ look.length + ts.length
  | [], S => by
    have := llRounds_le A ts (A.startConfigs true d (A.returnStates ctx))
    simp only [Atn.sllRounds, List.length_nil]
    omega
  | x :: xs, S => by
    have h1 := llRounds_le A ts (A.startConfigs true d (A.returnStates ctx))
    have h2 := sllRounds_le A d ctx ts xs (A.reachSet false S x.type.num)
    simp only [Atn.sllRounds, List.length_cons]
    split <;> omega

/-- A prediction looks at a token at most twice. -/
theorem rounds_le (A : Atn) (a : Asked) : A.rounds a ≤ 2 * a.rest.length := by
  have := sllRounds_le A a.decision a.ctx a.rest a.rest (A.startConfigs false a.decision [])
  unfold Atn.rounds
  omega

theorem sum_rounds_le (A : Atn) (k : Nat) : ∀ (l : List Asked), (∀ a ∈ l, a.rest.length ≤ k) → (l.map A.rounds).sum ≤ 2 * k * l.length
  | [], _ => by simp
  | a :: l, h => by
    have h1 := rounds_le A a
    have h2 := h a (by simp)
    have h3 := sum_rounds_le A k l fun b hb => h b (by simp [hb])
    simp only [List.map_cons, List.sum_cons, List.length_cons, Nat.mul_add, Nat.mul_one]
    omega

end Fcsql
