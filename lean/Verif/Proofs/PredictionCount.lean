/-
The predictions of a parse, counted exactly: those its tree is worth.
-/
import Verif.Proofs.Predictions
import Verif.Proofs.AtnSeg
import Verif.Spec.Work

set_option autoImplicit false
set_option linter.unusedSimpArgs false

namespace Fcsql

/-- The type with a number. -/
def tokTypeOf (k : Int) : Option TokType := Atn.allTypes.find? fun t => t.num = k

theorem tokTypeOf_num (t : TokType) : tokTypeOf t.num = some t := by cases t <;> decide

/-- The further predictions for a token with this number. -/
def choicesNum (r : Rule) (k : Int) : Int :=
  match tokTypeOf k with
  | some t => choicesAt r t
  | none => 0

/-- Statements of the function of rule `r` ask for exactly `p` predictions more than their children are worth. -/
inductive Costs (alts : Nat → Nat) (r : Rule) : Int → List Stmt → Prop
  | nil : Costs alts r 0 []
  | sync {p : Int} {st : Nat} {ss : List Stmt} : Costs alts r p ss → Costs alts r p (.sync st :: ss)
  | matchTok {p : Int} {st : Nat} {k : Int} {ss : List Stmt} : Costs alts r (p + choicesNum r k) ss → Costs alts r p (.matchTok st k :: ss)
  | matchSet {p : Int} {st : Nat} {t : LaTest} {ss : List Stmt} : (∀ x : TokType, t.eval x.num = true → choicesAt r x = 0) → Costs alts r p ss →
      Costs alts r p (.matchSet st t :: ss)
  | call {p : Int} {st : Nat} {r' : Rule} {ss : List Stmt} : Costs alts r p ss → Costs alts r p (.call st r' :: ss)
  | predict {p : Int} {d : Nat} {bs : List (List Stmt)} {ss : List Stmt} : (∀ b ∈ bs, Costs alts r (p - 1) (b ++ ss)) →
      Costs alts r (p - 1) ss → Costs alts r p (.predict d bs :: ss)
  | predictSome {p : Int} {d : Nat} {bs : List (List Stmt)} {ss : List Stmt} : (∀ b ∈ bs, Costs alts r (p - 1) (b ++ ss)) →
      0 < alts d → alts d ≤ bs.length → Costs alts r p (.predict d bs :: ss)
  | switchLA {p : Int} {cs : List (List Int × List Stmt)} {ss : List Stmt} : (∀ c ∈ cs, Costs alts r p (c.2 ++ ss)) →
      Costs alts r p (.switchLA cs :: ss)
  | ifLA {p : Int} {t : LaTest} {b ss : List Stmt} : Costs alts r p (b ++ ss) → Costs alts r p ss → Costs alts r p (.ifLA t b :: ss)
  | whileLA {p : Int} {b : List Stmt} {st : Nat} {t : LaTest} {ss : List Stmt} : Costs alts r 0 b → Costs alts r p ss →
      Costs alts r p (.whileLA b st t :: ss)
  | whilePredict {p : Int} {b : List Stmt} {st d : Nat} {ss : List Stmt} : Costs alts r (-1) b → Costs alts r p ss →
      Costs alts r p (.whilePredict b st d :: ss)
  | loopPredict {p : Int} {b : List Stmt} {st d : Nat} {ss : List Stmt} : Costs alts r (-1) b → Costs alts r (p - 1) ss →
      Costs alts r p (.loopPredict b st d :: ss)

variable {alts : Nat → Nat} {r : Rule}

theorem Costs.cast {p p' : Int} {ss : List Stmt} (h : Costs alts r p ss) (e : p = p') : Costs alts r p' ss := e ▸ h

theorem Costs.append {p : Int} {a : List Stmt} (ha : Costs alts r p a) {q : Int} {b : List Stmt} (hb : Costs alts r q b) :
    Costs alts r (p + q) (a ++ b) := by
  induction ha with
  | nil => exact hb.cast (by omega)
  | sync _ ih => exact .sync ih
  | matchTok _ ih => exact .matchTok (ih.cast (by omega))
  | matchSet h _ ih => exact .matchSet h ih
  | call _ ih => exact .call ih
  | predict _ _ ih1 ih2 =>
    refine .predict (fun c hc => ?_) (ih2.cast (by omega))
    have := ih1 c hc
    rw [List.append_assoc] at this
    exact this.cast (by omega)
  | predictSome _ h0 hl ih1 =>
    refine .predictSome (fun c hc => ?_) h0 hl
    have := ih1 c hc
    rw [List.append_assoc] at this
    exact this.cast (by omega)
  | switchLA _ ih =>
    refine .switchLA fun c hc => ?_
    have := ih c hc
    rwa [List.append_assoc] at this
  | ifLA _ _ ih1 ih2 =>
    refine .ifLA ?_ ih2
    rwa [List.append_assoc] at ih1
  | whileLA hb _ _ ih => exact .whileLA hb ih
  | whilePredict hb _ _ ih => exact .whilePredict hb ih
  | loopPredict hb _ _ ih => exact .loopPredict hb (ih.cast (by omega))

/-- A checker for `Costs`. -/
def costsChk (alts : Nat → Nat) (r : Rule) : Nat → Int → List Stmt → Bool
  | 0, _, _ => false
  | _ + 1, p, [] => p = 0
  | n + 1, p, s :: ss =>
    match s with
    | .sync _ => costsChk alts r n p ss
    | .matchTok _ k => costsChk alts r n (p + choicesNum r k) ss
    | .matchSet _ t => (Atn.allTypes.all fun x => !t.eval x.num || choicesAt r x = 0) && costsChk alts r n p ss
    | .call _ _ => costsChk alts r n p ss
    | .predict d bs => bs.all (fun b => costsChk alts r n (p - 1) (b ++ ss)) && (costsChk alts r n (p - 1) ss || (0 < alts d && alts d ≤ bs.length))
    | .switchLA cs => cs.all fun c => costsChk alts r n p (c.2 ++ ss)
    | .ifLA _ b => costsChk alts r n p (b ++ ss) && costsChk alts r n p ss
    | .whileLA b _ _ => costsChk alts r n 0 b && costsChk alts r n p ss
    | .whilePredict b _ _ => costsChk alts r n (-1) b && costsChk alts r n p ss
    | .loopPredict _ _ _ => false

theorem costsChk_sound : ∀ (n : Nat) (p : Int) (ss : List Stmt), costsChk alts r n p ss = true → Costs alts r p ss
  | 0, _, _, h => by simp [costsChk] at h
  | n + 1, p, [], h => by
    simp only [costsChk, decide_eq_true_eq] at h
    subst h; exact .nil
  | n + 1, p, s :: ss, h => by
    cases s with
    | sync st => exact .sync (costsChk_sound n p ss h)
    | matchTok st k => exact .matchTok (costsChk_sound n _ ss h)
    | matchSet st t =>
      simp only [costsChk, Bool.and_eq_true, List.all_eq_true, Bool.or_eq_true, Bool.not_eq_true', decide_eq_true_eq] at h
      refine .matchSet (fun x hx => ?_) (costsChk_sound n _ ss h.2)
      rcases h.1 x (Atn.mem_allTypes x) with h | h
      · rw [hx] at h; cases h
      · exact h
    | call st r => exact .call (costsChk_sound n _ ss h)
    | predict d bs =>
      simp only [costsChk, Bool.and_eq_true, List.all_eq_true, Bool.or_eq_true, decide_eq_true_eq] at h
      rcases h.2 with h2 | h2
      · exact .predict (fun b hb => costsChk_sound n _ _ (h.1 b hb)) (costsChk_sound n _ _ h2)
      · exact .predictSome (fun b hb => costsChk_sound n _ _ (h.1 b hb)) h2.1 h2.2
    | switchLA cs =>
      simp only [costsChk, List.all_eq_true] at h
      exact .switchLA fun c hc => costsChk_sound n _ _ (h c hc)
    | ifLA t b =>
      simp only [costsChk, Bool.and_eq_true] at h
      exact .ifLA (costsChk_sound n _ _ h.1) (costsChk_sound n _ _ h.2)
    | whileLA b st t =>
      simp only [costsChk, Bool.and_eq_true] at h
      exact .whileLA (costsChk_sound n _ _ h.1) (costsChk_sound n _ _ h.2)
    | whilePredict b st d =>
      simp only [costsChk, Bool.and_eq_true] at h
      exact .whilePredict (costsChk_sound n _ _ h.1) (costsChk_sound n _ _ h.2)
    | loopPredict b st d => simp [costsChk] at h

/-- The predictions of the generated functions. -/
theorem code_costs (r : Rule) : Costs parserAlts r (choicesOf r) (code r) := by
  refine costsChk_sound 40 _ _ ?_
  cases r <;> decide +kernel

theorem choicesL_cons_leaf (r : Rule) (x : Tok) (g : List PTree) : PTree.choicesL r (.leaf x :: g) = choicesAt r x.type + PTree.choicesL r g := by
  rw [PTree.choicesL]
theorem choicesL_cons_node (r r' : Rule) (f g : List PTree) :
    PTree.choicesL r (.node r' f :: g) = choicesOf r' + PTree.choicesL r' f + PTree.choicesL r g := by
  rw [PTree.choicesL, PTree.choices]

theorem execAsked_exact {P : Predictor} {prog : Rule → List Stmt} (hprog : ∀ r, Costs alts r (choicesOf r) (prog r))
    (hr : ∀ d ctx ts i, 0 < alts d → P.predict d ctx ts = some i → 1 ≤ i ∧ i ≤ alts d) :
    ∀ (n : Nat) (r : Rule) (ctx : List Nat) (ss : List Stmt) (ts : List Tok) (f : List PTree) (vs : List Tok) (p : Int), Costs alts r p ss →
    exec P prog n ctx ss ts = .ok f vs →
    ((execAsked P prog n ctx ss ts).length : Int) = p + PTree.choicesL r f
  | 0, r, ctx, ss, ts, f, vs, p, hp, h => by simp [exec] at h
  | n + 1, r, ctx, [], ts, f, vs, p, hp, h => by
    simp only [exec, Res.ok.injEq] at h
    obtain ⟨rfl, rfl⟩ := h
    cases hp
    simp only [execAsked, PTree.choicesL, List.length_nil]
    omega
  | n + 1, r, ctx, s :: ss, ts, f, vs, p, hp, h => by
    cases hp with
    | sync hp =>
      simp only [exec] at h
      simp only [execAsked]
      split at h
      · next hs => rw [if_pos hs]; exact execAsked_exact hprog hr n _ ctx ss ts f vs p hp h
      · simp at h
    | @matchTok _ st k _ hp =>
      cases ts with
      | nil => simp [exec] at h
      | cons x xs =>
        simp only [exec] at h
        simp only [execAsked]
        split at h
        · next hs =>
          obtain ⟨g, h1, rfl⟩ := Res.prepend_ok_inv h
          have := execAsked_exact hprog hr n _ ctx ss xs g vs _ hp h1
          rw [if_pos hs]
          simp only [List.cons_append, List.nil_append, choicesL_cons_leaf]
          have hk : choicesNum r k = choicesAt r x.type := by rw [← hs, choicesNum, tokTypeOf_num]
          omega
        · simp at h
    | @matchSet _ st t _ hset hp =>
      cases ts with
      | nil => simp [exec] at h
      | cons x xs =>
        simp only [exec] at h
        simp only [execAsked]
        split at h
        · next hs =>
          obtain ⟨g, h1, rfl⟩ := Res.prepend_ok_inv h
          have := execAsked_exact hprog hr n _ ctx ss xs g vs _ hp h1
          rw [if_pos hs]
          simp only [List.cons_append, List.nil_append, choicesL_cons_leaf]
          have hk := hset x.type hs
          omega
        · simp at h
    | @call _ st r' _ hp =>
      simp only [exec] at h
      simp only [execAsked]
      cases hc : exec P prog n (st :: ctx) (prog r') ts with
      | ok f1 ts' =>
        rw [hc] at h
        obtain ⟨g, h1, rfl⟩ := Res.prepend_ok_inv h
        have a := execAsked_exact hprog hr n _ _ _ _ f1 ts' _ (hprog r') hc
        have b := execAsked_exact hprog hr n _ _ _ _ g vs _ hp h1
        simp only [List.length_append, List.cons_append, List.nil_append, choicesL_cons_node]
        omega
      | error => rw [hc] at h; simp at h
      | timeout => rw [hc] at h; simp at h
    | @predict _ d bs _ hp1 hp2 =>
      simp only [exec] at h
      simp only [execAsked]
      split at h
      · simp at h
      · next a hpa =>
        rw [hpa]
        have hb : Costs alts r (p - 1) (branch bs a ++ ss) := by
          cases a with
          | zero => exact hp2
          | succ a =>
            simp only [branch]
            cases hba : bs[a]? with
            | none => exact hp2
            | some b => exact hp1 b (List.mem_of_getElem? hba)
        have := execAsked_exact hprog hr n _ ctx _ ts f vs _ hb h
        simp only [List.length_cons]
        omega
    | @predictSome _ d bs _ hp1 h0 hl =>
      simp only [exec] at h
      simp only [execAsked]
      split at h
      · simp at h
      · next a hpa =>
        rw [hpa]
        have hb : Costs alts r (p - 1) (branch bs a ++ ss) := by
          have hra := hr _ _ _ _ h0 hpa
          cases a with
          | zero => omega
          | succ a =>
            simp only [branch]
            cases hba : bs[a]? with
            | none => have := List.getElem?_eq_none_iff.1 hba; omega
            | some b => exact hp1 b (List.mem_of_getElem? hba)
        have := execAsked_exact hprog hr n _ ctx _ ts f vs _ hb h
        simp only [List.length_cons]
        omega
    | @switchLA _ cs _ hp =>
      simp only [exec] at h
      simp only [execAsked]
      split at h
      · simp at h
      · next b hb =>
        rw [hb]
        have : ∃ c ∈ cs, c.2 = b := by
          revert hb
          clear h hp
          induction cs with
          | nil => intro hb; cases hb
          | cons c cs ih =>
            intro hb
            obtain ⟨ks, b'⟩ := c
            simp only [switchCase] at hb
            split at hb
            · simp only [Option.some.injEq] at hb
              exact ⟨(ks, b'), by simp, hb⟩
            · obtain ⟨c, hc, he⟩ := ih hb
              exact ⟨c, by simp [hc], he⟩
        obtain ⟨c, hc, rfl⟩ := this
        exact execAsked_exact hprog hr n _ ctx _ ts f vs _ (hp c hc) h
    | @ifLA _ t b _ hp1 hp2 =>
      simp only [exec] at h
      simp only [execAsked]
      split at h
      · next hs => rw [if_pos hs]; exact execAsked_exact hprog hr n _ ctx _ ts f vs _ hp1 h
      · next hs => rw [if_neg hs]; exact execAsked_exact hprog hr n _ ctx _ ts f vs _ hp2 h
    | @whileLA _ b st t _ hb hp =>
      simp only [exec] at h
      simp only [execAsked]
      refine execAsked_exact hprog hr n _ ctx _ ts f vs _ ?_ h
      exact (hb.append (.sync (.ifLA (.whileLA hb hp) hp))).cast (by omega)
    | @whilePredict _ b st d _ hb hp =>
      simp only [exec] at h
      simp only [execAsked]
      refine execAsked_exact hprog hr n _ ctx _ ts f vs _ ?_ h
      exact (hb.append (.sync (.loopPredict hb (p := p + 1) (hp.cast (by omega))))).cast (by omega)
    | @loopPredict _ b st d _ hb hp =>
      simp only [exec] at h
      simp only [execAsked]
      split at h
      · simp at h
      · next hpa =>
        rw [hpa]
        simp only [List.length_cons]
        split at h
        · next hs =>
          rw [if_pos hs]
          have := execAsked_exact hprog hr n _ ctx _ ts f vs _ hp h
          omega
        · next hs =>
          rw [if_neg hs]
          split at h
          · next hs2 =>
            rw [if_pos hs2]
            have := execAsked_exact hprog hr n _ ctx _ ts f vs _ (.whilePredict (p := p - 1) hb hp) h
            omega
          · simp at h

end Fcsql
