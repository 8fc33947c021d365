/-
The generated functions ask for predictions only in the situations Proofs/AdaptivePredict.lean is about; so what they build
with the modelled prediction is what they build with one that is right about every situation.
-/
import Verif.Proofs.AdaptivePredict
import Verif.Model.ParserCode

set_option autoImplicit false
set_option linter.unusedSimpArgs false

namespace Fcsql

/-! ### Where the generated code asks -/

/-- Statements of the function of rule `i`: the states and decisions are states of that rule; and `EOF` is matched at most
at the very end, if `e`. -/
inductive Placed (A : Atn) (i : Int) : Bool → List Stmt → Prop
  | nil {e : Bool} : Placed A i e []
  | eof {st : Nat} : Placed A i true [.matchTok st (-1)]
  | sync {e : Bool} {st : Nat} {ss : List Stmt} : Placed A i e ss → Placed A i e (.sync st :: ss)
  | matchTok {e : Bool} {st : Nat} {k : Int} {ss : List Stmt} : k ≠ -1 → Placed A i e ss → Placed A i e (.matchTok st k :: ss)
  | matchSet {e : Bool} {st : Nat} {t : LaTest} {ss : List Stmt} : t.eval (-1) = false → Placed A i e ss → Placed A i e (.matchSet st t :: ss)
  | call {e : Bool} {st start t : Nat} {r : Rule} {ss : List Stmt} : A.out st = [.rule start r.num t] → A.ruleOf st = i → r ≠ .query →
      Placed A i e ss → Placed A i e (.call st r :: ss)
  | predict {e : Bool} {d s : Nat} {bs : List (List Stmt)} {ss : List Stmt} : A.decisions[d]? = some s → A.ruleOf s = i →
      (∀ b ∈ bs, Placed A i false b) → Placed A i e ss → Placed A i e (.predict d bs :: ss)
  | switchLA {e : Bool} {cs : List (List Int × List Stmt)} {ss : List Stmt} : (∀ c ∈ cs, Placed A i false c.2) → Placed A i e ss →
      Placed A i e (.switchLA cs :: ss)
  | ifLA {e : Bool} {t : LaTest} {b ss : List Stmt} : Placed A i false b → Placed A i e ss → Placed A i e (.ifLA t b :: ss)
  | whileLA {e : Bool} {b : List Stmt} {st : Nat} {t : LaTest} {ss : List Stmt} : Placed A i false b → Placed A i e ss →
      Placed A i e (.whileLA b st t :: ss)
  | whilePredict {e : Bool} {b : List Stmt} {st d s : Nat} {ss : List Stmt} : A.decisions[d]? = some s → A.ruleOf s = i →
      Placed A i false b → Placed A i e ss → Placed A i e (.whilePredict b st d :: ss)
  | loopPredict {e : Bool} {b : List Stmt} {st d s : Nat} {ss : List Stmt} : A.decisions[d]? = some s → A.ruleOf s = i →
      Placed A i false b → Placed A i e ss → Placed A i e (.loopPredict b st d :: ss)

theorem Placed.append {A : Atn} {i : Int} {e : Bool} {a b : List Stmt} (ha : Placed A i false a) (hb : Placed A i e b) : Placed A i e (a ++ b) := by
  generalize hf : false = f at ha
  induction ha with
  | nil => exact hb
  | eof => cases hf
  | sync _ ih => exact .sync (ih hf)
  | matchTok h _ ih => exact .matchTok h (ih hf)
  | matchSet h _ ih => exact .matchSet h (ih hf)
  | call h1 h2 h3 _ ih => exact .call h1 h2 h3 (ih hf)
  | predict h1 h2 h3 _ _ ih => exact .predict h1 h2 h3 (ih hf)
  | switchLA h _ _ ih => exact .switchLA h (ih hf)
  | ifLA h _ _ ih => exact .ifLA h (ih hf)
  | whileLA h _ _ ih => exact .whileLA h (ih hf)
  | whilePredict h1 h2 h3 _ _ ih => exact .whilePredict h1 h2 h3 (ih hf)
  | loopPredict h1 h2 h3 _ _ ih => exact .loopPredict h1 h2 h3 (ih hf)

/-- The decision is one of the rule. -/
def Atn.decidesIn (A : Atn) (i : Int) (d : Nat) : Bool :=
  match A.decisions[d]? with
  | some s => A.ruleOf s = i
  | none => false

/-- The same as a check; the first argument bounds the nesting. -/
def placedChk (A : Atn) (i : Int) : Nat → Bool → List Stmt → Bool
  | 0, _, _ => false
  | _ + 1, _, [] => true
  | n + 1, e, s :: ss =>
    match s with
    | .sync _ => placedChk A i n e ss
    | .matchTok _ k => if k = -1 then e && ss.isEmpty else placedChk A i n e ss
    | .matchSet _ t => !t.eval (-1) && placedChk A i n e ss
    | .call st r =>
      (match A.out st with
        | [.rule _ j _] => j = r.num && A.ruleOf st = i && !(r == .query)
        | _ => false) && placedChk A i n e ss
    | .predict d bs => A.decidesIn i d && bs.all (placedChk A i n false) && placedChk A i n e ss
    | .switchLA cs => cs.all (fun c => placedChk A i n false c.2) && placedChk A i n e ss
    | .ifLA _ b => placedChk A i n false b && placedChk A i n e ss
    | .whileLA b _ _ => placedChk A i n false b && placedChk A i n e ss
    | .whilePredict b _ d => A.decidesIn i d && placedChk A i n false b && placedChk A i n e ss
    | .loopPredict b _ d => A.decidesIn i d && placedChk A i n false b && placedChk A i n e ss

theorem decidesIn_iff {A : Atn} {i : Int} {d : Nat} (h : A.decidesIn i d = true) : ∃ s, A.decisions[d]? = some s ∧ A.ruleOf s = i := by
  unfold Atn.decidesIn at h
  split at h
  · rename_i s hs; exact ⟨s, hs, by simpa using h⟩
  · cases h

theorem placed_sound {A : Atn} {i : Int} : ∀ (n : Nat) (e : Bool) (ss : List Stmt), placedChk A i n e ss = true → Placed A i e ss := by
  intro n
  induction n with
  | zero => intro e ss h; cases h
  | succ n ih =>
    intro e ss h
    cases ss with
    | nil => exact .nil
    | cons s ss =>
      cases s with
      | sync st => exact .sync (ih _ _ h)
      | matchTok st k =>
        simp only [placedChk] at h
        split at h
        · rename_i hk
          simp only [Bool.and_eq_true, List.isEmpty_iff] at h
          obtain ⟨rfl, rfl⟩ := h
          subst hk
          exact .eof
        · rename_i hk; exact .matchTok hk (ih _ _ h)
      | matchSet st t =>
        simp only [placedChk, Bool.and_eq_true, Bool.not_eq_true'] at h
        exact .matchSet h.1 (ih _ _ h.2)
      | call st r =>
        simp only [placedChk, Bool.and_eq_true] at h
        obtain ⟨h1, h2⟩ := h
        split at h1
        · rename_i start j t ho
          simp only [Bool.and_eq_true, decide_eq_true_eq, Bool.not_eq_true', beq_eq_false_iff_ne] at h1
          obtain ⟨⟨rfl, h4⟩, h5⟩ := h1
          exact .call ho h4 h5 (ih _ _ h2)
        · cases h1
      | predict d bs =>
        simp only [placedChk, Bool.and_eq_true, List.all_eq_true] at h
        obtain ⟨s, h1, h2⟩ := decidesIn_iff h.1.1
        exact .predict h1 h2 (fun b hb => ih _ _ (h.1.2 b hb)) (ih _ _ h.2)
      | switchLA cs =>
        simp only [placedChk, Bool.and_eq_true, List.all_eq_true] at h
        exact .switchLA (fun c hc => ih _ _ (h.1 c hc)) (ih _ _ h.2)
      | ifLA t b =>
        simp only [placedChk, Bool.and_eq_true] at h
        exact .ifLA (ih _ _ h.1) (ih _ _ h.2)
      | whileLA b st t =>
        simp only [placedChk, Bool.and_eq_true] at h
        exact .whileLA (ih _ _ h.1) (ih _ _ h.2)
      | whilePredict b st d =>
        simp only [placedChk, Bool.and_eq_true] at h
        obtain ⟨s, h1, h2⟩ := decidesIn_iff h.1.1
        exact .whilePredict h1 h2 (ih _ _ h.1.2) (ih _ _ h.2)
      | loopPredict b st d =>
        simp only [placedChk, Bool.and_eq_true] at h
        obtain ⟨s, h1, h2⟩ := decidesIn_iff h.1.1
        exact .loopPredict h1 h2 (ih _ _ h.1.2) (ih _ _ h.2)

theorem code_placed (r : Rule) : Placed parserAtn r.num (r == .query) (code r) := by
  refine placed_sound 12 _ _ ?_
  have : ∀ r : Rule, placedChk parserAtn r.num 12 (r == .query) (code r) = true := by
    intro r
    cases r <;> decide +kernel
  exact this r

/-! ### Predictors that agree there -/

/-- The two give the same answers where the generated code asks. -/
structure AgreeOn (A : Atn) (P P' : Predictor) : Prop where
  predict : ∀ d s ctx ts, A.decisions[d]? = some s → Calls A (A.ruleOf s) ctx → EndsEof ts → P.predict d ctx ts = P'.predict d ctx ts
  sync : ∀ st ctx ts, P.sync st ctx ts = P'.sync st ctx ts

theorem branch_placed {A : Atn} {i : Int} {bs : List (List Stmt)} (h : ∀ b ∈ bs, Placed A i false b) (a : Nat) : Placed A i false (branch bs a) := by
  cases a with
  | zero => exact .nil
  | succ a =>
    simp only [branch]
    split
    · rename_i b hb; exact h b (List.mem_of_getElem? hb)
    · exact .nil

theorem switchCase_mem {k : Int} {b : List Stmt} : ∀ {cs : List (List Int × List Stmt)}, switchCase k cs = some b → ∃ c ∈ cs, c.2 = b := by
  intro cs
  induction cs with
  | nil => intro h; cases h
  | cons c cs ih =>
    intro h
    obtain ⟨ks, b'⟩ := c
    simp only [switchCase] at h
    split at h
    · cases h; exact ⟨(ks, b), by simp, rfl⟩
    · obtain ⟨c, hc, h⟩ := ih h; exact ⟨c, by simp [hc], h⟩

theorem exec_agree {A : Atn} {P P' : Predictor} (hPP : AgreeOn A P P') {prog : Rule → List Stmt}
    (hprog : ∀ r, r ≠ .query → Placed A r.num false (prog r)) : ∀ (n : Nat) (ctx : List Nat) (e : Bool) (i : Int) (ss : List Stmt) (ts : List Tok),
      Placed A i e ss → Calls A i ctx → EndsEof ts → exec P prog n ctx ss ts = exec P' prog n ctx ss ts ∧
        (e = false → ∀ f ts', exec P' prog n ctx ss ts = .ok f ts' → EndsEof ts') := by
  intro n
  induction n with
  | zero => intro ctx e i ss ts _ _ _; exact ⟨rfl, fun _ f ts' h => (by cases h)⟩
  | succ n ih =>
    intro ctx e i ss ts hss hc hE
    cases hss with
    | nil => exact ⟨rfl, fun _ f ts' h => by cases h; exact hE⟩
    | @eof st =>
      refine ⟨?_, fun h => (by cases h)⟩
      cases n with
      | zero => cases ts <;> rfl
      | succ n => cases ts <;> rfl
    | @sync _ st ss h =>
      simp only [exec, hPP.sync]
      split
      · exact ih ctx e i ss ts h hc hE
      · exact ⟨rfl, fun _ f ts' h => (by cases h)⟩
    | @matchTok _ st k ss hk h =>
      cases ts with
      | nil => exact ⟨rfl, fun _ f ts' h => (by cases h)⟩
      | cons x xs =>
        simp only [exec]
        split
        · rename_i hx
          have hE' := (endsEof_cons hE).resolve_left (fun h' => hk (hx ▸ h'.1))
          obtain ⟨h1, h2⟩ := ih ctx e i ss xs h hc hE'.2
          refine ⟨by rw [h1], fun he f ts' hf => ?_⟩
          obtain ⟨g, hg⟩ := Res.prepend_ok hf
          exact h2 he g ts' hg.1
        · exact ⟨rfl, fun _ f ts' h => (by cases h)⟩
    | @matchSet _ st t ss hk h =>
      cases ts with
      | nil => exact ⟨rfl, fun _ f ts' h => (by cases h)⟩
      | cons x xs =>
        simp only [exec]
        split
        · rename_i hx
          have hE' := (endsEof_cons hE).resolve_left (fun h' => by rw [h'.1, hk] at hx; cases hx)
          obtain ⟨h1, h2⟩ := ih ctx e i ss xs h hc hE'.2
          refine ⟨by rw [h1], fun he f ts' hf => ?_⟩
          obtain ⟨g, hg⟩ := Res.prepend_ok hf
          exact h2 he g ts' hg.1
        · exact ⟨rfl, fun _ f ts' h => (by cases h)⟩
    | @call _ st start t r ss ho hr hq h =>
      obtain ⟨h1, h2⟩ := ih (st :: ctx) false r.num (prog r) ts (hprog r hq) (.call ho (hr ▸ hc)) hE
      simp only [exec, h1]
      cases hres : exec P' prog n (st :: ctx) (prog r) ts with
      | ok f ts' =>
        obtain ⟨h3, h4⟩ := ih ctx e i ss ts' h hc (h2 rfl f ts' hres)
        refine ⟨by simp only [h3], fun he f' ts'' hf => ?_⟩
        obtain ⟨g, hg⟩ := Res.prepend_ok hf
        exact h4 he g ts'' hg.1
      | error => exact ⟨rfl, fun _ f ts' h => (by cases h)⟩
      | timeout => exact ⟨rfl, fun _ f ts' h => (by cases h)⟩
    | @predict _ d s bs ss hd hs hb h =>
      simp only [exec, hPP.predict d s ctx ts hd (hs ▸ hc) hE]
      cases P'.predict d ctx ts with
      | none => exact ⟨rfl, fun _ f ts' h => (by cases h)⟩
      | some a => exact ih ctx e i _ ts ((branch_placed hb a).append h) hc hE
    | @switchLA _ cs ss hb h =>
      simp only [exec]
      cases hsw : switchCase (la ts) cs with
      | none => exact ⟨rfl, fun _ f ts' h => (by cases h)⟩
      | some b =>
        obtain ⟨c, hcm, rfl⟩ := switchCase_mem hsw
        exact ih ctx e i _ ts ((hb c hcm).append h) hc hE
    | @ifLA _ t b ss hb h =>
      simp only [exec]
      refine ih ctx e i _ ts (Placed.append ?_ h) hc hE
      split
      · exact hb
      · exact .nil
    | @whileLA _ b st t ss hb h =>
      simp only [exec]
      exact ih ctx e i _ ts (hb.append (.sync (.ifLA (.whileLA hb .nil) h))) hc hE
    | @whilePredict _ b st d s ss hd hs hb h =>
      simp only [exec]
      exact ih ctx e i _ ts (hb.append (.sync (.loopPredict hd hs hb h))) hc hE
    | @loopPredict _ b st d s ss hd hs hb h =>
      simp only [exec, hPP.predict d s ctx ts hd (hs ▸ hc) hE]
      cases P'.predict d ctx ts with
      | none => exact ⟨rfl, fun _ f ts' h => (by cases h)⟩
      | some a =>
        simp only
        split
        · exact ih ctx e i _ ts h hc hE
        · split
          · exact ih ctx e i _ ts (.whilePredict hd hs hb h) hc hE
          · exact ⟨rfl, fun _ f ts' h => (by cases h)⟩

/-! ### The modelled prediction -/

/-- What is checked of the network of FCSParser.py. -/
def parserTab : NetTab where
  rank := [19, 0, 17, 0, 14, 0, 11, 0, 1, 0, 8, 0, 2, 0, 5, 0, 1, 0, 3, 0, 1, 0, 16, 0, 13, 0, 10, 0, 1, 0, 1, 0, 7, 0, 5, 0, 1,
 0, 1, 0, 3, 0, 1, 0, 1, 0, 18, 0, 4, 4, 3, 2, 1, 9, 2, 12, 15, 16, 1, 9, 12, 2, 13, 2, 0, 9, 12, 2, 13, 4, 1, 3, 2, 1,
 9, 2, 10, 12, 11, 1, 0, 15, 12, 16, 1, 0, 3, 4, 1, 6, 2, 7, 5, 3, 4, 1, 0, 0, 0, 0, 0, 0, 2, 1, 0, 0, 0, 0, 0, 3, 2, 3,
 1, 0, 1, 1, 4, 1, 0, 17, 18, 1, 0, 1, 2, 1, 0, 1, 8, 2, 14, 11, 2, 15, 1, 8, 2, 11, 2, 12, 2, 0, 8, 2, 11, 2, 12, 4, 1,
 3, 2, 1, 8, 2, 2, 9, 2, 0, 8, 2, 14, 2, 15, 4, 1, 3, 2, 1, 0, 8, 2, 14, 11, 2, 15, 1, 0, 1, 0, 8, 2, 2, 14, 11, 15, 1,
 6, 0, 4, 1, 2, 0, 4, 4, 3, 2, 1, 0, 1, 0, 1, 2, 0, 2, 2, 1, 0, 1, 0, 1, 0]
  ends := [1, 3, 5, 7, 9, 11, 13, 15, 17, 19, 21, 23, 25, 27, 29, 31, 33, 35, 37, 39, 41, 43, 45, 49, 50, 51, 52, 58, 69, 71, 72,
 73, 77, 78, 79, 87, 88, 92, 94, 95, 115, 117, 123, 125, 127, 134, 147, 149, 150, 151, 163, 165, 166, 167, 177, 185,
 189, 196, 198, 200, 204, 205, 207, 209]
  post := [1, 52]
  last := 1

theorem parserTab_ok : parserTab.ok parserAtn = true := by decide +kernel

theorem parserAtn_rules : ∀ s, s < parserAtn.states.length → parserAtn.ruleOf s ≠ -1 := by
  have : ((List.range parserAtn.states.length).all fun s => !(parserAtn.ruleOf s == -1)) = true := by decide +kernel
  intro s hs h
  have := List.all_eq_true.1 this s (List.mem_range.2 hs)
  simp [h] at this

/-- How far it is to the end of the rule. -/
def parserNear : List Nat :=
  [14, 0, 12, 0, 17, 0, 12, 0, 16, 0, 9, 0, 4, 0, 7, 0, 6, 0, 5, 0, 3, 0, 12, 0, 17, 0, 17, 0, 13, 0, 13, 0, 9, 0, 7, 0,
 3, 0, 3, 0, 5, 0, 3, 0, 3, 0, 13, 7, 6, 4, 3, 2, 1, 10, 17, 13, 18, 11, 1, 15, 15, 17, 16, 14, 12, 10, 13, 17, 11, 4,
 13, 3, 2, 1, 10, 17, 11, 3, 2, 1, 15, 18, 13, 14, 4, 3, 5, 2, 1, 8, 7, 8, 3, 5, 2, 1, 2, 2, 2, 6, 4, 7, 7, 6, 5, 4, 7,
 6, 5, 5, 4, 5, 3, 2, 3, 1, 6, 1, 5, 13, 4, 3, 2, 1, 4, 1, 2, 1, 10, 14, 18, 18, 14, 11, 1, 15, 15, 18, 15, 16, 14, 12,
 10, 14, 18, 14, 11, 4, 13, 3, 2, 1, 15, 15, 15, 16, 14, 12, 10, 14, 18, 14, 11, 4, 13, 3, 2, 1, 12, 10, 14, 18, 18, 14,
 11, 3, 2, 1, 12, 10, 14, 14, 18, 18, 11, 1, 8, 7, 6, 1, 8, 7, 6, 6, 5, 4, 1, 2, 1, 2, 1, 4, 5, 4, 2, 1, 2, 1, 2, 1,
 1000]

theorem parserNear_ok : nearOk parserAtn parserNear = true := by decide +kernel

theorem parserNear_length : parserNear.length = parserAtn.states.length := by decide +kernel

attribute [local irreducible] parserAtn

open Classical in
/-- The modelled prediction where the generated code asks; elsewhere a right one. -/
noncomputable def antlrPredictor : Predictor where
  predict d ctx ts := if ∃ s, parserAtn.decisions[d]? = some s ∧ Calls parserAtn (parserAtn.ruleOf s) ctx ∧ EndsEof ts
    then parserAtn.simulator.predictor.predict d ctx ts else (bestPredictor parserAtn).predict d ctx ts
  sync := parserAtn.simulator.sync

theorem antlrPredictor_ideal : antlrPredictor.Ideal parserAtn := by
  have hb := bestPredictor_ideal parserAtn
  refine ⟨?_, ?_, ?_⟩
  · intro d ctx ts i hv hl
    simp only [antlrPredictor]
    split
    · rename_i h
      obtain ⟨s, h1, h2, h3⟩ := h
      exact predict_least parserTab_ok parserAtn_rules h1 h2 h3 hv hl
    · exact hb.predict d ctx ts i hv hl
  · intro d ctx ts i s h hd
    simp only [antlrPredictor] at h
    split at h
    · exact predict_range hd ctx ts h
    · exact hb.range d ctx ts i s h hd
  · intro st ctx ts h
    exact syncOk_expected parserTab_ok h

theorem antlrPredictor_agree : AgreeOn parserAtn parserAtn.simulator.predictor antlrPredictor := by
  refine ⟨fun d s ctx ts h1 h2 h3 => ?_, fun _ _ _ => rfl⟩
  simp only [antlrPredictor]
  rw [if_pos ⟨s, h1, h2, h3⟩]

theorem sync_iff (st : Nat) (ctx : List Nat) (ts : List Tok) :
    parserAtn.simulator.predictor.sync st ctx ts = true ↔ Expected parserAtn st (la ts) := by
  change parserAtn.syncOk st ts = true ↔ _
  exact ⟨expected_syncOk parserTab_ok parserNear_ok parserNear_length, syncOk_expected parserTab_ok⟩

/-- On tokens that end with the end of input the function of rule `query` does the same with both. -/
theorem ends_agree {ts : List Tok} (h : EndsEof ts) (res : Res) : Ends parserAtn.simulator.predictor code .query ts res ↔ Ends antlrPredictor code .query ts res := by
  have hq : ∀ n, exec parserAtn.simulator.predictor code n [] (code .query) ts = exec antlrPredictor code n [] (code .query) ts := fun n =>
    (exec_agree antlrPredictor_agree (fun r hr => by have := code_placed r; rwa [beq_eq_false_iff_ne.2 hr] at this) n [] true 0 (code .query) ts
      (code_placed .query) .root h).1
  simp only [Ends, hq]

end Fcsql
