/-
The error strategy as a program (Model/ErrorStrategy.lean) is one of the strategies of Model/Recovery.lean: what it does can
be written down as a list of choices, and a strategy that reads the list does the same.
-/
import Verif.Model.ErrorStrategy
import Verif.Model.ParserCode
import Verif.Proofs.AdaptiveCode
import Verif.Spec.AntlrStrategy
import Verif.Spec.Messages

set_option autoImplicit false
set_option linter.unusedSimpArgs false

namespace Fcsql

/-! ### Where the generated code asks the strategy -/

/-- A state expects some token. -/
def Atn.Some (A : Atn) (st : Nat) : Prop := ∃ t : TokType, Atn.hasTok (A.nextTokens st) t.num = true

/-- The token set of a state has no `EPSILON`, is not empty and is inside `ok`. -/
def Atn.Only (A : Atn) (st : Nat) (ok : Int → Bool) : Prop :=
  Atn.hasEps (A.nextTokens st) = false ∧ (∀ j, Atn.hasTok (A.nextTokens st) j = true → ok j = true) ∧ A.Some st

/-- What `sync` is for: the state is a decision, or the rule may end there. -/
def Atn.SyncAt (A : Atn) (st : Nat) : Prop := Atn.hasEps (A.nextTokens st) = true ∨ (A.stateType st ∈ [3, 5, 4, 10] ∧ A.Some st)

/-- The states of the statements. -/
inductive AtStates (A : Atn) : List Stmt → Prop
  | nil : AtStates A []
  | sync {st : Nat} {ss : List Stmt} : st < A.states.length → A.SyncAt st → AtStates A ss → AtStates A (.sync st :: ss)
  | matchTok {st : Nat} {k : Int} {ss : List Stmt} : st < A.states.length → A.Only st (fun j => j = k) → AtStates A ss →
      AtStates A (.matchTok st k :: ss)
  | matchSet {st : Nat} {t : LaTest} {ss : List Stmt} : st < A.states.length → A.Only st t.eval → AtStates A ss → AtStates A (.matchSet st t :: ss)
  | call {st : Nat} {r : Rule} {ss : List Stmt} : st < A.states.length → AtStates A ss → AtStates A (.call st r :: ss)
  | predict {d : Nat} {bs : List (List Stmt)} {ss : List Stmt} : (∀ b ∈ bs, AtStates A b) → AtStates A ss → AtStates A (.predict d bs :: ss)
  | switchLA {cs : List (List Int × List Stmt)} {ss : List Stmt} : (∀ c ∈ cs, AtStates A c.2) → AtStates A ss → AtStates A (.switchLA cs :: ss)
  | ifLA {t : LaTest} {b ss : List Stmt} : AtStates A b → AtStates A ss → AtStates A (.ifLA t b :: ss)
  | whileLA {b : List Stmt} {st : Nat} {t : LaTest} {ss : List Stmt} : st < A.states.length → A.SyncAt st → AtStates A b → AtStates A ss →
      AtStates A (.whileLA b st t :: ss)
  | whilePredict {b : List Stmt} {st d : Nat} {ss : List Stmt} : st < A.states.length → A.SyncAt st → AtStates A b → AtStates A ss →
      AtStates A (.whilePredict b st d :: ss)
  | loopPredict {b : List Stmt} {st d : Nat} {ss : List Stmt} : st < A.states.length → A.SyncAt st → AtStates A b → AtStates A ss →
      AtStates A (.loopPredict b st d :: ss)

theorem AtStates.append {A : Atn} {a b : List Stmt} (ha : AtStates A a) (hb : AtStates A b) : AtStates A (a ++ b) := by
  induction ha with
  | nil => exact hb
  | sync h1 h2 _ ih => exact .sync h1 h2 ih
  | matchTok h1 h2 _ ih => exact .matchTok h1 h2 ih
  | matchSet h1 h2 _ ih => exact .matchSet h1 h2 ih
  | call h _ ih => exact .call h ih
  | predict h _ _ ih => exact .predict h ih
  | switchLA h _ _ ih => exact .switchLA h ih
  | ifLA h _ _ ih => exact .ifLA h ih
  | whileLA h1 h2 h _ _ ih => exact .whileLA h1 h2 h ih
  | whilePredict h1 h2 h _ _ ih => exact .whilePredict h1 h2 h ih
  | loopPredict h1 h2 h _ _ ih => exact .loopPredict h1 h2 h ih

/-- `Some` as a check. -/
def someChk (A : Atn) (st : Nat) : Bool := symbolOrder.any fun t => Atn.hasTok (A.nextTokens st) t.num

theorem someChk_sound {A : Atn} {st : Nat} (h : someChk A st = true) : A.Some st := by
  obtain ⟨t, -, ht⟩ := List.any_eq_true.1 h
  exact ⟨t, ht⟩

/-- `Only` as a check. -/
def onlyChk (A : Atn) (st : Nat) (ok : Int → Bool) : Bool := ((A.nextTokens st).all fun
  | none => false
  | some l => l.all fun p => (List.range (p.2 - p.1 + 1).toNat).all fun i => ok (p.1 + (i : Int))) && someChk A st

theorem onlyChk_sound {A : Atn} {st : Nat} {ok : Int → Bool} (h : onlyChk A st ok = true) : A.Only st ok := by
  unfold onlyChk at h
  rw [Bool.and_eq_true, List.all_eq_true] at h
  obtain ⟨h, hsome⟩ := h
  refine ⟨?_, ?_, someChk_sound hsome⟩
  · unfold Atn.hasEps
    rw [List.any_eq_false]
    intro x hx
    cases x with
    | none => exact absurd (h _ hx) (by simp)
    | some l => simp
  · intro j hj
    unfold Atn.hasTok at hj
    rw [List.any_eq_true] at hj
    obtain ⟨x, hx, hj⟩ := hj
    cases x with
    | none => cases hj
    | some l =>
      simp only [List.any_eq_true, Bool.and_eq_true, decide_eq_true_eq] at hj
      obtain ⟨p, hp, h1, h2⟩ := hj
      have h := h _ hx
      simp only [List.all_eq_true] at h
      have h := h p hp (j - p.1).toNat (by rw [List.mem_range]; omega)
      rwa [show p.1 + ((j - p.1).toNat : Int) = j by omega] at h

/-- `SyncAt` as a check. -/
def syncChk (A : Atn) (st : Nat) : Bool := Atn.hasEps (A.nextTokens st) || ([3, 5, 4, 10].contains (A.stateType st) && someChk A st)

theorem syncChk_sound {A : Atn} {st : Nat} (h : syncChk A st = true) : A.SyncAt st := by
  simp only [syncChk, Bool.or_eq_true, Bool.and_eq_true, List.contains_iff_mem] at h
  exact h.imp id fun h => ⟨h.1, someChk_sound h.2⟩

/-- `AtStates` as a check; the first argument bounds the nesting. -/
def atStatesChk (A : Atn) : Nat → List Stmt → Bool
  | 0, _ => false
  | _ + 1, [] => true
  | n + 1, s :: ss =>
    (match s with
    | .sync st => decide (st < A.states.length) && syncChk A st
    | .matchTok st k => decide (st < A.states.length) && onlyChk A st (fun j => j = k)
    | .matchSet st t => decide (st < A.states.length) && onlyChk A st t.eval
    | .call st _ => decide (st < A.states.length)
    | .predict _ bs => bs.all (atStatesChk A n)
    | .switchLA cs => cs.all fun c => atStatesChk A n c.2
    | .ifLA _ b => atStatesChk A n b
    | .whileLA b st _ => decide (st < A.states.length) && syncChk A st && atStatesChk A n b
    | .whilePredict b st _ => decide (st < A.states.length) && syncChk A st && atStatesChk A n b
    | .loopPredict b st _ => decide (st < A.states.length) && syncChk A st && atStatesChk A n b) && atStatesChk A n ss

theorem atStates_sound {A : Atn} : ∀ (n : Nat) (ss : List Stmt), atStatesChk A n ss = true → AtStates A ss := by
  intro n
  induction n with
  | zero => intro ss h; cases h
  | succ n ih =>
    intro ss h
    cases ss with
    | nil => exact .nil
    | cons s ss =>
      cases s <;> simp only [atStatesChk, Bool.and_eq_true, decide_eq_true_eq, List.all_eq_true] at h
      · exact .sync h.1.1 (syncChk_sound h.1.2) (ih _ h.2)
      · exact .matchTok h.1.1 (onlyChk_sound h.1.2) (ih _ h.2)
      · exact .matchSet h.1.1 (onlyChk_sound h.1.2) (ih _ h.2)
      · exact .call h.1 (ih _ h.2)
      · exact .predict (fun b hb => ih _ (h.1 b hb)) (ih _ h.2)
      · exact .switchLA (fun c hc => ih _ (h.1 c hc)) (ih _ h.2)
      · exact .ifLA (ih _ h.1) (ih _ h.2)
      · exact .whileLA h.1.1.1 (syncChk_sound h.1.1.2) (ih _ h.1.2) (ih _ h.2)
      · exact .whilePredict h.1.1.1 (syncChk_sound h.1.1.2) (ih _ h.1.2) (ih _ h.2)
      · exact .loopPredict h.1.1.1 (syncChk_sound h.1.1.2) (ih _ h.1.2) (ih _ h.2)

theorem code_atStates (r : Rule) : AtStates parserAtn (code r) := by
  refine atStates_sound 12 _ ?_
  have : ∀ r : Rule, atStatesChk parserAtn 12 (code r) = true := by
    intro r
    cases r <;> decide +kernel
  exact this r

theorem branch_atStates {A : Atn} {bs : List (List Stmt)} (h : ∀ b ∈ bs, AtStates A b) (a : Nat) : AtStates A (branch bs a) := by
  cases a with
  | zero => exact .nil
  | succ a =>
    simp only [branch]
    split
    · rename_i b hb; exact h b (List.mem_of_getElem? hb)
    · exact .nil

end Fcsql
