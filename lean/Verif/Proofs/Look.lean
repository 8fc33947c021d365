/-
Which tokens a path through the network of FCSParser.py can begin with, state by state: a table, checked to be closed under
the transitions.
-/
import Verif.Proofs.GenCheck

set_option autoImplicit false
set_option linter.unusedSimpArgs false

namespace Fcsql

/-- Bit `k + 1` of a number for token type `k` (`EOF` is `-1`). -/
def tokBit (k : Int) : Nat := (k + 1).toNat

/-- The bit for "to the end of the rule without any token". -/
def endBit : Nat := 30

/-- One number is, as a set of bits, contained in another one. -/
def subBits (a b : Nat) : Bool := a &&& b == a

theorem subBits_testBit {a b i : Nat} (h : subBits a b = true) (ha : a.testBit i = true) : b.testBit i = true := by
  have h : a &&& b = a := by simpa [subBits] using h
  rw [← h, Nat.testBit_and] at ha
  simp at ha
  exact ha.2

/-- The entry of a table for a state. -/
def entry (T : List Nat) (s : Nat) : Nat :=
  match T[s]? with
  | some m => m
  | none => 0

/-- A transition of state `s` respects the table. -/
def transOk (T : List Nat) (s : Nat) : Trans → Bool
  | .eps t => subBits (entry T t) (entry T s)
  | .atom k _ => (entry T s).testBit (tokBit k)
  | .set l _ => Atn.allTypes.all fun t => !(l.any fun p => p.1 ≤ t.num && t.num ≤ p.2) || (entry T s).testBit (tokBit t.num)
  | .rule b _ f => (Atn.allTypes.all fun t => !(entry T b).testBit (tokBit t.num) || (entry T s).testBit (tokBit t.num)) &&
      (!(entry T b).testBit endBit || subBits (entry T f) (entry T s))
  | _ => true

/-- All transitions respect the table. -/
def Atn.lookOk (A : Atn) (T : List Nat) : Bool :=
  (List.range A.states.length).all fun s => (!A.isStop s || (entry T s).testBit endBit) && (A.out s).all (transOk T s)

theorem look_sound {A : Atn} {T : List Nat} (hT : A.lookOk T = true) {s : Nat} {ts : List Tok} {f : List PTree} (h : Walk A s ts f) :
    (ts = [] → (entry T s).testBit endBit = true) ∧ ∀ x xs, ts = x :: xs → (entry T s).testBit (tokBit x.type.num) = true := by
  have hT : ∀ s, s < A.states.length → (A.isStop s = true → (entry T s).testBit endBit = true) ∧ ∀ t ∈ A.out s, transOk T s t = true := by
    intro s hs
    simp only [Atn.lookOk, List.all_eq_true, List.mem_range, Bool.and_eq_true] at hT
    obtain ⟨h1, h2⟩ := hT s hs
    refine ⟨fun h => ?_, h2⟩
    rw [h] at h1; simpa using h1
  have ho : ∀ {s : Nat} {t : Trans}, t ∈ A.out s → transOk T s t = true := by
    intro s t h
    refine (hT s ?_).2 t h
    unfold Atn.out at h
    split at h
    · rename_i e; exact (List.getElem?_eq_some_iff.1 e).1
    · cases h
  induction h with
  | @stop s hs =>
    refine ⟨fun _ => (hT s ?_).1 hs, by simp⟩
    unfold Atn.isStop at hs
    split at hs
    · rename_i e; exact (List.getElem?_eq_some_iff.1 e).1
    · cases hs
  | @eps s t ts f hm _ ih =>
    have h := ho hm
    simp only [transOk] at h
    exact ⟨fun e => subBits_testBit h (ih.1 e), fun x xs e => subBits_testBit h (ih.2 x xs e)⟩
  | @atom s t x ts f hm _ ih =>
    have h := ho hm
    simp only [transOk] at h
    exact ⟨by simp, fun y ys e => by cases e; exact h⟩
  | @set s t l x ts f hm hi _ ih =>
    have h := ho hm
    simp only [transOk, List.all_eq_true, Bool.or_eq_true, Bool.not_eq_true'] at h
    refine ⟨by simp, fun y ys e => ?_⟩
    cases e
    rcases h x.type (Atn.mem_allTypes _) with h | h
    · exfalso
      obtain ⟨p, hp, h1, h2⟩ := hi
      rw [← Bool.not_eq_true, List.any_eq_true] at h
      exact h ⟨p, hp, by simp [h1, h2]⟩
    · exact h
  | @rule s start t r us ts ks f hm _ _ ih1 ih2 =>
    have h := ho hm
    simp only [transOk, Bool.and_eq_true, List.all_eq_true, Bool.or_eq_true, Bool.not_eq_true'] at h
    have hnil : us = [] → subBits (entry T t) (entry T s) = true := by
      intro e
      rcases h.2 with h2 | h2
      · rw [ih1.1 e] at h2; cases h2
      · exact h2
    constructor
    · intro e
      obtain ⟨e1, e2⟩ := List.append_eq_nil_iff.1 e
      exact subBits_testBit (hnil e1) (ih2.1 e2)
    · intro x xs e
      cases us with
      | nil => exact subBits_testBit (hnil rfl) (ih2.2 x xs e)
      | cons y ys =>
        simp only [List.cons_append, List.cons.injEq] at e
        obtain ⟨rfl, -⟩ := e
        rcases h.1 y.type (Atn.mem_allTypes _) with h1 | h1
        · rw [ih1.2 y ys rfl] at h1; cases h1
        · exact h1

/-- The table of the network of FCSParser.py. -/
def lookTable : List Nat :=
  [16777236, 1073741824, 16777236, 1073741824, 16777236, 1073741824, 16777236, 1073741824, 4, 1073741824, 16777232,
   1073741824, 29696, 1073741824, 16777216, 1073741824, 16, 1073741824, 1048576, 1073741824, 1048576, 1073741824,
   7864580, 1073741824, 7864580, 1073741824, 7864580, 1073741824, 4, 1073741824, 256, 1073741824, 7864320,
   1073741824, 7864320, 1073741824, 7864320, 1073741824, 7864320, 1073741824, 16777216, 1073741824, 16777216,
   1073741824, 2097152, 1073741824, 16777236, 524288, 1048576, 524289, 1, 1, 1073741824, 16777232, 4, 16777236,
   16777236, 16777236, 1073741824, 16777232, 16777236, 4, 16777236, 64, 64, 16777232, 16777236, 4, 16777236,
   1073741888, 64, 1073741888, 1073741888, 1073741824, 16777232, 4, 16777236, 1090519060, 1090519060, 1073741824, 4,
   16777236, 16777236, 16777236, 8, 8, 29696, 1073771520, 1073741824, 16777216, 16, 16777232, 1073771520, 29696,
   1073771520, 1073741824, 4096, 8192, 16384, 1024, 8388608, 8388608, 8421376, 32768, 32768, 8388608, 8388608, 32768,
   8388608, 8390656, 2048, 8421376, 2048, 2048, 29696, 1073741824, 16777216, 1073741824, 16, 7864580, 7864612, 32,
   32, 1073741824, 1048576, 1073741824, 1048576, 1073741824, 7864320, 4, 7864580, 7864580, 256, 7864580, 1073741824,
   7864320, 4, 7864580, 256, 7864580, 64, 64, 7864320, 4, 7864580, 256, 7864580, 1073741888, 64, 1073741888,
   1073741888, 1073741824, 7864320, 4, 256, 7864580, 128, 128, 7864320, 4, 7864580, 256, 7864580, 1073741952, 128,
   1073741952, 1073741952, 1073741824, 4, 7864320, 4, 7864580, 7864580, 256, 7864580, 8, 8, 1073741824, 256, 7864320,
   4, 256, 7864580, 7864580, 7864580, 1073741824, 7864320, 196608, 16777216, 1073741824, 7864320, 262144, 7864320,
   7864320, 7864320, 7864320, 1073741824, 7864320, 1073741824, 7864320, 1073741824, 16777216, 512, 2097152,
   1073742336, 1073741824, 16777216, 1073741824, 2097152, 1073741824, 0]

theorem lookTable_ok : parserAtn.lookOk lookTable = true := by decide +kernel

/-- In the state, the token type is expected, or the rule can end. -/
def expects (s : Nat) (k : Int) : Bool := (entry lookTable s).testBit endBit || (entry lookTable s).testBit (tokBit k)

theorem expects_of_expected {s : Nat} {k : Int} (h : Expected parserAtn s k) : expects s k = true := by
  obtain ⟨ts, f, hw, hk⟩ := h
  obtain ⟨h1, h2⟩ := look_sound lookTable_ok hw
  unfold expects
  cases ts with
  | nil => rw [h1 rfl]; simp
  | cons x xs => rw [← hk x xs rfl, h2 x xs rfl]; simp

end Fcsql
