/-
The Python operations of `Model/Py` against the character-by-character specification `Spec/Py`.
-/
import Verif.Spec.Py

set_option autoImplicit false
set_option linter.unusedSimpArgs false

namespace Fcsql

theorem filter_zipIdx (lo hi : Int) : ∀ (s : PyStr) (k : Nat),
    ((s.zipIdx k).filter fun p => lo ≤ (p.2 : Int) ∧ (p.2 : Int) < hi).map Prod.fst =
      (s.take (hi - k).toNat).drop (lo - k).toNat
  | [], k => by simp
  | c :: s, k => by
    have ih := filter_zipIdx lo hi s (k + 1)
    rw [List.zipIdx_cons, List.filter_cons]
    by_cases h : (k : Int) < hi
    · have e : (hi - k).toNat = (hi - ((k + 1 : Nat) : Int)).toNat + 1 := by omega
      rw [e, List.take_succ_cons]
      by_cases h' : lo ≤ (k : Int)
      · have e1 : (lo - k).toNat = 0 := by omega
        have e2 : (lo - ((k + 1 : Nat) : Int)).toNat = 0 := by omega
        rw [e2] at ih
        simp only [h, h', and_self, decide_true, if_true, List.map_cons, e1, List.drop_zero] at ih ⊢
        rw [ih]
      · have e1 : (lo - k).toNat = (lo - ((k + 1 : Nat) : Int)).toNat + 1 := by omega
        rw [e1, List.drop_succ_cons, ← ih]
        simp [h']
    · have e : (hi - k).toNat = 0 := by omega
      have e2 : (hi - ((k + 1 : Nat) : Int)).toNat = 0 := by omega
      rw [e2] at ih
      rw [e]
      simp only [List.take_zero, List.drop_nil] at ih ⊢
      rw [← ih]
      simp [h]

/-- Slicing is what it should be. -/
theorem slice_eq : slice = substring := by
  funext s a b
  rw [substring, filter_zipIdx]
  simp only [slice, sliceIdx, indexFrom]
  have h1 : s.take (if b < 0 then (s.length + b).toNat else min b.toNat s.length) =
      s.take ((if b < 0 then b + s.length else b) - ((0 : Nat) : Int)).toNat := by
    split
    · congr 1; omega
    · rw [← List.take_take, List.take_length]; congr 1; omega
  rw [h1]
  by_cases ha : a < 0
  · rw [if_pos ha, if_pos ha]; congr 1; omega
  · rw [if_neg ha, if_neg ha]
    have : (a - ((0 : Nat) : Int)).toNat = a.toNat := by omega
    rw [this]
    by_cases hl : a.toNat ≤ s.length
    · rw [Nat.min_eq_left hl]
    · rw [Nat.min_eq_right (by omega), List.drop_eq_nil_of_le (by simp; omega), List.drop_eq_nil_of_le (by simp; omega)]

end Fcsql
