/-
All sets of configurations the lexer can be in, whatever the text: 95.
-/
import Verif.Spec.Memory
import Verif.Proofs.LexerSimAll
import Verif.Proofs.LexerCache

set_option autoImplicit false
set_option linter.unusedSimpArgs false

namespace Fcsql

/-- Where a range of characters in the network begins, or another one ends. -/
def lexBounds : List Int :=
  [-1, 0, 9, 14, 32, 33, 34, 35, 36, 37, 38, 39, 40, 41, 42, 43, 44, 45, 46, 47, 48, 58, 59, 61, 62, 63, 64, 65, 67, 68, 71,
  73, 74, 85, 86, 91, 92, 93, 94, 95, 97, 98, 99, 100, 101, 102, 103, 104, 105, 106, 108, 109, 110, 111, 112, 113, 114, 115,
  116, 117, 118, 119, 120, 121, 123, 124, 125, 126, 128, 133, 134, 160, 161, 5760, 5761, 8192, 8203, 8232, 8234, 8239, 8240,
  8287, 8288, 12288, 12289, 1114112]

/-- The sets. -/
def lexStates : List (List LConf) := [
    [⟨65, 1, [], []⟩, ⟨67, 2, [], []⟩, ⟨69, 3, [], []⟩, ⟨71, 4, [], []⟩, ⟨73, 5, [], []⟩, ⟨75, 6, [], []⟩, ⟨77, 7, [], []⟩, ⟨79,
    8, [], []⟩, ⟨81, 9, [], []⟩, ⟨83, 10, [], []⟩, ⟨85, 11, [], []⟩, ⟨87, 12, [], []⟩, ⟨89, 13, [], []⟩, ⟨91, 14, [], []⟩, ⟨93,
    15, [], []⟩, ⟨95, 16, [], []⟩, ⟨98, 17, [], []⟩, ⟨100, 18, [], []⟩, ⟨107, 19, [], []⟩, ⟨115, 19, [], []⟩, ⟨116, 19, [], []⟩,
    ⟨125, 19, [], []⟩, ⟨126, 19, [], []⟩, ⟨135, 19, [], []⟩, ⟨136, 19, [], []⟩, ⟨140, 19, [], []⟩, ⟨141, 19, [], []⟩, ⟨145, 19,
    [], []⟩, ⟨154, 20, [], []⟩, ⟨159, 21, [173], []⟩, ⟨175, 22, [], []⟩, ⟨182, 23, [181], []⟩, ⟨191, 23, [181], []⟩, ⟨182, 24,
    [], []⟩, ⟨191, 24, [], []⟩, ⟨206, 25, [235], []⟩],
  [⟨64, 25, [], [0]⟩],
  [⟨14, 7, [], []⟩, ⟨96, 16, [], []⟩],
    [⟨208, 23, [195, 181], []⟩, ⟨193, 23, [181], []⟩, ⟨199, 23, [181], []⟩, ⟨208, 24, [195], []⟩, ⟨193, 24, [], []⟩, ⟨199, 24,
    [], []⟩],
  [⟨12, 6, [], []⟩],
    [⟨208, 23, [186, 181], []⟩, ⟨184, 23, [181], []⟩, ⟨190, 23, [181], []⟩, ⟨208, 24, [186], []⟩, ⟨184, 24, [], []⟩, ⟨190, 24,
    [], []⟩],
  [⟨2, 1, [], []⟩],
  [⟨4, 2, [], []⟩],
  [⟨24, 12, [], []⟩],
  [⟨22, 11, [], []⟩],
  [⟨28, 14, [], []⟩],
  [⟨16, 8, [], []⟩],
  [⟨175, 22, [], []⟩, ⟨50, 22, [], []⟩],
  [⟨34, 17, [], []⟩],
  [⟨30, 15, [], []⟩],
  [⟨26, 13, [], []⟩],
  [⟨163, 21, [168], []⟩, ⟨161, 21, [174], []⟩, ⟨48, 21, [], []⟩],
  [⟨154, 20, [], []⟩, ⟨40, 20, [], []⟩, ⟨163, 21, [168], []⟩, ⟨161, 21, [174], []⟩, ⟨48, 21, [], []⟩],
  [⟨6, 3, [], []⟩],
  [⟨8, 4, [], []⟩],
  [⟨127, 19, [], []⟩, ⟨38, 19, [], []⟩, ⟨163, 21, [168], []⟩, ⟨161, 21, [174], []⟩, ⟨48, 21, [], []⟩],
  [⟨108, 19, [], []⟩, ⟨38, 19, [], []⟩, ⟨146, 19, [], []⟩, ⟨163, 21, [168], []⟩, ⟨161, 21, [174], []⟩, ⟨48, 21, [], []⟩],
  [⟨137, 19, [], []⟩, ⟨38, 19, [], []⟩, ⟨142, 19, [], []⟩, ⟨163, 21, [168], []⟩, ⟨161, 21, [174], []⟩, ⟨48, 21, [], []⟩],
  [⟨117, 19, [], []⟩, ⟨38, 19, [], []⟩, ⟨163, 21, [168], []⟩, ⟨161, 21, [174], []⟩, ⟨48, 21, [], []⟩],
  [⟨101, 18, [], []⟩, ⟨163, 21, [168], []⟩, ⟨161, 21, [174], []⟩, ⟨48, 21, [], []⟩],
  [⟨18, 9, [], []⟩],
  [⟨10, 5, [], []⟩],
  [⟨20, 10, [], []⟩],
  [⟨32, 16, [], []⟩],
  [⟨52, 23, [], []⟩, ⟨54, 24, [], []⟩],
    [⟨209, 23, [195, 181], []⟩, ⟨210, 23, [195, 181], []⟩, ⟨214, 23, [195, 181], []⟩, ⟨220, 23, [195, 181], []⟩, ⟨209, 24,
    [195], []⟩, ⟨210, 24, [195], []⟩, ⟨214, 24, [195], []⟩, ⟨220, 24, [195], []⟩],
    [⟨209, 23, [186, 181], []⟩, ⟨210, 23, [186, 181], []⟩, ⟨214, 23, [186, 181], []⟩, ⟨220, 23, [186, 181], []⟩, ⟨209, 24,
    [186], []⟩, ⟨210, 24, [186], []⟩, ⟨214, 24, [186], []⟩, ⟨220, 24, [186], []⟩],
  [⟨163, 21, [168], []⟩, ⟨161, 21, [174], []⟩],
  [⟨128, 19, [], []⟩, ⟨163, 21, [168], []⟩, ⟨161, 21, [174], []⟩, ⟨48, 21, [], []⟩],
  [⟨109, 19, [], []⟩, ⟨147, 19, [], []⟩, ⟨163, 21, [168], []⟩, ⟨161, 21, [174], []⟩, ⟨48, 21, [], []⟩],
  [⟨143, 19, [], []⟩, ⟨163, 21, [168], []⟩, ⟨161, 21, [174], []⟩, ⟨48, 21, [], []⟩],
  [⟨138, 19, [], []⟩, ⟨163, 21, [168], []⟩, ⟨161, 21, [174], []⟩, ⟨48, 21, [], []⟩],
  [⟨118, 19, [], []⟩, ⟨163, 21, [168], []⟩, ⟨161, 21, [174], []⟩, ⟨48, 21, [], []⟩],
  [⟨102, 18, [], []⟩, ⟨163, 21, [168], []⟩, ⟨161, 21, [174], []⟩, ⟨48, 21, [], []⟩],
  [⟨232, 23, [222, 195, 181], []⟩, ⟨232, 24, [222, 195], []⟩],
  [⟨232, 23, [216, 195, 181], []⟩, ⟨232, 24, [216, 195], []⟩],
  [⟨232, 23, [212, 195, 181], []⟩, ⟨232, 24, [212, 195], []⟩],
  [⟨232, 23, [222, 186, 181], []⟩, ⟨232, 24, [222, 186], []⟩],
  [⟨232, 23, [216, 186, 181], []⟩, ⟨232, 24, [216, 186], []⟩],
  [⟨232, 23, [212, 186, 181], []⟩, ⟨232, 24, [212, 186], []⟩],
  [⟨129, 19, [], []⟩, ⟨163, 21, [168], []⟩, ⟨161, 21, [174], []⟩, ⟨48, 21, [], []⟩],
  [⟨110, 19, [], []⟩, ⟨163, 21, [168], []⟩, ⟨161, 21, [174], []⟩, ⟨48, 21, [], []⟩],
  [⟨148, 19, [], []⟩, ⟨163, 21, [168], []⟩, ⟨161, 21, [174], []⟩, ⟨48, 21, [], []⟩],
  [⟨144, 19, [], []⟩, ⟨163, 21, [168], []⟩, ⟨161, 21, [174], []⟩, ⟨48, 21, [], []⟩],
  [⟨139, 19, [], []⟩, ⟨163, 21, [168], []⟩, ⟨161, 21, [174], []⟩, ⟨48, 21, [], []⟩],
  [⟨119, 19, [], []⟩, ⟨163, 21, [168], []⟩, ⟨161, 21, [174], []⟩, ⟨48, 21, [], []⟩],
  [⟨103, 18, [], []⟩, ⟨163, 21, [168], []⟩, ⟨161, 21, [174], []⟩, ⟨48, 21, [], []⟩],
  [⟨232, 23, [223, 195, 181], []⟩, ⟨232, 24, [223, 195], []⟩],
  [⟨232, 23, [217, 195, 181], []⟩, ⟨232, 24, [217, 195], []⟩],
  [⟨232, 23, [213, 195, 181], []⟩, ⟨232, 24, [213, 195], []⟩],
  [⟨232, 23, [223, 186, 181], []⟩, ⟨232, 24, [223, 186], []⟩],
  [⟨232, 23, [217, 186, 181], []⟩, ⟨232, 24, [217, 186], []⟩],
  [⟨232, 23, [213, 186, 181], []⟩, ⟨232, 24, [213, 186], []⟩],
  [⟨130, 19, [], []⟩, ⟨163, 21, [168], []⟩, ⟨161, 21, [174], []⟩, ⟨48, 21, [], []⟩],
  [⟨111, 19, [], []⟩, ⟨163, 21, [168], []⟩, ⟨161, 21, [174], []⟩, ⟨48, 21, [], []⟩],
  [⟨149, 19, [], []⟩, ⟨163, 21, [168], []⟩, ⟨161, 21, [174], []⟩, ⟨48, 21, [], []⟩],
  [⟨38, 19, [], []⟩, ⟨163, 21, [168], []⟩, ⟨161, 21, [174], []⟩, ⟨48, 21, [], []⟩],
  [⟨120, 19, [], []⟩, ⟨163, 21, [168], []⟩, ⟨161, 21, [174], []⟩, ⟨48, 21, [], []⟩],
  [⟨104, 18, [], []⟩, ⟨163, 21, [168], []⟩, ⟨161, 21, [174], []⟩, ⟨48, 21, [], []⟩],
  [⟨232, 23, [224, 195, 181], []⟩, ⟨232, 24, [224, 195], []⟩],
  [⟨232, 23, [218, 195, 181], []⟩, ⟨232, 24, [218, 195], []⟩],
  [⟨232, 23, [224, 186, 181], []⟩, ⟨232, 24, [224, 186], []⟩],
  [⟨232, 23, [218, 186, 181], []⟩, ⟨232, 24, [218, 186], []⟩],
  [⟨131, 19, [], []⟩, ⟨163, 21, [168], []⟩, ⟨161, 21, [174], []⟩, ⟨48, 21, [], []⟩],
  [⟨112, 19, [], []⟩, ⟨163, 21, [168], []⟩, ⟨161, 21, [174], []⟩, ⟨48, 21, [], []⟩],
  [⟨150, 19, [], []⟩, ⟨163, 21, [168], []⟩, ⟨161, 21, [174], []⟩, ⟨48, 21, [], []⟩],
  [⟨121, 19, [], []⟩, ⟨163, 21, [168], []⟩, ⟨161, 21, [174], []⟩, ⟨48, 21, [], []⟩],
  [⟨105, 18, [], []⟩, ⟨163, 21, [168], []⟩, ⟨161, 21, [174], []⟩, ⟨48, 21, [], []⟩],
  [⟨232, 23, [225, 195, 181], []⟩, ⟨232, 24, [225, 195], []⟩],
  [⟨232, 23, [219, 195, 181], []⟩, ⟨232, 24, [219, 195], []⟩],
  [⟨232, 23, [225, 186, 181], []⟩, ⟨232, 24, [225, 186], []⟩],
  [⟨232, 23, [219, 186, 181], []⟩, ⟨232, 24, [219, 186], []⟩],
  [⟨132, 19, [], []⟩, ⟨163, 21, [168], []⟩, ⟨161, 21, [174], []⟩, ⟨48, 21, [], []⟩],
  [⟨113, 19, [], []⟩, ⟨163, 21, [168], []⟩, ⟨161, 21, [174], []⟩, ⟨48, 21, [], []⟩],
  [⟨151, 19, [], []⟩, ⟨163, 21, [168], []⟩, ⟨161, 21, [174], []⟩, ⟨48, 21, [], []⟩],
  [⟨122, 19, [], []⟩, ⟨163, 21, [168], []⟩, ⟨161, 21, [174], []⟩, ⟨48, 21, [], []⟩],
  [⟨36, 18, [], []⟩, ⟨163, 21, [168], []⟩, ⟨161, 21, [174], []⟩, ⟨48, 21, [], []⟩],
  [⟨232, 23, [226, 195, 181], []⟩, ⟨232, 24, [226, 195], []⟩],
  [⟨232, 23, [226, 186, 181], []⟩, ⟨232, 24, [226, 186], []⟩],
  [⟨133, 19, [], []⟩, ⟨163, 21, [168], []⟩, ⟨161, 21, [174], []⟩, ⟨48, 21, [], []⟩],
  [⟨114, 19, [], []⟩, ⟨163, 21, [168], []⟩, ⟨161, 21, [174], []⟩, ⟨48, 21, [], []⟩],
  [⟨123, 19, [], []⟩, ⟨163, 21, [168], []⟩, ⟨161, 21, [174], []⟩, ⟨48, 21, [], []⟩],
  [⟨232, 23, [227, 195, 181], []⟩, ⟨232, 24, [227, 195], []⟩],
  [⟨232, 23, [227, 186, 181], []⟩, ⟨232, 24, [227, 186], []⟩],
  [⟨134, 19, [], []⟩, ⟨163, 21, [168], []⟩, ⟨161, 21, [174], []⟩, ⟨48, 21, [], []⟩],
  [⟨124, 19, [], []⟩, ⟨163, 21, [168], []⟩, ⟨161, 21, [174], []⟩, ⟨48, 21, [], []⟩],
  [⟨232, 23, [228, 195, 181], []⟩, ⟨232, 24, [228, 195], []⟩],
  [⟨232, 23, [228, 186, 181], []⟩, ⟨232, 24, [228, 186], []⟩],
  [⟨232, 23, [229, 195, 181], []⟩, ⟨232, 24, [229, 195], []⟩],
  [⟨232, 23, [229, 186, 181], []⟩, ⟨232, 24, [229, 186], []⟩]]

theorem lexStates_closed : lexStates.all (fun cs => lexBounds.all fun k => match lexerAtn.lexReach 28 cs k with
    | some [] => true
    | some (c :: cs') => lexStates.contains (c :: cs')
    | none => false) = true := by decide +kernel

theorem lexStates_length : lexStates.length = 95 := by decide +kernel

theorem lexStates_start : ∃ cs, lexerAtn.lexStart 28 0 = some cs ∧ cs ∈ lexStates := by
  have h : (match lexerAtn.lexStart 28 0 with | some cs => lexStates.contains cs | none => false) = true := by decide +kernel
  split at h
  · rename_i cs hcs
    exact ⟨cs, hcs, List.contains_iff_mem.1 h⟩
  · cases h

/-! ### Characters in the same ranges -/

/-- The last bound that is not above `k`. -/
def lexRep (k : Int) : List Int → Int
  | [] => -1
  | b :: bs => if b ≤ k then max b (lexRep k bs) else lexRep k bs

theorem lexRep_le (k : Int) (hk : -1 ≤ k) (bs : List Int) : -1 ≤ lexRep k bs ∧ lexRep k bs ≤ k := by
  induction bs with
  | nil => exact ⟨Int.le_refl _, hk⟩
  | cons b bs ih => simp only [lexRep]; split <;> omega

theorem le_lexRep {k : Int} (hk : -1 ≤ k) {bs : List Int} {b : Int} (hb : b ∈ bs) : b ≤ k ↔ b ≤ lexRep k bs := by
  constructor
  · intro h
    induction bs with
    | nil => cases hb
    | cons c bs ih =>
      simp only [lexRep]
      rcases List.mem_cons.1 hb with rfl | hb
      · rw [if_pos h]; omega
      · have := ih hb
        split <;> omega
  · intro h
    have := lexRep_le k hk bs
    omega

theorem lexRep_mem (k : Int) (bs : List Int) (h : -1 ∈ bs) : lexRep k bs ∈ bs := by
  have : ∀ bs, lexRep k bs = -1 ∨ lexRep k bs ∈ bs := by
    intro bs
    induction bs with
    | nil => exact .inl rfl
    | cons b bs ih =>
      simp only [lexRep, List.mem_cons]
      split
      · rcases Int.le_total b (lexRep k bs) with hb | hb
        · rw [Int.max_eq_right hb]; rcases ih with ih | ih <;> simp [ih]
        · rw [Int.max_eq_left hb]; simp
      · rcases ih with ih | ih <;> simp [ih]
  rcases this bs with h' | h'
  · rw [h']; exact h
  · exact h'

/-- The bounds of the ranges of a transition. -/
def transBounds : Trans → List Int
  | .atom l _ => [l, l + 1]
  | .set l _ => l.flatMap fun p => [p.1, p.2 + 1]
  | .notSet l _ => l.flatMap fun p => [p.1, p.2 + 1]
  | _ => []

theorem lexBounds_all : lexerAtn.states.all (fun s => s.trans.all fun t => (transBounds t).all lexBounds.contains) = true := by decide +kernel

theorem lexBounds_has : (-1 : Int) ∈ lexBounds ∧ (0 : Int) ∈ lexBounds ∧ (maxChar + 1) ∈ lexBounds := by decide

theorem any_ranges {k k' : Int} (l : List (Int × Int)) (h : ∀ p ∈ l, (p.1 ≤ k ↔ p.1 ≤ k') ∧ (p.2 + 1 ≤ k ↔ p.2 + 1 ≤ k')) :
    (l.any fun p => decide (p.1 ≤ k) && decide (k ≤ p.2)) = l.any fun p => decide (p.1 ≤ k') && decide (k' ≤ p.2) := by
  rw [Bool.eq_iff_iff]
  simp only [List.any_eq_true, Bool.and_eq_true, decide_eq_true_eq]
  constructor
  · rintro ⟨p, hp, h1, h2⟩
    have := h p hp
    exact ⟨p, hp, by omega, by omega⟩
  · rintro ⟨p, hp, h1, h2⟩
    have := h p hp
    exact ⟨p, hp, by omega, by omega⟩

theorem charTarget_rep {k : Int} (hk : -1 ≤ k) {s : Nat} {t : Trans} (ht : t ∈ lexerAtn.out s) :
    Atn.charTarget k t = Atn.charTarget (lexRep k lexBounds) t := by
  have hb : ∀ b ∈ transBounds t, b ∈ lexBounds := by
    intro b hb
    unfold Atn.out at ht
    split at ht
    · rename_i st hst
      have h1 := List.all_eq_true.1 lexBounds_all st (List.mem_of_getElem? hst)
      have h2 := List.all_eq_true.1 (List.all_eq_true.1 h1 t ht) b hb
      exact List.contains_iff_mem.1 h2
    · cases ht
  have key : ∀ b ∈ transBounds t, (b ≤ k ↔ b ≤ lexRep k lexBounds) := fun b h => le_lexRep hk (hb b h)
  have h0 := le_lexRep hk lexBounds_has.2.1
  have hm := le_lexRep hk lexBounds_has.2.2
  cases t with
  | atom l t =>
    have h1 := key l (by simp [transBounds])
    have h2 := key (l + 1) (by simp [transBounds])
    have h3 : l = k ↔ l = lexRep k lexBounds := by omega
    simp only [Atn.charTarget, h3]
  | set l t =>
    simp only [Atn.charTarget]
    rw [any_ranges (k := k) (k' := lexRep k lexBounds) l]
    exact fun p hp => ⟨key _ (List.mem_flatMap.2 ⟨p, hp, by simp⟩), key _ (List.mem_flatMap.2 ⟨p, hp, by simp⟩)⟩
  | notSet l t =>
    simp only [Atn.charTarget]
    rw [any_ranges (k := k) (k' := lexRep k lexBounds) l
      (fun p hp => ⟨key _ (List.mem_flatMap.2 ⟨p, hp, by simp⟩), key _ (List.mem_flatMap.2 ⟨p, hp, by simp⟩)⟩)]
    have h1 : decide (0 ≤ k) = decide (0 ≤ lexRep k lexBounds) := by rw [decide_eq_decide]; exact h0
    have h2 : decide (k ≤ maxChar) = decide (lexRep k lexBounds ≤ maxChar) := by rw [decide_eq_decide]; omega
    rw [h1, h2]
  | _ => rfl

theorem lexReach_rep {k : Int} (hk : -1 ≤ k) (m : Nat) (cs : List LConf) :
    lexerAtn.lexReach m cs k = lexerAtn.lexReach m cs (lexRep k lexBounds) := by
  have h1 : (k == -1) = (lexRep k lexBounds == -1) := by
    have h0 := le_lexRep hk lexBounds_has.2.1
    have := lexRep_le k hk lexBounds
    rw [Bool.eq_iff_iff]
    simp only [beq_iff_eq]
    omega
  have foldlM_congr : ∀ {α β : Type} (f g : β → α → Option β) (l : List α) (b : β), (∀ a ∈ l, ∀ b, f b a = g b a) → l.foldlM f b = l.foldlM g b := by
    intro α β f g l
    induction l with
    | nil => intro b _; rfl
    | cons a l ih =>
      intro b h
      rw [List.foldlM_cons, List.foldlM_cons, h a (by simp)]
      cases g b a with
      | none => rfl
      | some b' => exact ih b' fun a ha => h a (by simp [ha])
  unfold Atn.lexReach
  refine foldlM_congr _ _ cs [] fun c _ r => foldlM_congr _ _ _ r fun t ht r' => ?_
  rw [charTarget_rep hk ht, h1]

/-! ### More depth changes nothing -/

theorem foldlM_grow {α β : Type} {f g : β → α → Option β} (l : List α) (h : ∀ a ∈ l, ∀ b r, f b a = some r → g b a = some r) :
    ∀ b r, l.foldlM f b = some r → l.foldlM g b = some r := by
  induction l with
  | nil => exact fun b r h => h
  | cons a l ih =>
    intro b r hr
    rw [List.foldlM_cons] at hr ⊢
    cases hf : f b a with
    | none => rw [hf] at hr; cases hr
    | some b' =>
      rw [hf] at hr
      rw [h a (by simp) b b' hf]
      exact ih (fun a ha => h a (by simp [ha])) b' r hr

theorem lexClosure_grow (A : Atn) (eof : Bool) (n : Nat) : ∀ (c : LConf) (cs r : List LConf), A.lexClosure eof n c cs = some r →
    A.lexClosure eof (n + 1) c cs = some r := by
  induction n with
  | zero => intro c cs r h; cases h
  | succ n ih =>
    intro c cs r h
    rw [Atn.lexClosure] at h ⊢
    split
    · rename_i hs
      rw [if_pos hs] at h
      cases hc : c.ctx with
      | nil => rw [hc] at h; exact h
      | cons f ctx => rw [hc] at h; exact ih _ _ _ h
    · rename_i hs
      rw [if_neg hs] at h
      refine foldlM_grow _ ?_ _ _ h
      intro t _ b r' hr'
      cases he : Atn.lexEpsTarget eof c t with
      | none => rw [he] at hr'; exact hr'
      | some c' => rw [he] at hr'; exact ih _ _ _ hr'

theorem lexReach_grow (A : Atn) {m n : Nat} (hmn : m ≤ n) (cs : List LConf) (k : Int) (r : List LConf) (h : A.lexReach m cs k = some r) :
    A.lexReach n cs k = some r := by
  induction hmn with
  | refl => exact h
  | step _ ih =>
    refine foldlM_grow _ (fun c _ b r' => foldlM_grow _ (fun t _ b r' hr => ?_) b r') _ _ ih
    cases ht : Atn.charTarget k t with
    | none => rw [ht] at hr; exact hr
    | some t' => rw [ht] at hr; exact lexClosure_grow A _ _ _ _ _ hr

theorem lexStart_grow (A : Atn) {m n : Nat} (hmn : m ≤ n) (p : Nat) (r : List LConf) (h : A.lexStart m p = some r) : A.lexStart n p = some r := by
  induction hmn with
  | refl => exact h
  | step _ ih => exact foldlM_grow _ (fun t _ b r' hr => lexClosure_grow A _ _ _ _ _ hr) _ _ ih

/-- From one of the sets the lexer comes to another one of them, or stops. -/
theorem lexStates_reach {m : Nat} (hm : 28 ≤ m) {cs : List LConf} (h : cs ∈ lexStates) {k : Int} (hk : -1 ≤ k) :
    ∃ r, lexerAtn.lexReach m cs k = some r ∧ (r = [] ∨ r ∈ lexStates) := by
  have h1 := List.all_eq_true.1 (List.all_eq_true.1 lexStates_closed cs h) _ (lexRep_mem k lexBounds lexBounds_has.1)
  rw [lexReach_rep hk m]
  split at h1
  · rename_i hr
    exact ⟨[], lexReach_grow _ hm _ _ _ hr, .inl rfl⟩
  · rename_i c cs' hr
    exact ⟨_, lexReach_grow _ hm _ _ _ hr, .inr (List.contains_iff_mem.1 h1)⟩
  · cases h1

/-- Every entry: one of the sets and a character up to 127. -/
def lexKeys : List (List LConf × Int) := lexStates.flatMap fun cs => (List.range 128).map fun (k : Nat) => (cs, (k : Int))

theorem lexKeys_length : lexKeys.length = 95 * 128 := by
  have : ∀ l : List (List LConf), (l.flatMap fun cs => (List.range 128).map fun (k : Nat) => (cs, (k : Int))).length = l.length * 128 := by
    intro l
    induction l with
    | nil => rfl
    | cons a l ih => rw [List.flatMap_cons, List.length_append, ih, List.length_map, List.length_range, List.length_cons]; omega
  rw [lexKeys, this, lexStates_length]

theorem mem_lexKeys {cs : List LConf} {k : Int} (h : cs ∈ lexStates) (h0 : 0 ≤ k) (h1 : k ≤ 127) : (cs, k) ∈ lexKeys :=
  List.mem_flatMap.2 ⟨cs, h, List.mem_map.2 ⟨k.toNat, List.mem_range.2 (by omega), by rw [Int.toNat_of_nonneg h0]⟩⟩

/-! ### What a lexer stores -/

/-- What is kept, whoever stored it. -/
structure Small (m : Nat) (d : LexDfa) : Prop where
  right : d.Right lexerAtn m
  keys : ∀ e ∈ d.edges, e.1 ∈ lexKeys

/-- The other threads keep to it. -/
def SmallEnv (m : Nat) (env : LexOthers) : Prop := ∀ n d, Small m d → Small m (env n d)

section
variable {m : Nat} {env : LexOthers}

theorem Small.next {d : LexDfa} (h : Small m d) (he : SmallEnv m env) : Small m (d.next env) :=
  ⟨(he d.clock d h).right, (he d.clock d h).keys⟩

theorem Small.start (hm : 28 ≤ m) {d : LexDfa} (h : Small m d) {cs : List LConf} (hcs : d.s0 = some cs) : cs ∈ lexStates := by
  obtain ⟨p, ps, h1, h2⟩ := h.right.1 cs hcs
  obtain ⟨cs0, h3, h4⟩ := lexStates_start
  rw [lexerAtn_modes] at h1
  cases h1
  rw [lexStart_grow _ hm _ _ h3] at h2
  cases h2
  exact h4

theorem Small.edge (hm : 28 ≤ m) {d : LexDfa} (h : Small m d) {e : (List LConf × Int) × List LConf} (he : e ∈ d.edges) :
    e.2 = [] ∨ e.2 ∈ lexStates := by
  have h1 := h.right.2 e he
  obtain ⟨cs, h2, h3⟩ := List.mem_flatMap.1 (h.keys e he)
  obtain ⟨k, -, h4⟩ := List.mem_map.1 h3
  rw [← h4] at h1
  obtain ⟨r, h5, h6⟩ := lexStates_reach hm h2 (k := (k : Int)) (by omega)
  simp only at h1
  rw [h5] at h1
  cases h1
  exact h6

theorem startC_small (hm : 28 ≤ m) (he : SmallEnv m env) {d : LexDfa} (hd : Small m d) {cs : List LConf} {d' : LexDfa}
    (h : startC lexerAtn m 0 env d = some (cs, d')) : cs ∈ lexStates ∧ Small m d' := by
  have h1 := hd.next he
  simp only [startC] at h
  split at h
  · rename_i cs' hcs
    cases h
    exact ⟨h1.start hm hcs, h1⟩
  · obtain ⟨cs0, h2, h3⟩ := lexStates_start
    have h2 := lexStart_grow _ hm _ _ h2
    rw [h2] at h
    cases h
    exact ⟨h3, ⟨fun cs hcs => by cases hcs; exact ⟨0, [], lexerAtn_modes, h2⟩, (h1.next he).right.2⟩, (h1.next he).keys⟩

theorem reachC_small (hm : 28 ≤ m) (he : SmallEnv m env) {cs : List LConf} (hcs : cs ∈ lexStates) {k : Int} (hk : -1 ≤ k) {d : LexDfa}
    (hd : Small m d) {r : List LConf} {d' : LexDfa} (h : reachC lexerAtn m cs k env d = some (r, d')) : (r = [] ∨ r ∈ lexStates) ∧ Small m d' := by
  have h1 := hd.next he
  obtain ⟨r0, h2, h3⟩ := lexStates_reach hm hcs hk
  unfold reachC at h
  split at h
  · rename_i hb
    simp only at h
    split at h
    · rename_i e hf
      cases h
      exact ⟨h1.edge hm (List.mem_of_find?_eq_some hf), h1⟩
    · rw [h2] at h
      cases h
      refine ⟨h3, ⟨(h1.next he).right.1, fun e hm => ?_⟩, fun e hm => ?_⟩
      · rcases List.mem_cons.1 hm with rfl | hm
        · exact h2
        · exact (h1.next he).right.2 e hm
      · rcases List.mem_cons.1 hm with rfl | hm
        · exact mem_lexKeys hcs hb.1 hb.2
        · exact (h1.next he).keys e hm
  · rw [h2] at h
    cases h
    exact ⟨h3, hd⟩

theorem inputLA_ge (q : PyStr) (i : Nat) : -1 ≤ inputLA q i := by
  unfold inputLA
  split <;> omega

theorem lexExecC_small (hm : 28 ≤ m) (he : SmallEnv m env) (q : PyStr) (n : Nat) : ∀ {cs : List LConf} {prev : Option SimState} {p : LexPos}
    {d : LexDfa}, cs ∈ lexStates → Small m d → ∀ {r d'}, lexExecC lexerAtn m q env n cs prev p d = some (r, d') → Small m d' := by
  induction n with
  | zero => intro _ _ _ _ _ _ _ _ h; cases h
  | succ n ih =>
    intro cs prev p d hcs hd r d' h
    unfold lexExecC at h
    split at h
    · cases h
    · rename_i d1 hr
      cases h
      exact (reachC_small hm he hcs (inputLA_ge _ _) hd hr).2
    · rename_i c cs' d1 hr
      obtain ⟨h1, h2⟩ := reachC_small hm he hcs (inputLA_ge _ _) hd hr
      simp only at h
      split at h
      · cases h
        exact h2
      · exact ih (h1.resolve_left (by simp)) h2 h

theorem lexMatchC_small (hm : 28 ≤ m) (he : SmallEnv m env) (q : PyStr) {p : LexPos} {d : LexDfa} (hd : Small m d) {r : MatchRes} {d' : LexDfa}
    (h : lexMatchC lexerAtn m q env p d = some (r, d')) : Small m d' := by
  unfold lexMatchC at h
  rw [lexerAtn_modes] at h
  simp only at h
  split at h
  · cases h
  · rename_i s0 d1 hs
    obtain ⟨h1, h2⟩ := startC_small hm he hd hs
    split at h
    · cases h
    · rename_i st e d2 hx
      cases h
      exact lexExecC_small hm he q _ h1 h2 hx
    · rename_i e d2 hx
      have := lexExecC_small hm he q _ h1 h2 hx
      split at h <;> (cases h; exact this)

theorem lexNextTokenC_small (hm : 28 ≤ m) (he : SmallEnv m env) (q : PyStr) (n : Nat) : ∀ {lx : LexObj} {d : LexDfa}, Small m d →
    ∀ {r d'}, lexNextTokenC lexerAtn m q env n lx d = some (r, d') → Small m d' := by
  induction n with
  | zero => intro _ _ _ _ _ h; cases h
  | succ n ih =>
    intro lx d hd r d' h
    unfold lexNextTokenC at h
    split at h
    · cases h; exact hd
    · split at h
      · cases h
      · rename_i e d1 hx
        have h1 := lexMatchC_small hm he q hd hx
        simp only at h
        split at h
        · cases h
        · rename_i rs t lx' d2 hx2
          cases h
          exact ih h1 hx2
      · rename_i ttype set p d1 hx
        have h1 := lexMatchC_small hm he q hd hx
        cases set <;> simp only at h <;> split at h
        · exact ih h1 h
        · cases h; exact h1
        · exact ih h1 h
        · cases h; exact h1

theorem lexFillC_small (hm : 28 ≤ m) (he : SmallEnv m env) (q : PyStr) (n : Nat) : ∀ {lx : LexObj} {d : LexDfa}, Small m d →
    ∀ {r d'}, lexFillC lexerAtn m q env n lx d = some (r, d') → Small m d' := by
  induction n with
  | zero => intro _ _ _ _ _ h; cases h
  | succ n ih =>
    intro lx d hd r d' h
    unfold lexFillC at h
    split at h
    · cases h
    · rename_i rs t lx' d1 hx
      have h1 := lexNextTokenC_small hm he q _ hd hx
      split at h
      · cases h; exact h1
      · split at h
        · cases h
        · rename_i es d2 hx2
          cases h
          exact ih h1 hx2

end

end Fcsql
