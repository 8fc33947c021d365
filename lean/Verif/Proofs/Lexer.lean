/-
Correctness of the derivative-based simulation against the language of the rules.
-/
import Verif.Spec.Lexing

set_option autoImplicit false

namespace Fcsql

theorem matches_void {w : PyStr} : ¬ Matches .void w := fun h => nomatch h

theorem matches_eps {w : PyStr} : Matches .eps w ↔ w = [] :=
  ⟨fun h => by cases h; rfl, fun h => h ▸ .eps⟩

theorem matches_cls {rs : List (Nat × Nat)} {w : PyStr} :
    Matches (.cls rs) w ↔ ∃ c, w = [c] ∧ inRanges c rs = true :=
  ⟨fun h => by cases h with | cls h => exact ⟨_, rfl, h⟩, fun ⟨_, e, h⟩ => e ▸ .cls h⟩

theorem matches_neg {rs : List (Nat × Nat)} {w : PyStr} :
    Matches (.neg rs) w ↔ ∃ c, w = [c] ∧ c < 0x110000 ∧ inRanges c rs = false :=
  ⟨fun h => by cases h with | neg h h' => exact ⟨_, rfl, h, h'⟩, fun ⟨_, e, h, h'⟩ => e ▸ .neg h h'⟩

theorem matches_seq {a b : Rx} {w : PyStr} :
    Matches (.seq a b) w ↔ ∃ u v, w = u ++ v ∧ Matches a u ∧ Matches b v :=
  ⟨fun h => by cases h with | seq h h' => exact ⟨_, _, rfl, h, h'⟩,
   fun ⟨_, _, e, h, h'⟩ => e ▸ .seq h h'⟩

theorem matches_alt {a b : Rx} {w : PyStr} :
    Matches (.alt a b) w ↔ Matches a w ∨ Matches b w :=
  ⟨fun h => by cases h with | altL h => exact .inl h | altR h => exact .inr h,
   fun h => h.elim .altL .altR⟩

theorem matches_star {a : Rx} {w : PyStr} :
    Matches (.star a) w ↔ w = [] ∨ ∃ u v, w = u ++ v ∧ Matches a u ∧ Matches (.star a) v :=
  ⟨fun h => by
    cases h with
    | starNil => exact .inl rfl
    | starCons h h' => exact .inr ⟨_, _, rfl, h, h'⟩,
   fun h => by
    rcases h with rfl | ⟨u, v, rfl, h, h'⟩
    · exact .starNil
    · exact .starCons h h'⟩

/-- A non-empty match of a star begins with a non-empty match of the body. -/
theorem matches_star_cons {a : Rx} {c : Nat} {w : PyStr} (h : Matches (.star a) (c :: w)) :
    ∃ u v, w = u ++ v ∧ Matches a (c :: u) ∧ Matches (.star a) v := by
  generalize hr : Rx.star a = r at h
  generalize hx : c :: w = x at h
  induction h with
  | eps => cases hr
  | cls => cases hr
  | neg => cases hr
  | seq => cases hr
  | altL => cases hr
  | altR => cases hr
  | starNil => cases hx
  | @starCons a' u v hu hv ihu ihv =>
    cases hr
    cases u with
    | nil => exact ihv rfl (by simpa using hx)
    | cons d u =>
      simp at hx
      exact ⟨u, v, hx.2, hx.1 ▸ hu, hv⟩

theorem nullable_iff (r : Rx) : r.nullable = true ↔ Matches r [] := by
  induction r with
  | void => simp [Rx.nullable, matches_void]
  | eps => simp [Rx.nullable, matches_eps]
  | cls rs => simp [Rx.nullable, matches_cls]
  | neg rs => simp [Rx.nullable, matches_neg]
  | seq a b iha ihb =>
    simp only [Rx.nullable, Bool.and_eq_true, iha, ihb, matches_seq]
    constructor
    · rintro ⟨h, h'⟩; exact ⟨[], [], rfl, h, h'⟩
    · rintro ⟨u, v, e, h, h'⟩
      simp at e; obtain ⟨rfl, rfl⟩ := e; exact ⟨h, h'⟩
  | alt a b iha ihb => simp [Rx.nullable, matches_alt, iha, ihb]
  | star a => simp only [Rx.nullable, true_iff]; exact .starNil

theorem matches_mkSeq {a b : Rx} {w : PyStr} : Matches (Rx.mkSeq a b) w ↔ Matches (.seq a b) w := by
  unfold Rx.mkSeq
  split
  · simp [matches_seq, matches_void]
  · rw [matches_seq]
    simp only [matches_eps]
    constructor
    · intro h; exact ⟨[], w, rfl, rfl, h⟩
    · rintro ⟨u, v, rfl, rfl, h⟩; exact h
  · rfl

theorem matches_mkAlt {a b : Rx} {w : PyStr} : Matches (Rx.mkAlt a b) w ↔ Matches (.alt a b) w := by
  unfold Rx.mkAlt
  split
  · simp [matches_alt, matches_void]
  · simp [matches_alt, matches_void]
  · rfl

theorem matches_deriv (c : Nat) (r : Rx) (w : PyStr) :
    Matches (r.deriv c) w ↔ Matches r (c :: w) := by
  induction r generalizing w with
  | void => simp [Rx.deriv, matches_void]
  | eps => simp [Rx.deriv, matches_void, matches_eps]
  | cls rs =>
    simp only [Rx.deriv, matches_cls]
    split
    · rename_i h
      simp only [matches_eps]
      constructor
      · rintro rfl; exact ⟨c, rfl, h⟩
      · rintro ⟨d, e, _⟩; simp at e; exact e.2
    · rename_i h
      simp only [matches_void, false_iff, not_exists]
      rintro d ⟨e, h'⟩
      simp at e; exact h (e.1 ▸ h')
  | neg rs =>
    simp only [Rx.deriv, matches_neg]
    split
    · rename_i h
      simp at h
      simp only [matches_eps]
      constructor
      · rintro rfl; exact ⟨c, rfl, h.1, h.2⟩
      · rintro ⟨d, e, _⟩; simp at e; exact e.2
    · rename_i h
      simp at h
      simp only [matches_void, false_iff, not_exists]
      rintro d ⟨e, h1, h2⟩
      simp at e
      obtain ⟨rfl, _⟩ := e
      simp [h h1] at h2
  | seq a b iha ihb =>
    have hseq : ∀ w, Matches (.seq a b) (c :: w) ↔
        (∃ u v, w = u ++ v ∧ Matches a (c :: u) ∧ Matches b v) ∨
        (Matches a [] ∧ Matches b (c :: w)) := by
      intro w
      rw [matches_seq]
      constructor
      · rintro ⟨u, v, e, h, h'⟩
        cases u with
        | nil => simp at e; subst e; exact .inr ⟨h, h'⟩
        | cons d u =>
          simp at e
          obtain ⟨rfl, rfl⟩ := e
          exact .inl ⟨u, v, rfl, h, h'⟩
      · rintro (⟨u, v, rfl, h, h'⟩ | ⟨h, h'⟩)
        · exact ⟨c :: u, v, rfl, h, h'⟩
        · exact ⟨[], c :: w, rfl, h, h'⟩
    simp only [Rx.deriv]
    split
    · rename_i hn
      rw [matches_mkAlt, matches_alt, matches_mkSeq, matches_seq, hseq, ihb]
      simp [iha, (nullable_iff a).1 hn]
    · rename_i hn
      rw [matches_mkSeq, matches_seq, hseq]
      simp [iha, mt (nullable_iff a).2 hn]
  | alt a b iha ihb => simp [Rx.deriv, matches_mkAlt, matches_alt, iha, ihb]
  | star a iha =>
    simp only [Rx.deriv, matches_mkSeq, matches_seq, iha]
    constructor
    · rintro ⟨u, v, rfl, h, h'⟩
      exact Matches.starCons (u := c :: u) h h'
    · exact matches_star_cons

/-! ### Expressions without empty parts -/

/-- No subexpression has an empty language (sufficient check). -/
def Rx.clean : Rx → Bool
  | .void => false
  | .eps => true
  | .cls rs => rs.any fun p => p.1 ≤ p.2
  | .neg rs => !inRanges 0 rs
  | .seq a b => clean a && clean b
  | .alt a b => clean a && clean b
  | .star a => clean a

theorem inRanges_of_mem {rs : List (Nat × Nat)} {p : Nat × Nat} (h : p ∈ rs) (hp : p.1 ≤ p.2) :
    inRanges p.1 rs = true := by
  induction rs with
  | nil => cases h
  | cons x xs ih =>
    obtain ⟨lo, hi⟩ := x
    rcases List.mem_cons.1 h with rfl | h
    · simp [inRanges, hp]
    · simp [inRanges, ih h]

theorem clean_inhabited (r : Rx) (h : r.clean = true) : ∃ w, Matches r w := by
  induction r with
  | void => cases h
  | eps => exact ⟨[], .eps⟩
  | cls rs =>
    simp only [Rx.clean, List.any_eq_true] at h
    obtain ⟨p, hp, hle⟩ := h
    exact ⟨[p.1], .cls (inRanges_of_mem hp (by simpa using hle))⟩
  | neg rs =>
    simp only [Rx.clean, Bool.not_eq_true'] at h
    exact ⟨[0], .neg (by decide) h⟩
  | seq a b iha ihb =>
    simp only [Rx.clean, Bool.and_eq_true] at h
    obtain ⟨u, hu⟩ := iha h.1
    obtain ⟨v, hv⟩ := ihb h.2
    exact ⟨u ++ v, .seq hu hv⟩
  | alt a b iha ihb =>
    simp only [Rx.clean, Bool.and_eq_true] at h
    obtain ⟨u, hu⟩ := iha h.1
    exact ⟨u, .altL hu⟩
  | star a => exact ⟨[], .starNil⟩

theorem clean_mkSeq {a b : Rx} (ha : a = .void ∨ a.clean = true) (hb : b.clean = true) :
    Rx.mkSeq a b = .void ∨ (Rx.mkSeq a b).clean = true := by
  unfold Rx.mkSeq
  split
  · exact .inl rfl
  · exact .inr hb
  · rename_i h1 h2
    rcases ha with rfl | ha
    · exact absurd rfl h1
    · exact .inr (by simp [Rx.clean, ha, hb])

theorem clean_mkAlt {a b : Rx} (ha : a = .void ∨ a.clean = true) (hb : b = .void ∨ b.clean = true) :
    Rx.mkAlt a b = .void ∨ (Rx.mkAlt a b).clean = true := by
  unfold Rx.mkAlt
  split
  · exact hb
  · exact ha
  · rename_i h1 h2
    rcases ha with rfl | ha
    · exact absurd rfl h1
    · rcases hb with rfl | hb
      · exact absurd rfl h2
      · exact .inr (by simp [Rx.clean, ha, hb])

theorem clean_deriv (c : Nat) (r : Rx) (h : r.clean = true) :
    r.deriv c = .void ∨ (r.deriv c).clean = true := by
  induction r with
  | void => exact .inl rfl
  | eps => exact .inl rfl
  | cls rs => simp only [Rx.deriv]; split <;> simp [Rx.clean]
  | neg rs => simp only [Rx.deriv]; split <;> simp [Rx.clean]
  | seq a b iha ihb =>
    simp only [Rx.clean, Bool.and_eq_true] at h
    simp only [Rx.deriv]
    split
    · exact clean_mkAlt (clean_mkSeq (iha h.1) h.2) (ihb h.2)
    · exact clean_mkSeq (iha h.1) h.2
  | alt a b iha ihb =>
    simp only [Rx.clean, Bool.and_eq_true] at h
    exact clean_mkAlt (iha h.1) (ihb h.2)
  | star a iha => exact clean_mkSeq (iha h) h

/-! ### The simulation -/

/-- One step of the simulation on all rules. -/
def stepRules (c : Nat) (rs : List (TokType × Rx)) : List (TokType × Rx) :=
  (rs.map fun p => (p.1, p.2.deriv c)).filter fun p => !p.2.isVoid

theorem isVoid_iff {r : Rx} : r.isVoid = true ↔ r = .void := by cases r <;> simp [Rx.isVoid]

theorem stepRules_cons (c : Nat) (p : TokType × Rx) (rs : List (TokType × Rx)) :
    stepRules c (p :: rs) =
      if (p.2.deriv c).isVoid then stepRules c rs else (p.1, p.2.deriv c) :: stepRules c rs := by
  simp only [stepRules, List.map_cons, List.filter_cons]
  cases (p.2.deriv c).isVoid <;> simp

theorem someRule_step (c : Nat) (rs : List (TokType × Rx)) (w : PyStr) :
    SomeRule (stepRules c rs) w ↔ SomeRule rs (c :: w) := by
  induction rs with
  | nil => simp [stepRules, SomeRule]
  | cons p rs ih =>
    rw [stepRules_cons]
    have h2 : SomeRule (p :: rs) (c :: w) ↔ Matches p.2 (c :: w) ∨ SomeRule rs (c :: w) := by
      simp [SomeRule]
    rw [h2, ← matches_deriv, ← ih]
    split
    · rename_i hv
      rw [isVoid_iff] at hv
      simp [hv, matches_void]
    · simp [SomeRule]

theorem firstRule_step (c : Nat) (rs : List (TokType × Rx)) (t : TokType) (w : PyStr) :
    FirstRule (stepRules c rs) t w ↔ FirstRule rs t (c :: w) := by
  induction rs with
  | nil => constructor <;> (intro h; cases h)
  | cons p rs ih =>
    obtain ⟨t', r⟩ := p
    rw [stepRules_cons]
    split
    · rename_i hv
      rw [isVoid_iff] at hv
      have hn : ¬ Matches r (c :: w) := by
        rw [← matches_deriv]; simp only at hv; rw [hv]; exact matches_void
      rw [ih]
      constructor
      · intro h; exact .there hn h
      · intro h
        cases h with
        | here h => exact absurd h hn
        | there _ h => exact h
    · constructor
      · intro h
        cases h with
        | here h => exact .here ((matches_deriv _ _ _).1 h)
        | there hn h => exact .there (mt (matches_deriv _ _ _).2 hn) (ih.1 h)
      · intro h
        cases h with
        | here h => exact .here ((matches_deriv _ _ _).2 h)
        | there hn h => exact .there (mt (matches_deriv _ _ _).1 hn) (ih.2 h)

theorem firstAccept_some {rs : List (TokType × Rx)} {t : TokType} :
    firstAccept rs = some t ↔ FirstRule rs t [] := by
  induction rs with
  | nil => constructor <;> (intro h; cases h)
  | cons p rs ih =>
    obtain ⟨t', r⟩ := p
    simp only [firstAccept]
    split
    · rename_i hn
      have hm := (nullable_iff r).1 hn
      constructor
      · intro h; cases h; exact .here hm
      · intro h
        cases h with
        | here _ => rfl
        | there hn' _ => exact absurd hm hn'
    · rename_i hn
      have hm := mt (nullable_iff r).2 hn
      rw [ih]
      constructor
      · intro h; exact .there hm h
      · intro h
        cases h with
        | here h => exact absurd h hm
        | there _ h => exact h

theorem FirstRule.someRule {rs : List (TokType × Rx)} {t : TokType} {w : PyStr}
    (h : FirstRule rs t w) : SomeRule rs w := by
  induction h with
  | here h => exact ⟨_, List.mem_cons_self, h⟩
  | there _ _ ih =>
    obtain ⟨p, hp, h⟩ := ih
    exact ⟨p, List.mem_cons_of_mem _ hp, h⟩

theorem FirstRule.unique {rs : List (TokType × Rx)} {t t' : TokType} {w : PyStr}
    (h : FirstRule rs t w) (h' : FirstRule rs t' w) : t = t' := by
  induction h with
  | here h =>
    cases h' with
    | here _ => rfl
    | there hn _ => exact absurd h hn
  | there hn _ ih =>
    cases h' with
    | here h => exact absurd h hn
    | there _ h => exact ih h

theorem firstAccept_none {rs : List (TokType × Rx)} :
    firstAccept rs = none ↔ ¬ SomeRule rs [] := by
  induction rs with
  | nil => simp [firstAccept, SomeRule]
  | cons p rs ih =>
    obtain ⟨t', r⟩ := p
    have h2 : SomeRule ((t', r) :: rs) [] ↔ Matches r [] ∨ SomeRule rs [] := by simp [SomeRule]
    rw [h2, ← nullable_iff]
    simp only [firstAccept]
    split
    · simp_all
    · simp_all

/-- What `scan` computes: the last accepting position, and the last viable one. -/
theorem scan_spec (rs : List (TokType × Rx)) (n : Nat) (best : Option (TokType × Nat)) (cs : PyStr) :
    ((scan rs n best cs).best = best ∧ ∀ w, w <+: cs → w ≠ [] → ¬ SomeRule rs w) ∨
    (∃ t w, w <+: cs ∧ w ≠ [] ∧ (scan rs n best cs).best = some (t, n + w.length) ∧
      FirstRule rs t w ∧ ∀ w', w' <+: cs → w.length < w'.length → ¬ SomeRule rs w') := by
  induction cs generalizing rs n best with
  | nil =>
    left
    refine ⟨rfl, ?_⟩
    intro w hw hne
    exact absurd (List.prefix_nil.1 hw) hne
  | cons c cs ih =>
    have hstep : ((rs.map fun p => (p.1, p.2.deriv c)).filter fun p => !p.2.isVoid) = stepRules c rs := rfl
    simp only [scan, hstep]
    split
    · rename_i he
      left
      refine ⟨rfl, ?_⟩
      intro w hw hne hsr
      cases w with
      | nil => exact hne rfl
      | cons d w =>
        rw [List.cons_prefix_cons] at hw
        obtain ⟨rfl, hw⟩ := hw
        rw [← someRule_step] at hsr
        have : stepRules d rs = [] := by simpa using he
        rw [this] at hsr
        simp [SomeRule] at hsr
    · rename_i he
      rcases ih (stepRules c rs) (n + 1)
          (updateBest best (firstAccept (stepRules c rs)) (n + 1)) with h | h
      · obtain ⟨hb, hno⟩ := h
        cases hf : firstAccept (stepRules c rs) with
        | some t =>
          right
          rw [hf] at hb
          refine ⟨t, [c], ?_, by simp, ?_, ?_, ?_⟩
          · simp [List.cons_prefix_cons]
          · rw [hb]; simp [updateBest]
          · rw [← firstRule_step]; exact firstAccept_some.1 hf
          · intro w' hw' hlen
            cases w' with
            | nil => simp at hlen
            | cons d w' =>
              rw [List.cons_prefix_cons] at hw'
              obtain ⟨rfl, hw'⟩ := hw'
              rw [← someRule_step]
              apply hno _ hw'
              rintro rfl
              simp at hlen
        | none =>
          left
          rw [hf] at hb
          refine ⟨by rw [hb]; rfl, ?_⟩
          intro w hw hne
          cases w with
          | nil => exact absurd rfl hne
          | cons d w =>
            rw [List.cons_prefix_cons] at hw
            obtain ⟨rfl, hw⟩ := hw
            rw [← someRule_step]
            cases w with
            | nil => exact firstAccept_none.1 hf
            | cons e w => exact hno _ hw (by simp)
      · obtain ⟨t, w, hw, hne, hb, hf, hl⟩ := h
        right
        refine ⟨t, c :: w, ?_, by simp, ?_, ?_, ?_⟩
        · rw [List.cons_prefix_cons]; exact ⟨rfl, hw⟩
        · rw [hb]; simp; omega
        · rw [← firstRule_step]; exact hf
        · intro w' hw' hlen
          cases w' with
          | nil => simp at hlen
          | cons d w' =>
            rw [List.cons_prefix_cons] at hw'
            obtain ⟨rfl, hw'⟩ := hw'
            rw [← someRule_step]
            exact hl _ hw' (by simpa using hlen)

/-- All rules are free of empty parts. -/
def AllClean (rs : List (TokType × Rx)) : Prop := ∀ p ∈ rs, p.2.clean = true

theorem allClean_step {c : Nat} {rs : List (TokType × Rx)} (h : AllClean rs) :
    AllClean (stepRules c rs) := by
  intro p hp
  simp only [stepRules, List.mem_filter, List.mem_map] at hp
  obtain ⟨⟨p', hp', rfl⟩, hv⟩ := hp
  rcases clean_deriv c p'.2 (h p' hp') with h' | h'
  · simp [h', Rx.isVoid] at hv
  · exact h'

theorem viable_nil_of_clean {rs : List (TokType × Rx)} (h : AllClean rs) (hne : rs ≠ []) :
    Viable rs [] := by
  cases rs with
  | nil => exact absurd rfl hne
  | cons p rs =>
    obtain ⟨w, hw⟩ := clean_inhabited p.2 (h p List.mem_cons_self)
    exact ⟨w, p, List.mem_cons_self, hw⟩

theorem viable_step {c : Nat} {rs : List (TokType × Rx)} {w : PyStr} :
    Viable (stepRules c rs) w ↔ Viable rs (c :: w) := by
  simp [Viable, someRule_step]

/-- `consumed` is the length of the longest viable prefix (counting from `n`). -/
theorem scan_consumed (rs : List (TokType × Rx)) (hc : AllClean rs) (n : Nat)
    (best : Option (TokType × Nat)) (cs : PyStr) :
    ∃ k, k ≤ cs.length ∧ (scan rs n best cs).consumed = n + k ∧
      (∀ j, 0 < j → j ≤ k → Viable rs (cs.take j)) ∧
      (k = cs.length ∨ ¬ Viable rs (cs.take (k + 1))) := by
  induction cs generalizing rs n best with
  | nil => exact ⟨0, by simp, rfl, by omega, .inl rfl⟩
  | cons c cs ih =>
    have hstep : ((rs.map fun p => (p.1, p.2.deriv c)).filter fun p => !p.2.isVoid) = stepRules c rs := rfl
    simp only [scan, hstep]
    split
    · rename_i he
      have he : stepRules c rs = [] := by simpa using he
      refine ⟨0, by omega, rfl, by omega, .inr ?_⟩
      simp only [Nat.zero_add, List.take_succ_cons, List.take_zero]
      rw [← viable_step, he]
      simp [Viable, SomeRule]
    · rename_i he
      have he : stepRules c rs ≠ [] := by simpa using he
      obtain ⟨k, hk, hcons, hv, hs⟩ := ih (stepRules c rs) (allClean_step hc) (n + 1)
        (updateBest best (firstAccept (stepRules c rs)) (n + 1))
      refine ⟨k + 1, by simpa using hk, by rw [hcons]; omega, ?_, ?_⟩
      · intro j hj hjk
        cases j with
        | zero => omega
        | succ j =>
          simp only [List.take_succ_cons]
          rw [← viable_step]
          cases j with
          | zero => simpa using viable_nil_of_clean (allClean_step hc) he
          | succ j => exact hv _ (by omega) (by omega)
      · rcases hs with h | h
        · left; simp [h]
        · right
          rw [viable_step] at h
          simpa using h

theorem lexRules_clean : AllClean lexRules := by
  have h : (lexRules.all fun p => p.2.clean) = true := by decide
  intro p hp
  exact List.all_eq_true.1 h p hp

/-! ### One token -/

theorem take_of_prefix {w s : PyStr} (h : w <+: s) : s.take w.length = w := by
  obtain ⟨t, rfl⟩ := h; simp

/-- `nextPiece` takes the longest match, or the error span. -/
theorem nextPiece_spec (s : PyStr) (hs : s ≠ []) :
    (∃ t w, LongestMatch s t w ∧ nextPiece s = (kindOf t, w.length)) ∨
    (∃ w, ErrorSpan s w ∧ nextPiece s = (.err, w.length)) := by
  rcases scan_spec lexRules 0 none s with ⟨hb, hno⟩ | ⟨t, w, hw, hne, hb, hf, hl⟩
  · right
    obtain ⟨k, hk, hcons, hv, hst⟩ := scan_consumed lexRules lexRules_clean 0 none s
    have hlen : 0 < s.length := by
      cases s with
      | nil => exact absurd rfl hs
      | cons => simp
    refine ⟨s.take (k + 1), ?_, ?_⟩
    · refine ⟨hno, ?_, List.take_prefix _ _, ?_, ?_⟩
      · intro h
        rw [List.take_eq_nil_iff] at h
        rcases h with h | h
        · omega
        · exact hs h
      · intro w' hw' hne'
        have hw's : w' <+: s := hw'.trans (List.take_prefix _ _)
        have hlt : w'.length ≤ k := by
          have h1 := hw'.length_le
          have h2 : w'.length ≠ (s.take (k + 1)).length := by
            intro h; exact hne' (hw'.eq_of_length h)
          simp only [List.length_take] at h1 h2
          omega
        by_cases h0 : w' = []
        · subst h0
          exact viable_nil_of_clean lexRules_clean (by decide)
        · have := hv w'.length (by cases w'; exact absurd rfl h0; simp) hlt
          rwa [take_of_prefix hw's] at this
      · rcases hst with h | h
        · left; exact List.take_of_length_le (by omega)
        · right; exact h
    · simp only [nextPiece, hb, hcons, Nat.zero_add, List.length_take]
  · left
    refine ⟨t, w, ⟨hne, hw, hf, hl⟩, ?_⟩
    simp only [nextPiece, hb, Nat.zero_add, kindOf]

theorem LongestMatch.unique {s : PyStr} {t t' : TokType} {w w' : PyStr}
    (h : LongestMatch s t w) (h' : LongestMatch s t' w') : t = t' ∧ w = w' := by
  have hl : w.length = w'.length := by
    rcases Nat.lt_trichotomy w.length w'.length with hlt | heq | hgt
    · exact absurd h'.first.someRule (h.longest w' h'.isPrefix hlt)
    · exact heq
    · exact absurd h.first.someRule (h'.longest w h.isPrefix hgt)
  have hw : w = w' := by
    rw [← take_of_prefix h.isPrefix, hl, take_of_prefix h'.isPrefix]
  subst hw
  exact ⟨h.first.unique h'.first, rfl⟩

theorem LongestMatch.not_noMatch {s : PyStr} {t : TokType} {w : PyStr}
    (h : LongestMatch s t w) : ¬ NoMatch s := fun hn => hn w h.isPrefix h.nonempty h.first.someRule

/-- A longest match determines the next piece. -/
theorem nextPiece_of_longest {s : PyStr} {t : TokType} {w : PyStr} (h : LongestMatch s t w) :
    nextPiece s = (kindOf t, w.length) := by
  have hs : s ≠ [] := by
    rintro rfl
    exact h.nonempty (List.prefix_nil.1 h.isPrefix)
  rcases nextPiece_spec s hs with ⟨t', w', h', e⟩ | ⟨w', h', _⟩
  · obtain ⟨rfl, rfl⟩ := h.unique h'
    exact e
  · exact absurd h'.noMatch h.not_noMatch

theorem ErrorSpan.unique {s w w' : PyStr} (h : ErrorSpan s w) (h' : ErrorSpan s w') : w = w' := by
  have key : ∀ {w w' : PyStr}, ErrorSpan s w → ErrorSpan s w' → w.length < w'.length → False := by
    intro w w' h h' hlt
    have hp : w <+: w' := List.prefix_of_prefix_length_le h.isPrefix h'.isPrefix (by omega)
    have hne : w ≠ w' := by rintro rfl; omega
    rcases h.stuck with rfl | hst
    · have := h'.isPrefix.length_le; omega
    · exact hst (h'.viable w hp hne)
  have hl : w.length = w'.length := by
    rcases Nat.lt_trichotomy w.length w'.length with hlt | heq | hgt
    · exact (key h h' hlt).elim
    · exact heq
    · exact (key h' h hgt).elim
  rw [← take_of_prefix h.isPrefix, hl, take_of_prefix h'.isPrefix]

theorem nextPiece_of_error {s w : PyStr} (h : ErrorSpan s w) : nextPiece s = (.err, w.length) := by
  have hs : s ≠ [] := by
    rintro rfl
    exact h.nonempty (List.prefix_nil.1 h.isPrefix)
  rcases nextPiece_spec s hs with ⟨t', w', h', _⟩ | ⟨w', h', e⟩
  · exact absurd h.noMatch h'.not_noMatch
  · rw [e, h.unique h']

theorem nextPiece_pos (s : PyStr) (hs : s ≠ []) : 0 < (nextPiece s).2 ∧ (nextPiece s).2 ≤ s.length := by
  rcases nextPiece_spec s hs with ⟨t, w, h, e⟩ | ⟨w, h, e⟩ <;> rw [e]
  · exact ⟨List.length_pos_iff.2 h.nonempty, h.isPrefix.length_le⟩
  · exact ⟨List.length_pos_iff.2 h.nonempty, h.isPrefix.length_le⟩

/-! ### All tokens -/

theorem lexLoop_splits (fuel : Nat) (s : PyStr) (pos col : Nat) (h : s.length ≤ fuel) :
    Splits s pos col (lexLoop fuel s pos col) := by
  induction fuel generalizing s pos col with
  | zero =>
    have : s = [] := List.length_eq_zero_iff.1 (by omega)
    subst this
    exact .nil
  | succ fuel ih =>
    cases s with
    | nil => exact .nil
    | cons c cs =>
      generalize hs : c :: cs = s at *
      have hne : s ≠ [] := by rw [← hs]; simp
      have hl : lexLoop (fuel + 1) s pos col =
          { kind := (nextPiece s).1, text := s.take (nextPiece s).2, start := pos, column := col } ::
          lexLoop fuel (s.drop (nextPiece s).2) (pos + (nextPiece s).2)
            (advanceColumn col (s.take (nextPiece s).2)) := by
        rw [← hs]; rfl
      rw [hl]
      rcases nextPiece_spec s hne with ⟨t, w, hm, e⟩ | ⟨w, hm, e⟩
      · rw [e]
        obtain ⟨rest, rfl⟩ := hm.isPrefix
        simp only [List.take_left, List.drop_left]
        refine .token hm (ih _ _ _ ?_)
        have := List.length_pos_iff.2 hm.nonempty
        simp at h
        omega
      · rw [e]
        obtain ⟨rest, rfl⟩ := hm.isPrefix
        simp only [List.take_left, List.drop_left]
        refine .error hm (ih _ _ _ ?_)
        have := List.length_pos_iff.2 hm.nonempty
        simp at h
        omega

theorem Splits.unique {s : PyStr} {pos col : Nat} {ps qs : List Piece}
    (h : Splits s pos col ps) (h' : Splits s pos col qs) : ps = qs := by
  induction h generalizing qs with
  | nil =>
    generalize hs : ([] : PyStr) = s at h'
    cases h' with
    | nil => rfl
    | token hm =>
      simp at hs; exact absurd hs.1 hm.nonempty
    | error hm =>
      simp at hs; exact absurd hs.1 hm.nonempty
  | @token w rest pos col t ps hm _ ih =>
    generalize hs : w ++ rest = s at h' hm
    cases h' with
    | nil => simp at hs; exact absurd hs.1 hm.nonempty
    | @token w' rest' _ _ t' ps' hm' h' =>
      obtain ⟨rfl, rfl⟩ := hm.unique hm'
      simp at hs
      subst hs
      rw [ih h']
    | error hm' => exact absurd hm'.noMatch hm.not_noMatch
  | @error w rest pos col ps hm _ ih =>
    generalize hs : w ++ rest = s at h' hm
    cases h' with
    | nil => simp at hs; exact absurd hs.1 hm.nonempty
    | token hm' => exact absurd hm.noMatch hm'.not_noMatch
    | @error w' rest' _ _ ps' hm' h' =>
      have := hm.unique hm'
      subst this
      simp at hs
      subst hs
      rw [ih h']

/-- The lexer computes the one and only splitting. -/
theorem lexPieces_iff (q : PyStr) (ps : List Piece) : lexPieces q = ps ↔ Splits q 0 0 ps := by
  constructor
  · rintro rfl; exact lexLoop_splits _ _ _ _ (Nat.le_refl _)
  · intro h; exact (lexLoop_splits _ _ _ _ (Nat.le_refl _)).unique h

theorem lexPieces_splits (q : PyStr) : Splits q 0 0 (lexPieces q) := (lexPieces_iff q _).1 rfl

end Fcsql
