/-
The lexer cuts a text as its network says.
-/
import Verif.Proofs.LexNet

set_option autoImplicit false
set_option linter.unusedSimpArgs false

namespace Fcsql

theorem firstRule_iff {rs : List (TokType × Rx)} {t : TokType} {w : PyStr} :
    FirstRule rs t w ↔ ∃ (i : Nat) (hi : i < rs.length), rs[i].1 = t ∧ Matches rs[i].2 w ∧
      ∀ (j : Nat) (hj : j < rs.length), j < i → ¬ Matches rs[j].2 w := by
  induction rs with
  | nil =>
    constructor
    · intro h; cases h
    · rintro ⟨i, hi, -⟩; simp at hi
  | cons p rs ih =>
    obtain ⟨t', r⟩ := p
    constructor
    · intro h
      cases h with
      | here h => exact ⟨0, by simp, rfl, h, fun j _ hj => by omega⟩
      | there hn h =>
        obtain ⟨i, hi, h1, h2, h3⟩ := ih.1 h
        refine ⟨i + 1, by simpa using hi, by simpa using h1, by simpa using h2, fun j hj hji => ?_⟩
        cases j with
        | zero => exact hn
        | succ j => simpa using h3 j (by simpa using hj) (by omega)
    · rintro ⟨i, hi, h1, h2, h3⟩
      cases i with
      | zero => simp only [List.getElem_cons_zero] at h1 h2; subst h1; exact .here h2
      | succ i =>
        refine .there (h3 0 (by simp) (by omega)) (ih.2 ⟨i, by simpa using hi, by simpa using h1, by simpa using h2, ?_⟩)
        intro j hj hji
        exact h3 (j + 1) (by simpa using hj) (by omega)

theorem lexAlt_iff {i s : Nat} : lexerAtn.LexAlt i s ↔ (lexerAtn.out 0)[i]? = some (.eps s) := by
  constructor
  · rintro ⟨m, h, h'⟩
    rw [lexerAtn_modes] at h
    cases h
    exact h'
  · intro h; exact ⟨0, lexerAtn_modes, h⟩

/-- The rule of an alternative. -/
theorem lexAlt_rule {i s : Nat} (h : lexerAtn.LexAlt i s) : ∃ (hi : i < lexRules.length),
    lexerAtn.tokenType s = some lexRules[i].1.num.toNat ∧
      ∀ w acts, LexWalk lexerAtn s w acts ↔
        Matches lexRules[i].2 w ∧ acts = if lexRules[i].1 = .Space then [0] else [] := by
  rw [lexAlt_iff] at h
  obtain ⟨hl, hr⟩ := lexerAtn_rules
  have hi : i < lexRules.length := by
    rw [hl]; exact (List.getElem?_eq_some_iff.1 h).1
  obtain ⟨s', h1, h2, h3⟩ := hr i hi
  rw [h] at h1
  cases h1
  exact ⟨hi, h2, h3⟩

theorem rule_lexAlt {i : Nat} (hi : i < lexRules.length) : ∃ s, lexerAtn.LexAlt i s := by
  obtain ⟨s, h, -⟩ := lexerAtn_rules.2 i hi
  exact ⟨s, lexAlt_iff.2 h⟩

theorem lexAccepts_iff {i : Nat} {w : PyStr} :
    lexerAtn.LexAccepts i w ↔ ∃ (hi : i < lexRules.length), Matches lexRules[i].2 w := by
  constructor
  · rintro ⟨s, acts, h, h'⟩
    obtain ⟨hi, -, h2⟩ := lexAlt_rule h
    exact ⟨hi, ((h2 _ _).1 h').1⟩
  · rintro ⟨hi, h⟩
    obtain ⟨s, hs⟩ := rule_lexAlt hi
    obtain ⟨_, _, h2⟩ := lexAlt_rule hs
    exact ⟨s, _, hs, (h2 _ _).2 ⟨h, rfl⟩⟩

theorem someRule_lexAccepts {w : PyStr} : SomeRule lexRules w ↔ ∃ i, lexerAtn.LexAccepts i w := by
  constructor
  · rintro ⟨p, hp, h⟩
    obtain ⟨i, hi, rfl⟩ := List.mem_iff_getElem.1 hp
    exact ⟨i, lexAccepts_iff.2 ⟨hi, h⟩⟩
  · rintro ⟨i, h⟩
    obtain ⟨hi, h⟩ := lexAccepts_iff.1 h
    exact ⟨_, List.getElem_mem hi, h⟩

theorem skips_nil : ¬ lexerAtn.Skips [] := by rintro ⟨a, h, -⟩; simp at h

theorem skips_space : lexerAtn.Skips [0] := ⟨0, by simp, _, rfl, rfl⟩

/-- A match of the network is a longest match, and the other way round. -/
theorem netMatch_iff {text w : PyStr} {s : Nat} {acts : List Nat} : NetMatch lexerAtn text w s acts ↔
    ∃ (i : Nat) (hi : i < lexRules.length), lexerAtn.LexAlt i s ∧ Matches lexRules[i].2 w ∧
      (∀ (j : Nat) (hj : j < lexRules.length), j < i → ¬ Matches lexRules[j].2 w) ∧
      acts = (if lexRules[i].1 = .Space then [0] else []) ∧ w ≠ [] ∧ w <+: text ∧
      ∀ w', w' <+: text → w.length < w'.length → ¬ SomeRule lexRules w' := by
  constructor
  · rintro ⟨h1, h2, ⟨i, ha, hw, hf⟩, h4⟩
    obtain ⟨hi, ht, hr⟩ := lexAlt_rule ha
    obtain ⟨hm, he⟩ := (hr _ _).1 hw
    refine ⟨i, hi, ha, hm, ?_, he, h1, h2, ?_⟩
    · intro j hj hji h; exact hf j hji (lexAccepts_iff.2 ⟨hj, h⟩)
    · intro w' hp hl h
      obtain ⟨j, h⟩ := someRule_lexAccepts.1 h
      exact h4 w' hp hl j h
  · rintro ⟨i, hi, ha, hm, hf, he, h1, h2, h3⟩
    obtain ⟨_, ht, hr⟩ := lexAlt_rule ha
    refine ⟨h1, h2, ⟨i, ha, (hr _ _).2 ⟨hm, he⟩, ?_⟩, ?_⟩
    · intro j hji h
      obtain ⟨hj, h⟩ := lexAccepts_iff.1 h
      exact hf j hj hji h
    · intro w' hp hl j h
      exact h3 w' hp hl (someRule_lexAccepts.2 ⟨j, h⟩)

theorem longestMatch_net {text w : PyStr} {t : TokType} (h : LongestMatch text t w) :
    ∃ s, NetMatch lexerAtn text w s (if t = .Space then [0] else []) ∧
      lexerAtn.tokenType s = some t.num.toNat := by
  obtain ⟨i, hi, rfl, hm, hf⟩ := firstRule_iff.1 h.first
  obtain ⟨s, hs⟩ := rule_lexAlt hi
  obtain ⟨_, ht, _⟩ := lexAlt_rule hs
  exact ⟨s, netMatch_iff.2 ⟨i, hi, hs, hm, hf, rfl, h.nonempty, h.isPrefix, h.longest⟩, ht⟩

theorem lexRules_ne_eof : ∀ p ∈ lexRules, p.1 ≠ .EOF := by decide

theorem num_toNat_inj {t u : TokType} (ht : t ≠ .EOF) (hu : u ≠ .EOF) (h : t.num.toNat = u.num.toNat) : t = u := by
  cases t <;> cases u <;> first | rfl | (exfalso; revert h; decide) | exact absurd rfl ht | exact absurd rfl hu

theorem netMatch_longest {text w : PyStr} {s : Nat} {acts : List Nat} (h : NetMatch lexerAtn text w s acts) :
    ∃ t, LongestMatch text t w ∧ t ≠ .EOF ∧ lexerAtn.tokenType s = some t.num.toNat ∧
      (lexerAtn.Skips acts ↔ t = .Space) := by
  obtain ⟨i, hi, ha, hm, hf, he, h1, h2, h3⟩ := netMatch_iff.1 h
  obtain ⟨_, ht, _⟩ := lexAlt_rule ha
  refine ⟨lexRules[i].1, ⟨h1, h2, firstRule_iff.2 ⟨i, hi, rfl, hm, hf⟩, h3⟩, lexRules_ne_eof _ (List.getElem_mem hi), ht, ?_⟩
  subst he
  split
  · rename_i hs; exact ⟨fun _ => hs, fun _ => skips_space⟩
  · rename_i hs; exact ⟨fun h => absurd h skips_nil, fun h => absurd h hs⟩

theorem errorSpan_net {text w : PyStr} : ErrorSpan text w ↔ NetError lexerAtn text w := by
  constructor
  · rintro ⟨h1, h2, h3, h4, h5⟩
    refine ⟨?_, h2, h3, ?_, ?_⟩
    · intro w' hp hn j h; exact h1 w' hp hn (someRule_lexAccepts.2 ⟨j, h⟩)
    · intro w' hp hn
      obtain ⟨v, h⟩ := h4 w' hp hn
      obtain ⟨j, h⟩ := someRule_lexAccepts.1 h
      exact ⟨v, j, h⟩
    · rcases h5 with h5 | h5
      · exact .inl h5
      · exact .inr fun v j h => h5 ⟨v, someRule_lexAccepts.2 ⟨j, h⟩⟩
  · rintro ⟨h1, h2, h3, h4, h5⟩
    refine ⟨?_, h2, h3, ?_, ?_⟩
    · intro w' hp hn h
      obtain ⟨j, h⟩ := someRule_lexAccepts.1 h
      exact h1 w' hp hn j h
    · intro w' hp hn
      obtain ⟨v, j, h⟩ := h4 w' hp hn
      exact ⟨v, someRule_lexAccepts.2 ⟨j, h⟩⟩
    · rcases h5 with h5 | h5
      · exact .inl h5
      · refine .inr ?_
        rintro ⟨v, h⟩
        obtain ⟨j, h⟩ := someRule_lexAccepts.1 h
        exact h5 v j h

theorem splits_net {text : PyStr} {pos col : Nat} {ps : List Piece} :
    Splits text pos col ps ↔ NetSplits lexerAtn text pos col ps := by
  constructor
  · intro h
    induction h with
    | nil => exact .nil
    | @token w rest pos col t ps hm _ ih =>
      obtain ⟨s, h1, h2⟩ := longestMatch_net hm
      unfold kindOf
      split
      · rename_i ht
        rw [if_pos ht] at h1
        exact .skip h1 skips_space ih
      · rename_i ht
        rw [if_neg ht] at h1
        obtain ⟨i, hi, he, -⟩ := firstRule_iff.1 hm.first
        exact .token h1 skips_nil h2 (by rw [← he]; exact lexRules_ne_eof _ (List.getElem_mem hi)) ih
    | error he _ ih => exact .error (errorSpan_net.1 he) ih
  · intro h
    induction h with
    | nil => exact .nil
    | @token w rest pos col s acts t ps hm hs ht hne _ ih =>
      obtain ⟨t', h1, h2, h3, h4⟩ := netMatch_longest hm
      rw [ht] at h3
      obtain rfl := num_toNat_inj hne h2 (Option.some.inj h3)
      have := Splits.token (pos := pos) (col := col) h1 ih
      unfold kindOf at this
      rwa [if_neg (fun h => hs (h4.2 h))] at this
    | @skip w rest pos col s acts ps hm hs _ ih =>
      obtain ⟨t', h1, h2, h3, h4⟩ := netMatch_longest hm
      have := Splits.token (pos := pos) (col := col) h1 ih
      unfold kindOf at this
      rwa [if_pos (h4.1 hs)] at this
    | error he _ ih => exact .error (errorSpan_net.2 he) ih

end Fcsql
