/-
The sets of configurations the prediction goes through before a row of opening brackets: never the same one twice.
-/
import Verif.Proofs.AdaptiveCode

set_option autoImplicit false
set_option linter.unusedSimpArgs false

namespace Fcsql

/-- After `n` opening brackets, for the decision of `main_query`. -/
def bracketSet : Nat → AConfigSet
  | 0 => parserAtn.startConfigs false 1 []
  | n + 1 => parserAtn.reachSet false (bracketSet n) 1

/-- States in which a configuration is kept. -/
def keptStates : List Nat := [80, 118, 206]

/-- States passed when a bracketed query begins. -/
def openStates : List Nat := [4, 62, 59, 10, 91, 89, 14, 116, 40, 201, 42, 206, 90, 16, 118, 60, 6, 76, 74, 75, 8, 80, 61]

def openTrans (s : Nat) : Trans → Bool
  | .eps t => openStates.contains t
  | .rule start _ f => openStates.contains start && f < 211
  | .action _ _ => false
  | _ => keptStates.contains s

/-- The outermost frames of an alternative, once a bracket is open. -/
def altTail : Nat → List Nat
  | 2 => [84, 58]
  | 3 => [77, 58]
  | 4 => [63, 58]
  | _ => []

theorem open_ok : openStates.all (fun s => !parserAtn.isStop s && (parserAtn.out s).all (openTrans s)) = true := by decide +kernel

theorem parser_length : parserAtn.states.length = 211 := by decide +kernel

theorem open_notEps : openStates.all (fun s => (parserAtn.out s).all Atn.isEps || keptStates.contains s) = true := by decide +kernel

/-- What is reached from one of these states: the stack only grows. -/
theorem closure_open (full : Bool) : ∀ (n : Nat) (busy : List Nat) (c f : AConfig), c.state ∈ openStates →
    f ∈ parserAtn.closure full false n busy c →
    f.state ∈ keptStates ∧ f.alt = c.alt ∧ ∃ p, f.stack = p ++ c.stack ∧ ∀ r ∈ p, r < 211 := by
  intro n
  induction n with
  | zero => intro busy c f _ hf; cases hf
  | succ n ih =>
    intro busy c f hc hf
    have h1 := List.all_eq_true.1 open_ok _ hc
    have h2 := List.all_eq_true.1 open_notEps _ hc
    simp only [Bool.and_eq_true, Bool.not_eq_true'] at h1
    simp only [Atn.closure, h1.1, Bool.false_eq_true, if_false, List.mem_append, List.mem_flatMap] at hf
    rcases hf with hf | ⟨t, ht, hf⟩
    · split at hf
      · cases hf
      · rename_i hne
        cases List.mem_singleton.1 hf
        simp only [hne, Bool.false_or, List.contains_iff_mem] at h2
        exact ⟨h2, rfl, [], rfl, by simp⟩
    · have h3 := List.all_eq_true.1 h1.2 t ht
      cases t with
      | eps t =>
        simp only [openTrans, List.contains_iff_mem] at h3
        simp only [Atn.epsilonTarget] at hf
        exact ih busy { c with state := t } f h3 hf
      | rule start i r =>
        simp only [openTrans, Bool.and_eq_true, List.contains_iff_mem, decide_eq_true_eq] at h3
        simp only [Atn.epsilonTarget] at hf
        obtain ⟨h4, h5, p, h6, h7⟩ := ih busy { c with state := start, stack := r :: c.stack } f h3.1 hf
        refine ⟨h4, h5, p ++ [r], by simp [h6], fun x hx => ?_⟩
        rcases List.mem_append.1 hx with hx | hx
        · exact h7 x hx
        · cases List.mem_singleton.1 hx; exact h3.2
      | action a t => simp [openTrans] at h3
      | atom l t => simp [Atn.epsilonTarget] at hf
      | set l t => simp [Atn.epsilonTarget] at hf
      | notSet l t => simp [Atn.epsilonTarget] at hf

theorem out_83 : parserAtn.out 83 = [.eps 81, .eps 82] := by decide +kernel
theorem out_81 : parserAtn.out 81 = [.rule 4 2 84] := by decide +kernel
theorem out_82 : parserAtn.out 82 = [.rule 6 3 84] := by decide +kernel
theorem stop_83 : parserAtn.isStop 83 = false ∧ parserAtn.isStop 81 = false ∧ parserAtn.isStop 82 = false := by decide +kernel

/-- From the state after an opening bracket. -/
theorem closure_83 (n : Nat) (alt : Nat) (stk : List Nat) (o : Nat) (f : AConfig)
    (hf : f ∈ parserAtn.closure false false n [] ⟨83, alt, stk, o⟩) :
    f.state ∈ keptStates ∧ f.alt = alt ∧ ∃ p, p ≠ [] ∧ f.stack = p ++ stk ∧ ∀ r ∈ p, r < 211 := by
  cases n with
  | zero => cases hf
  | succ n =>
    simp only [Atn.closure, stop_83, Bool.false_eq_true, if_false, out_83, List.mem_append, List.mem_flatMap, List.all_cons,
      Atn.isEps, List.all_nil, Bool.and_true, if_true, List.not_mem_nil, false_or, List.mem_cons, or_false] at hf
    have key : ∀ s start i, (s = 81 ∧ start = 4 ∧ i = 2) ∨ (s = 82 ∧ start = 6 ∧ i = 3) →
        f ∈ parserAtn.closure false false n [] ⟨s, alt, stk, o⟩ →
        f.state ∈ keptStates ∧ f.alt = alt ∧ ∃ p, p ≠ [] ∧ f.stack = p ++ stk ∧ ∀ r ∈ p, r < 211 := by
      intro s start i hs hf
      have hs1 : parserAtn.isStop s = false := by
        rcases hs with ⟨rfl, -⟩ | ⟨rfl, -⟩
        · exact stop_83.2.1
        · exact stop_83.2.2
      have hs2 : parserAtn.out s = [.rule start i 84] := by
        rcases hs with ⟨rfl, rfl, rfl⟩ | ⟨rfl, rfl, rfl⟩
        · exact out_81
        · exact out_82
      have hopen : start ∈ openStates := by
        rcases hs with ⟨-, rfl, -⟩ | ⟨-, rfl, -⟩
        · decide
        · decide
      cases n with
      | zero => cases hf
      | succ n =>
        simp only [Atn.closure, hs1, Bool.false_eq_true, if_false, hs2, List.mem_append, List.mem_flatMap, List.all_cons,
          Atn.isEps, List.all_nil, Bool.and_true, if_true, List.not_mem_nil, false_or, List.mem_singleton, exists_eq_left,
          Atn.epsilonTarget] at hf
        obtain ⟨h1, h2, p, h3, h4⟩ := closure_open false n [] ⟨start, alt, 84 :: stk, o⟩ f
          hopen hf
        refine ⟨h1, h2, p ++ [84], by simp, by simp [h3], fun r hr => ?_⟩
        rcases List.mem_append.1 hr with hr | hr
        · exact h4 r hr
        · cases List.mem_singleton.1 hr; decide
    obtain ⟨t, ht, hf⟩ := hf
    rcases ht with rfl | rfl
    · exact key 81 4 2 (.inl ⟨rfl, rfl, rfl⟩) hf
    · exact key 82 6 3 (.inr ⟨rfl, rfl, rfl⟩) hf

/-- What holds of the set after one or more opening brackets. -/
structure Opened (S : AConfigSet) : Prop where
  kept : ∀ c ∈ S, c.state ∈ keptStates
  low : ∀ c ∈ S, ∀ r ∈ c.stack, r < 211
  tail : ∀ c ∈ S, (altTail c.alt).length = 2 ∧ altTail c.alt <:+ c.stack
  two : ∃ c ∈ S, c.state = 80 ∧ c.alt = 2
  three : ∃ c ∈ S, c.state = 80 ∧ c.alt = 3

theorem kept_notStop {s : Nat} (h : s ∈ keptStates) : parserAtn.isStop s = false := by
  have : keptStates.all (fun s => !parserAtn.isStop s) = true := by decide +kernel
  simpa using List.all_eq_true.1 this s h

theorem kept_match {s : Nat} (h : s ∈ keptStates) : ∀ e ∈ parserAtn.out s, ∀ t, parserAtn.matchesTok 1 e = some t → t = 83 ∧ s = 80 := by
  have : keptStates.all (fun s => (parserAtn.out s).all fun e => match parserAtn.matchesTok 1 e with
    | some t => t == 83 && s == 80
    | none => true) = true := by decide +kernel
  intro e he t ht
  have := List.all_eq_true.1 (List.all_eq_true.1 this s h) e he
  simpa [ht] using this

theorem open_path (stk : List Nat) : Path parserAtn false 83 stk [] 80 (63 :: 84 :: stk) := by
  have h62 : (.eps 61 : Trans) ∈ parserAtn.out 62 := by decide +kernel
  have h4 : (.eps 62 : Trans) ∈ parserAtn.out 4 := by decide +kernel
  have h61 : (.rule 8 4 63 : Trans) ∈ parserAtn.out 61 := by decide +kernel
  have h8 : (.eps 80 : Trans) ∈ parserAtn.out 8 := by decide +kernel
  exact .eps (t := 81) (by rw [out_83]; simp) (.call (start := 4) (i := 2) (t := 84) (by rw [out_81]; simp) (.eps h4 (.eps h62 (.call h61 (.eps h8 .here)))))

/-- What is consumed before an opening bracket. -/
theorem mem_consumed_open {S : AConfigSet} (h : Opened S) {d : AConfig} (hd : d ∈ parserAtn.consumed false S 1) :
    d.state = 83 ∧ ∃ c ∈ S, c.alt = d.alt ∧ c.stack = d.stack := by
  obtain ⟨o, ho⟩ := mem_ofList false _ d hd
  obtain ⟨c, hc, hm⟩ := List.mem_flatMap.1 ho
  obtain ⟨hc, -⟩ := List.mem_filter.1 hc
  obtain ⟨e, he, hm⟩ := List.mem_filterMap.1 hm
  cases ht : parserAtn.matchesTok 1 e with
  | none => simp [ht] at hm
  | some t =>
    simp only [ht, Option.map_some, Option.some.injEq, AConfig.mk.injEq] at hm
    exact ⟨hm.1 ▸ (kept_match (h.kept c hc) e he t ht).1, c, hc, hm.2.1, hm.2.2.1⟩

theorem consumed_open {S : AConfigSet} {a : Nat} (h : ∃ c ∈ S, c.state = 80 ∧ c.alt = a) :
    ∃ d ∈ parserAtn.consumed false S 1, d.state = 83 ∧ d.alt = a := by
  obtain ⟨c, hc, h1, h2⟩ := h
  have hs : parserAtn.isStop 80 = false := by decide +kernel
  have h80 : (.atom 1 83 : Trans) ∈ parserAtn.out 80 := by decide +kernel
  obtain ⟨d, hd, h3, h4, -⟩ := ofList_rep false ((S.filter fun c => !parserAtn.isStop c.state).flatMap fun c =>
      (parserAtn.out c.state).filterMap fun t => (parserAtn.matchesTok 1 t).map fun t' => { c with state := t' })
    { c with state := 83 } (List.mem_flatMap.2 ⟨c, List.mem_filter.2 ⟨hc, by simp [h1, hs]⟩,
      List.mem_filterMap.2 ⟨_, h1.symm ▸ h80, by simp [Atn.matchesTok]⟩⟩)
  exact ⟨d, hd, h3, h4.trans h2⟩

theorem reach_open {S : AConfigSet} (h : Opened S) : parserAtn.reachSet false S 1 =
    AConfigSet.ofList false ((parserAtn.consumed false S 1).flatMap (parserAtn.closureOf false false)) := by
  obtain ⟨d, hd, -, h2⟩ := consumed_open h.two
  obtain ⟨e, he, -, h3⟩ := consumed_open h.three
  have hsk : (S.filter fun c => parserAtn.isStop c.state && (false || decide ((1 : Int) = -1))) = [] := by
    rw [List.filter_eq_nil_iff]
    intro c _
    simp
  have hl : (parserAtn.consumed false S 1).length ≠ 1 := by
    intro hl
    obtain ⟨x, hx⟩ := List.length_eq_one_iff.1 hl
    rw [hx] at hd he
    cases List.mem_singleton.1 hd
    cases List.mem_singleton.1 he
    omega
  have hu : (parserAtn.consumed false S 1).uniqueAlt = none := by
    cases hu : (parserAtn.consumed false S 1).uniqueAlt with
    | none => rfl
    | some i =>
      have := (uniqueAlt_some hu).1
      have h4 := this d hd
      have h5 := this e he
      omega
  simp only [Atn.reachSet, hsk, hu, hl]
  simp

theorem mem_reach_open {S : AConfigSet} (h : Opened S) {f : AConfig} (hf : f ∈ parserAtn.reachSet false S 1) :
    f.state ∈ keptStates ∧ ∃ c ∈ S, c.alt = f.alt ∧ ∃ p, p ≠ [] ∧ f.stack = p ++ c.stack ∧ ∀ r ∈ p, r < 211 := by
  rw [reach_open h] at hf
  obtain ⟨o, ho⟩ := mem_ofList false _ f hf
  obtain ⟨d, hd, hm⟩ := List.mem_flatMap.1 ho
  obtain ⟨h1, c, hc, h2, h3⟩ := mem_consumed_open h hd
  obtain ⟨s, alt, stk, od⟩ := d
  simp only at h1 h2 h3
  subst h1
  obtain ⟨h4, h5, p, h6, h7, h8⟩ := closure_83 _ alt stk od _ hm
  exact ⟨h4, c, hc, h2.trans h5.symm, p, h6, by rw [h3]; exact h7, h8⟩

theorem reach_open_has {S : AConfigSet} (h : Opened S) {a : Nat} (ha : ∃ c ∈ S, c.state = 80 ∧ c.alt = a) :
    ∃ c ∈ parserAtn.reachSet false S 1, c.state = 80 ∧ c.alt = a := by
  obtain ⟨d, hd, h1, h2⟩ := consumed_open ha
  obtain ⟨-, c, hc, -, h3⟩ := mem_consumed_open h hd
  obtain ⟨s, alt, stk, o⟩ := d
  simp only at h1 h2 h3
  subst h1 h2
  have hst : ∀ r ∈ stk, r < parserAtn.states.length := by
    rw [parser_length, ← h3]
    exact h.low c hc
  have hstay : Stays parserAtn false 80 (63 :: 84 :: stk) := .inr (by decide +kernel)
  have hends : (83 : Nat) ∉ parserTab.ends := by decide
  have hrk : parserTab.rk 83 = 16 := by decide
  obtain ⟨o', ho'⟩ := closure_path parserTab_ok (open_path stk) hstay false (parserAtn.pathBound ⟨83, alt, stk, o⟩) [] alt o
    (by simp) (by simp) hst (by
      simp only [NetTab.mu, hends, if_false, hrk, Atn.pathBound, parser_length]
      omega)
  obtain ⟨f, hf, h4, h5, -⟩ := ofList_rep false ((parserAtn.consumed false S 1).flatMap (parserAtn.closureOf false false)) _
    (List.mem_flatMap.2 ⟨_, hd, ho'⟩)
  exact ⟨f, by rw [reach_open h]; exact hf, h4, h5⟩

theorem Opened.next {S : AConfigSet} (h : Opened S) : Opened (parserAtn.reachSet false S 1) where
  kept f hf := (mem_reach_open h hf).1
  low f hf r hr := by
    obtain ⟨-, c, hc, -, p, -, h2, h3⟩ := mem_reach_open h hf
    rw [h2] at hr
    rcases List.mem_append.1 hr with hr | hr
    · exact h3 r hr
    · exact h.low c hc r hr
  tail f hf := by
    obtain ⟨-, c, hc, h1, p, -, h2, -⟩ := mem_reach_open h hf
    rw [← h1, h2]
    obtain ⟨h3, h4⟩ := h.tail c hc
    exact ⟨h3, h4.trans (List.suffix_append _ _)⟩
  two := reach_open_has h h.two
  three := reach_open_has h h.three

def openedB (S : AConfigSet) : Bool :=
  (S.all fun c => keptStates.contains c.state && (c.stack.all fun r => r < 211) && (altTail c.alt).length = 2 && (altTail c.alt).isSuffixOf c.stack) &&
    (S.any fun c => c.state = 80 && c.alt = 2) && (S.any fun c => c.state = 80 && c.alt = 3)

theorem opened_one : Opened (bracketSet 1) := by
  have h : openedB (bracketSet 1) = true := by decide +kernel
  simp only [openedB, Bool.and_eq_true, List.all_eq_true, List.any_eq_true, decide_eq_true_eq, List.contains_iff_mem,
    List.isSuffixOf_iff_suffix] at h
  obtain ⟨⟨h1, h2⟩, h3⟩ := h
  exact ⟨fun c hc => (h1 c hc).1.1.1, fun c hc => (h1 c hc).1.1.2, fun c hc => ⟨(h1 c hc).1.2, (h1 c hc).2⟩, h2, h3⟩

theorem opened (n : Nat) : Opened (bracketSet (n + 1)) := by
  induction n with
  | zero => exact opened_one
  | succ n ih => exact ih.next

theorem altTail_cases {a : Nat} (h : (altTail a).length = 2) : a = 2 ∨ a = 3 ∨ a = 4 := by
  unfold altTail at h
  split at h
  · exact .inl rfl
  · exact .inr (.inl rfl)
  · exact .inr (.inr rfl)
  · cases h

theorem altTail_inj {a b : Nat} (ha : (altTail a).length = 2) (hb : (altTail b).length = 2) (h : altTail a = altTail b) : a = b := by
  rcases altTail_cases ha with rfl | rfl | rfl <;> rcases altTail_cases hb with rfl | rfl | rfl <;> first | rfl | (revert h; decide)

/-- No verdict: two alternatives go on, and they are told apart by what is at the bottom of the stacks. -/
theorem Opened.more {S : AConfigSet} (h : Opened S) : parserAtn.sllVerdict S = .more := by
  obtain ⟨c, hc, h1, h2⟩ := h.two
  obtain ⟨d, hd, h3, h4⟩ := h.three
  have hne : S.isEmpty = false := by cases S with | nil => cases hc | cons => rfl
  have hu : S.uniqueAlt = none := by
    cases hu : S.uniqueAlt with
    | none => rfl
    | some i =>
      have h5 := (uniqueAlt_some hu).1 c hc
      have h6 := (uniqueAlt_some hu).1 d hd
      omega
  have hstop : (S.all fun c => parserAtn.isStop c.state) = false := by
    rw [List.all_eq_false]
    exact ⟨c, hc, by rw [kept_notStop (h.kept c hc)]; simp⟩
  have htail : ∀ x ∈ S, ∀ y ∈ S, x.stack = y.stack → x.alt = y.alt := by
    intro x hx y hy hxy
    obtain ⟨h5, h6⟩ := h.tail x hx
    obtain ⟨h7, h8⟩ := h.tail y hy
    rw [← hxy] at h8
    have h9 : altTail x.alt = altTail y.alt := (List.suffix_of_suffix_length_le h6 h8 (by omega)).eq_of_length (by omega)
    exact altTail_inj h5 h7 h9
  have hconf : AConfigSet.hasConflict S.conflictingAltSubsets = false := by
    rw [Bool.eq_false_iff]
    intro hco
    simp only [AConfigSet.hasConflict, List.any_eq_true, decide_eq_true_eq] at hco
    obtain ⟨l, hl, a, ha, b, hb, hab⟩ := hco
    obtain ⟨z, hz, rfl⟩ := List.mem_map.1 hl
    have key : ∀ e ∈ (S.filter fun d => d.state = z.state && AConfigSet.sameStacks (S.stacks d.state d.alt) (S.stacks z.state z.alt)).map (·.alt),
        e = z.alt := by
      intro e he
      obtain ⟨x, hx, rfl⟩ := List.mem_map.1 he
      obtain ⟨hx, hxe⟩ := List.mem_filter.1 hx
      simp only [Bool.and_eq_true, decide_eq_true_eq, AConfigSet.sameStacks, List.all_eq_true, List.contains_iff_mem] at hxe
      have hin : x.stack ∈ S.stacks x.state x.alt :=
        List.mem_map.2 ⟨x, List.mem_filter.2 ⟨hx, by simp⟩, rfl⟩
      obtain ⟨y, hy, hyx⟩ := List.mem_map.1 (hxe.2.1 _ hin)
      obtain ⟨hy, hya⟩ := List.mem_filter.1 hy
      simp only [Bool.and_eq_true, decide_eq_true_eq] at hya
      exact (htail x hx y hy hyx.symm).trans hya.2
    exact hab ((key a ha).trans (key b hb).symm)
  simp [Atn.sllVerdict, hne, hu, Atn.sllConflict, hstop, hconf]

theorem bracketSet_longer (n k : Nat) (m : Nat) (h : ∀ c ∈ bracketSet (n + 1), m ≤ c.stack.length) :
    ∀ c ∈ bracketSet (n + 1 + (k + 1)), m + 1 ≤ c.stack.length := by
  induction k with
  | zero =>
    intro c hc
    obtain ⟨-, d, hd, -, p, hp, h2, -⟩ := mem_reach_open (opened n) (S := bracketSet (n + 1)) hc
    have := h d hd
    have := List.length_pos_iff.2 hp
    rw [h2, List.length_append]
    omega
  | succ k ih =>
    intro c hc
    have e : n + 1 + (k + 1) = (n + k + 1) + 1 := by omega
    obtain ⟨-, d, hd, -, p, hp, h2, -⟩ := mem_reach_open (S := bracketSet (n + 1 + (k + 1))) (by rw [e]; exact opened _) hc
    have := ih d hd
    rw [h2, List.length_append]
    omega

theorem exists_shortest (S : AConfigSet) (h : S ≠ []) : ∃ m, (∀ c ∈ S, m ≤ c.stack.length) ∧ ∃ c ∈ S, c.stack.length = m := by
  induction S with
  | nil => exact absurd rfl h
  | cons c S ih =>
    by_cases hS : S = []
    · subst hS
      exact ⟨c.stack.length, by simp, c, by simp, rfl⟩
    · obtain ⟨m, h1, d, hd, h2⟩ := ih hS
      rcases Nat.le_total c.stack.length m with hcm | hcm
      · refine ⟨c.stack.length, fun x hx => ?_, c, by simp, rfl⟩
        rcases List.mem_cons.1 hx with rfl | hx
        · exact Nat.le_refl _
        · exact Nat.le_trans hcm (h1 x hx)
      · refine ⟨m, fun x hx => ?_, d, by simp [hd], h2⟩
        rcases List.mem_cons.1 hx with rfl | hx
        · exact hcm
        · exact h1 x hx

/-- No two of the sets are equal. -/
theorem bracketSet_inj {i j : Nat} (hij : i < j) : bracketSet i ≠ bracketSet j := by
  intro he
  obtain ⟨k, rfl⟩ : ∃ k, j = i + 1 + k := ⟨j - (i + 1), by omega⟩
  cases i with
  | zero =>
    have h1 : (bracketSet 0).any (fun c => c.alt == 1) = true := by decide +kernel
    obtain ⟨c, hc, h2⟩ := List.any_eq_true.1 h1
    rw [he, show 0 + 1 + k = k + 1 by omega] at hc
    have := ((opened k).tail c hc).1
    simp only [beq_iff_eq] at h2
    rw [h2] at this
    simp [altTail] at this
  | succ i =>
    obtain ⟨c0, hc0, -⟩ := (opened i).two
    obtain ⟨m, h1, c, hc, h2⟩ := exists_shortest (bracketSet (i + 1)) (fun h => by rw [h] at hc0; cases hc0)
    have h3 := bracketSet_longer i k m h1
    rw [he, show i + 1 + 1 + k = i + 1 + (k + 1) by omega] at hc
    have := h3 c hc
    omega

end Fcsql
