/-
The runtime's prediction (Model/Adaptive.lean) on a network.
-/
import Verif.Spec.Adaptive
import Verif.Spec.Cache

set_option autoImplicit false
set_option linter.unusedSimpArgs false

namespace Fcsql

/-! ### What is checked of the network -/

/-- Tables: the longest path without consuming a token; the states from which the end of the rule is reached without
consuming a token; the states after `EOF`; the final state. -/
structure NetTab where
  rank : List Nat
  ends : List Nat
  post : List Nat
  last : Nat

def NetTab.rk (T : NetTab) (s : Nat) : Nat := match T.rank[s]? with | some n => n | none => 0

/-- One transition from `s`. -/
def NetTab.edge (T : NetTab) (A : Atn) (s : Nat) : Trans → Bool
  | .eps t => A.ruleOf t = A.ruleOf s && T.rk t < T.rk s && (!T.ends.contains t || T.ends.contains s) &&
      (T.post.contains t = T.post.contains s)
  | .atom k t => A.ruleOf t = A.ruleOf s && !T.post.contains s &&
      (if k = -1 then T.post.contains t && A.ruleOf s = 0 && T.rk t < T.rk s && (!T.ends.contains t || T.ends.contains s)
        else !T.post.contains t)
  | .set l t => A.ruleOf t = A.ruleOf s && !T.post.contains s && !T.post.contains t && l.all fun p => 0 ≤ p.1
  | .notSet _ _ => false
  | .action _ _ => false
  | .rule start i f => A.ruleOf start = i && A.ruleOf f = A.ruleOf s && i ≠ 0 && i < 23 && f < A.states.length && A.rules[i]? = some (start, 0) &&
      T.rk start < T.rk s && !T.ends.contains start && !T.post.contains s && !T.post.contains f

def NetTab.stateOk (T : NetTab) (A : Atn) (s : Nat) : Bool :=
  T.rk s ≤ A.states.length && ((A.out s).all (T.edge A s)) &&
    (!A.isStop s || ((A.out s).isEmpty && T.ends.contains s && (A.ruleOf s ≠ 0 || (s = T.last && T.post.contains s)))) &&
    (!T.post.contains s || A.ruleOf s = 0)

/-- The whole check. -/
def NetTab.ok (T : NetTab) (A : Atn) : Bool :=
  ((List.range A.states.length).all (T.stateOk A)) &&
    (A.decisions.all fun s => s < A.states.length && !T.post.contains s && (A.out s).all fun | .eps _ => true | _ => false)

section
variable {A : Atn} {T : NetTab}

theorem out_of_ge {s : Nat} (h : A.states.length ≤ s) : A.out s = [] := by
  simp [Atn.out, List.getElem?_eq_none h]

theorem lt_of_out {s : Nat} {t : Trans} (h : t ∈ A.out s) : s < A.states.length := by
  rcases Nat.lt_or_ge s A.states.length with h' | h'
  · exact h'
  · rw [out_of_ge h'] at h; cases h

theorem lt_of_stop {s : Nat} (h : A.isStop s = true) : s < A.states.length := by
  rcases Nat.lt_or_ge s A.states.length with h' | h'
  · exact h'
  · simp [Atn.isStop, List.getElem?_eq_none h'] at h

theorem state_ok (hT : T.ok A = true) {s : Nat} (h : s < A.states.length) : T.stateOk A s = true := by
  simp only [NetTab.ok, Bool.and_eq_true, List.all_eq_true] at hT
  exact hT.1 s (List.mem_range.2 h)

theorem edge_ok (hT : T.ok A = true) {s : Nat} {t : Trans} (h : t ∈ A.out s) : T.edge A s t = true := by
  have := state_ok hT (lt_of_out h)
  simp only [NetTab.stateOk, Bool.and_eq_true, List.all_eq_true] at this
  exact this.1.1.2 t h

theorem edge_eps (hT : T.ok A = true) {s t : Nat} (h : .eps t ∈ A.out s) :
    A.ruleOf t = A.ruleOf s ∧ T.rk t < T.rk s ∧ (t ∈ T.ends → s ∈ T.ends) ∧ (t ∈ T.post ↔ s ∈ T.post) := by
  have := edge_ok hT h
  simp only [NetTab.edge, Bool.and_eq_true, Bool.or_eq_true, Bool.not_eq_true', decide_eq_true_eq, List.contains_eq_mem,
    decide_eq_false_iff_not, beq_iff_eq] at this
  obtain ⟨⟨⟨h1, h2⟩, h3⟩, h4⟩ := this
  refine ⟨h1, h2, fun h => h3.resolve_left (fun h' => h' h), ?_⟩
  simpa using h4

theorem edge_atom (hT : T.ok A = true) {s t : Nat} {k : Int} (h : .atom k t ∈ A.out s) :
    A.ruleOf t = A.ruleOf s ∧ s ∉ T.post ∧ (k = -1 → t ∈ T.post ∧ A.ruleOf s = 0) ∧ (k ≠ -1 → t ∉ T.post) := by
  have := edge_ok hT h
  simp only [NetTab.edge, Bool.and_eq_true, Bool.not_eq_true', decide_eq_true_eq, List.contains_eq_mem,
    decide_eq_false_iff_not] at this
  obtain ⟨⟨h1, h2⟩, h3⟩ := this
  refine ⟨h1, h2, fun hk => ?_, fun hk => ?_⟩
  · rw [if_pos hk] at h3
    simp only [Bool.and_eq_true, decide_eq_true_eq] at h3
    exact ⟨h3.1.1.1, h3.1.1.2⟩
  · rw [if_neg hk] at h3
    simpa using h3

theorem edge_set (hT : T.ok A = true) {s t : Nat} {l : List (Int × Int)} (h : .set l t ∈ A.out s) :
    A.ruleOf t = A.ruleOf s ∧ s ∉ T.post ∧ t ∉ T.post ∧ ∀ p ∈ l, 0 ≤ p.1 := by
  have := edge_ok hT h
  simp only [NetTab.edge, Bool.and_eq_true, Bool.not_eq_true', decide_eq_true_eq, List.contains_eq_mem,
    decide_eq_false_iff_not, List.all_eq_true] at this
  exact ⟨this.1.1.1, this.1.1.2, this.1.2, this.2⟩

theorem edge_rule (hT : T.ok A = true) {s start i f : Nat} (h : .rule start i f ∈ A.out s) :
    A.ruleOf start = i ∧ A.ruleOf f = A.ruleOf s ∧ i ≠ 0 ∧ i < 23 ∧ f < A.states.length ∧ A.rules[i]? = some (start, 0) ∧
      T.rk start < T.rk s ∧ start ∉ T.ends ∧ s ∉ T.post ∧ f ∉ T.post := by
  have := edge_ok hT h
  simp only [NetTab.edge, Bool.and_eq_true, Bool.not_eq_true', decide_eq_true_eq, List.contains_eq_mem,
    decide_eq_false_iff_not] at this
  obtain ⟨⟨⟨⟨⟨⟨⟨⟨⟨h1, h2⟩, h3⟩, h4⟩, h5⟩, h6⟩, h7⟩, h8⟩, h9⟩, h10⟩ := this
  exact ⟨h1, h2, h3, h4, h5, h6, h7, h8, h9, h10⟩

theorem edge_notSet (hT : T.ok A = true) {s t : Nat} {l : List (Int × Int)} (h : .notSet l t ∈ A.out s) : False := by
  have := edge_ok hT h
  simp [NetTab.edge] at this

theorem edge_action (hT : T.ok A = true) {s t i : Nat} (h : .action i t ∈ A.out s) : False := by
  have := edge_ok hT h
  simp [NetTab.edge] at this

theorem rk_le (hT : T.ok A = true) {s : Nat} (h : s < A.states.length) : T.rk s ≤ A.states.length := by
  have := state_ok hT h
  simp only [NetTab.stateOk, Bool.and_eq_true, decide_eq_true_eq] at this
  exact this.1.1.1

theorem stop_ok (hT : T.ok A = true) {s : Nat} (h : A.isStop s = true) :
    A.out s = [] ∧ s ∈ T.ends ∧ (A.ruleOf s = 0 → s = T.last ∧ s ∈ T.post) := by
  have := state_ok hT (lt_of_stop h)
  simp only [NetTab.stateOk, Bool.and_eq_true, Bool.or_eq_true, Bool.not_eq_true', decide_eq_true_eq, List.contains_eq_mem,
    List.isEmpty_iff, h] at this
  obtain ⟨⟨⟨-, -⟩, h3⟩, -⟩ := this
  rcases h3 with h3 | h3
  · cases h3
  · exact ⟨h3.1.1, h3.1.2, fun h0 => h3.2.resolve_left (fun h' => by simp [h0] at h')⟩

theorem post_rule (hT : T.ok A = true) {s : Nat} (h : s < A.states.length) (hp : s ∈ T.post) : A.ruleOf s = 0 := by
  have := state_ok hT h
  simp only [NetTab.stateOk, Bool.and_eq_true, Bool.or_eq_true, Bool.not_eq_true', decide_eq_true_eq, List.contains_eq_mem,
    decide_eq_false_iff_not] at this
  exact this.2.resolve_left (fun h' => h' hp)

theorem decision_ok (hT : T.ok A = true) {d s : Nat} (h : A.decisions[d]? = some s) :
    s < A.states.length ∧ s ∉ T.post ∧ ∀ t ∈ A.out s, ∃ s', t = .eps s' := by
  simp only [NetTab.ok, Bool.and_eq_true, List.all_eq_true] at hT
  have := hT.2 s (List.mem_of_getElem? h)
  simp only [decide_eq_true_eq, Bool.not_eq_true', List.contains_eq_mem, decide_eq_false_iff_not] at this
  refine ⟨this.1.1, this.1.2, fun t ht => ?_⟩
  have h2 := this.2 t ht
  cases t with
  | eps s' => exact ⟨s', rfl⟩
  | _ => simp at h2

/-! ### Runs with a stack of return states -/

/-- From state `s`, with return states `stk`, the tokens can be consumed up to the end. -/
inductive Run (A : Atn) : Nat → List Nat → List Tok → Prop
  | done {s : Nat} : A.isStop s = true → Run A s [] []
  | ret {s r : Nat} {stk : List Nat} {ts : List Tok} : A.isStop s = true → Run A r stk ts → Run A s (r :: stk) ts
  | eps {s t : Nat} {stk : List Nat} {ts : List Tok} : .eps t ∈ A.out s → Run A t stk ts → Run A s stk ts
  | atom {s t : Nat} {stk : List Nat} {x : Tok} {ts : List Tok} : .atom x.type.num t ∈ A.out s → Run A t stk ts → Run A s stk (x :: ts)
  | set {s t : Nat} {stk : List Nat} {l : List (Int × Int)} {x : Tok} {ts : List Tok} :
      .set l t ∈ A.out s → InIntervals x.type.num l → Run A t stk ts → Run A s stk (x :: ts)
  | call {s start i t : Nat} {stk : List Nat} {ts : List Tok} : .rule start i t ∈ A.out s → Run A start (t :: stk) ts → Run A s stk ts

theorem walk_run {s : Nat} {us : List Tok} {f : List PTree} (h : Walk A s us f) : ∀ (stk : List Nat) (vs : List Tok),
    (∀ p, A.isStop p = true → Run A p stk vs) → Run A s stk (us ++ vs) := by
  induction h with
  | stop h => exact fun stk vs hk => hk _ h
  | eps h _ ih => exact fun stk vs hk => .eps h (ih stk vs hk)
  | atom h _ ih => exact fun stk vs hk => .atom h (ih stk vs hk)
  | set h hi _ ih => exact fun stk vs hk => .set h hi (ih stk vs hk)
  | rule h _ _ ih1 ih2 =>
    intro stk vs hk
    rw [List.append_assoc]
    exact .call h (ih1 _ _ fun p hp => .ret hp (ih2 stk vs hk))

theorem accepts_run {s : Nat} {ctx : List Nat} {ts : List Tok} (h : Accepts A s ctx ts) : Run A s (A.returnStates ctx) ts := by
  induction h with
  | done h => have := walk_run h [] [] fun p hp => .done hp; rw [List.append_nil] at this; exact this
  | @ret s st t ctx us vs f h hf _ ih =>
    have : A.returnStates (st :: ctx) = t :: A.returnStates ctx := by
      unfold Atn.follow at hf
      unfold Atn.returnStates
      split at hf
      · rename_i heq; cases hf; simp [heq]
      · cases hf
    rw [this]
    exact walk_run h _ _ fun p hp => .ret hp ih

/-- As `Accepts`, with return states. -/
inductive AcceptsR (A : Atn) : Nat → List Nat → List Tok → Prop
  | done {s : Nat} {ts : List Tok} {f : List PTree} : Walk A s ts f → AcceptsR A s [] ts
  | ret {s r : Nat} {stk : List Nat} {us vs : List Tok} {f : List PTree} :
      Walk A s us f → AcceptsR A r stk vs → AcceptsR A s (r :: stk) (us ++ vs)

theorem Rule.exists_num {i : Nat} (h : i < 23) : ∃ r : Rule, r.num = i := by
  have : ∀ i < 23, ∃ r ∈ ([.query, .main_query, .query_disjunction, .query_sequence, .query_group, .query_simple, .quantifier,
      .query_implicit, .query_segment, .within_part, .within_part_simple, .expression, .expression_or, .expression_and,
      .expression_group, .expression_not, .expression_basic, .attribute_, .qualifier, .identifier, .regexp, .regexp_pattern,
      .regexp_flag] : List Rule), r.num = i := by decide
  obtain ⟨r, -, hr⟩ := this i h
  exact ⟨r, hr⟩

theorem run_acceptsR (hT : T.ok A = true) {s : Nat} {stk : List Nat} {ts : List Tok} (h : Run A s stk ts) : AcceptsR A s stk ts := by
  induction h with
  | done h => exact .done (.stop h)
  | ret h _ ih => exact .ret (us := []) (.stop h) ih
  | eps h _ ih =>
    cases ih with
    | done hw => exact .done (.eps h hw)
    | ret hw ha => exact .ret (.eps h hw) ha
  | atom h _ ih =>
    cases ih with
    | done hw => exact .done (.atom h hw)
    | ret hw ha => exact .ret (us := _ :: _) (.atom h hw) ha
  | set h hi _ ih =>
    cases ih with
    | done hw => exact .done (.set h hi hw)
    | ret hw ha => exact .ret (us := _ :: _) (.set h hi hw) ha
  | @call s start i t stk ts h _ ih =>
    obtain ⟨r, rfl⟩ := Rule.exists_num (edge_rule hT h).2.2.2.1
    cases ih with
    | ret hw ha =>
      cases ha with
      | done hw' => exact .done (.rule h hw hw')
      | ret hw' ha' => rw [← List.append_assoc]; exact .ret (.rule h hw hw') ha'

theorem acceptsR_accepts {s : Nat} {stk : List Nat} {ts : List Tok} (h : AcceptsR A s stk ts) :
    ∀ ctx, A.returnStates ctx = stk → (∀ st ∈ ctx, ∃ t, A.follow st = some t) → Accepts A s ctx ts := by
  have hf : ∀ st t ctx, A.follow st = some t → A.returnStates (st :: ctx) = t :: A.returnStates ctx := by
    intro st t ctx hf
    unfold Atn.follow at hf
    unfold Atn.returnStates
    split at hf
    · rename_i heq; cases hf; simp [heq]
    · cases hf
  induction h with
  | done hw =>
    intro ctx hc hall
    cases ctx with
    | nil => exact .done hw
    | cons st ctx =>
      obtain ⟨t, ht⟩ := hall st (by simp)
      rw [hf _ _ _ ht] at hc; cases hc
  | ret hw _ ih =>
    intro ctx hc hall
    cases ctx with
    | nil => cases hc
    | cons st ctx =>
      obtain ⟨t, ht⟩ := hall st (by simp)
      rw [hf _ _ _ ht] at hc
      cases hc
      exact .ret hw ht (ih ctx rfl fun st' h' => hall st' (by simp [h']))

/-! ### Stacks that calls can produce -/

/-- The return states fit: each is the follow state of a call of the rule that is left. -/
def FitStack (A : Atn) (s : Nat) : List Nat → Prop
  | [] => A.ruleOf s = 0
  | r :: stk => (∃ st start i : Nat, .rule start i r ∈ A.out st ∧ (i : Int) = A.ruleOf s) ∧ FitStack A r stk

theorem FitStack.of_rule {s s' : Nat} {stk : List Nat} (h : FitStack A s stk) (hr : A.ruleOf s' = A.ruleOf s) : FitStack A s' stk := by
  cases stk with
  | nil => exact hr.trans h
  | cons r stk => exact ⟨by rw [hr]; exact h.1, h.2⟩

theorem calls_fit (hT : T.ok A = true) {i : Int} {ctx : List Nat} (h : Calls A i ctx) : ∀ s, A.ruleOf s = i → FitStack A s (A.returnStates ctx) := by
  induction h with
  | root => exact fun s hs => hs
  | @call st start i t ctx ho _ ih =>
    intro s hs
    have : A.returnStates (st :: ctx) = t :: A.returnStates ctx := by simp [Atn.returnStates, ho]
    rw [this]
    have hm : Trans.rule start i t ∈ A.out st := by simp [ho]
    exact ⟨⟨st, start, i, hm, hs.symm⟩, ih t (edge_rule hT hm).2.1⟩

theorem calls_follow {i : Int} {ctx : List Nat} (h : Calls A i ctx) : ∀ st ∈ ctx, ∃ t, A.follow st = some t := by
  induction h with
  | root => intro st h; cases h
  | @call st start i t ctx ho _ ih =>
    intro st' h'
    rcases List.mem_cons.1 h' with rfl | h'
    · exact ⟨t, by simp [Atn.follow, ho]⟩
    · exact ih st' h'

theorem followLinks_nil (hT : T.ok A = true) {s : Nat} (h : A.ruleOf s = 0) : A.followLinks s = [] := by
  unfold Atn.followLinks
  rw [List.flatMap_eq_nil_iff]
  intro st hst
  rw [List.filterMap_eq_nil_iff]
  intro t ht
  obtain ⟨n, hn, rfl⟩ := List.getElem_of_mem hst
  have hm : t ∈ A.out n := by simp [Atn.out, List.getElem?_eq_getElem hn, ht]
  cases t with
  | rule start i f =>
    have := (edge_rule hT hm).2.2.1
    simp only [h, ite_eq_right_iff, Bool.and_eq_true, decide_eq_true_eq]
    intro h'; omega
  | _ => rfl

theorem mem_followLinks {s r st start i : Nat} (hs : A.isStop s = true) (hm : .rule start i r ∈ A.out st) (hi : (i : Int) = A.ruleOf s) :
    r ∈ A.followLinks s := by
  unfold Atn.followLinks
  rw [List.mem_flatMap]
  have hlt := lt_of_out hm
  refine ⟨A.states[st], List.getElem_mem hlt, ?_⟩
  rw [List.mem_filterMap]
  refine ⟨.rule start i r, ?_, by simp [hs, hi]⟩
  simpa [Atn.out, List.getElem?_eq_getElem hlt] using hm

/-! ### What the closure finds -/

/-- `stk` stands for `real`: it is equal to it, or (without context) its beginning. -/
def Stands (full : Bool) (stk real : List Nat) : Prop := stk <+: real ∧ (full = true → stk = real)

/-- The next step of the run consumes a token, or the run is at its end. -/
def Front (A : Atn) (s : Nat) (stk : List Nat) (ts : List Tok) : Prop :=
  (A.isStop s = true ∧ stk = [] ∧ ts = []) ∨
  ∃ x ts' e t, ts = x :: ts' ∧ e ∈ A.out s ∧ A.matchesTok x.type.num e = some t ∧ Run A t stk ts'

/-- Steps that consume no token, for one state and stack; the list are the states reached by leaving a rule without
context. -/
inductive Path (A : Atn) (full : Bool) : Nat → List Nat → List Nat → Nat → List Nat → Prop
  | here {s : Nat} {stk : List Nat} : Path A full s stk [] s stk
  | eps {s t s' : Nat} {stk l stk' : List Nat} : .eps t ∈ A.out s → Path A full t stk l s' stk' → Path A full s stk l s' stk'
  | call {s start i t s' : Nat} {stk l stk' : List Nat} :
      .rule start i t ∈ A.out s → Path A full start (t :: stk) l s' stk' → Path A full s stk l s' stk'
  | pop {s r s' : Nat} {stk l stk' : List Nat} : A.isStop s = true → Path A full r stk l s' stk' → Path A full s (r :: stk) l s' stk'
  | follow {s t s' : Nat} {l stk' : List Nat} : full = false → A.isStop s = true → t ∈ A.followLinks s →
      Path A full t [] l s' stk' → Path A full s [] (t :: l) s' stk'

theorem Path.split {full : Bool} {s s' : Nat} {stk l stk' : List Nat} (h : Path A full s stk l s' stk') :
    ∀ a t b, l = a ++ t :: b → Path A full t [] b s' stk' := by
  induction h with
  | here => intro a t b h; cases a <;> cases h
  | eps _ _ ih => exact ih
  | call _ _ ih => exact ih
  | pop _ _ ih => exact ih
  | follow _ _ _ hp ih =>
    intro a t b h
    cases a with
    | nil => simp only [List.nil_append, List.cons.injEq] at h; obtain ⟨rfl, rfl⟩ := h; exact hp
    | cons a0 a => simp only [List.cons_append, List.cons.injEq] at h; exact ih a t b h.2

theorem Path.nodup {full : Bool} {s s' : Nat} {stk l stk' : List Nat} (h : Path A full s stk l s' stk') :
    ∃ l', l'.Nodup ∧ Path A full s stk l' s' stk' := by
  induction h with
  | here => exact ⟨[], by simp, .here⟩
  | eps h _ ih => obtain ⟨l', h1, h2⟩ := ih; exact ⟨l', h1, .eps h h2⟩
  | call h _ ih => obtain ⟨l', h1, h2⟩ := ih; exact ⟨l', h1, .call h h2⟩
  | pop h _ ih => obtain ⟨l', h1, h2⟩ := ih; exact ⟨l', h1, .pop h h2⟩
  | @follow s t s' l stk' hf hs ht _ ih =>
    obtain ⟨l', h1, h2⟩ := ih
    by_cases hm : t ∈ l'
    · obtain ⟨a, b, rfl⟩ := List.append_of_mem hm
      exact ⟨t :: b, (List.nodup_append.1 h1).2.1, .follow hf hs ht (h2.split a t b rfl)⟩
    · exact ⟨t :: l', List.nodup_cons.2 ⟨hm, h1⟩, .follow hf hs ht h2⟩

theorem run_path (hT : T.ok A = true) (full : Bool) {s : Nat} {real : List Nat} {ts : List Tok} (h : Run A s real ts) :
    ∀ stk, FitStack A s real → Stands full stk real → ∃ l s' stk' real', Path A full s stk l s' stk' ∧ Stands full stk' real' ∧
      FitStack A s' real' ∧ Front A s' real' ts := by
  induction h with
  | done h => exact fun stk hv hc => ⟨[], _, stk, [], .here, hc, hv, .inl ⟨h, rfl, rfl⟩⟩
  | @ret s r real ts h _ ih =>
    intro stk hv hc
    cases stk with
    | nil =>
      have hfull : full = false := by
        cases full with
        | false => rfl
        | true => cases hc.2 rfl
      obtain ⟨⟨st, start, i, hm, hi⟩, hv'⟩ := hv
      obtain ⟨l, s', stk', real', hp, h2⟩ := ih [] hv' ⟨List.nil_prefix, fun h => by rw [hfull] at h; cases h⟩
      exact ⟨r :: l, s', stk', real', .follow hfull h (mem_followLinks h hm hi) hp, h2⟩
    | cons r' stk =>
      obtain ⟨h1, h2⟩ := hc
      rw [List.cons_prefix_cons] at h1
      obtain ⟨rfl, h1⟩ := h1
      obtain ⟨l, s', stk', real', hp, h3⟩ := ih stk hv.2 ⟨h1, fun hf => by simpa using h2 hf⟩
      exact ⟨l, s', stk', real', .pop h hp, h3⟩
  | eps h _ ih =>
    intro stk hv hc
    obtain ⟨l, s', stk', real', hp, h2⟩ := ih stk (hv.of_rule (edge_eps hT h).1) hc
    exact ⟨l, s', stk', real', .eps h hp, h2⟩
  | @atom s t stk0 x ts h hr _ =>
    exact fun stk hv hc => ⟨[], _, stk, _, .here, hc, hv, .inr ⟨x, ts, _, t, rfl, h, by simp [Atn.matchesTok], hr⟩⟩
  | @set s t stk0 l x ts h hi hr _ =>
    refine fun stk hv hc => ⟨[], _, stk, _, .here, hc, hv, .inr ⟨x, ts, _, t, rfl, h, ?_, hr⟩⟩
    have : (l.any fun p => decide (p.1 ≤ x.type.num) && decide (x.type.num ≤ p.2)) = true := by
      obtain ⟨p, hp, h1, h2⟩ := hi
      exact List.any_eq_true.2 ⟨p, hp, by simp [h1, h2]⟩
    simp only [Atn.matchesTok, this, if_true]
  | @call s start i t real ts h _ ih =>
    intro stk hv hc
    obtain ⟨h1, h2, -⟩ := edge_rule hT h
    obtain ⟨l, s', stk', real', hp, h3⟩ := ih (t :: stk) ⟨⟨s, start, i, h, h1.symm⟩, hv.of_rule h2⟩
      ⟨by rw [List.cons_prefix_cons]; exact ⟨rfl, hc.1⟩, fun hf => by rw [hc.2 hf]⟩
    exact ⟨l, s', stk', real', .call h hp, h3⟩

/-- How much of `busy` is left. -/
def Atn.free (A : Atn) (busy : List Nat) : Nat := ((List.range A.states.length).filter fun t => t ∉ busy).length

theorem free_cons_lt {t : Nat} {busy : List Nat} (h : t < A.states.length) (hb : t ∉ busy) : A.free (t :: busy) < A.free busy := by
  unfold Atn.free
  have : ((List.range A.states.length).filter fun x => x ∉ t :: busy) =
      (((List.range A.states.length).filter fun x => x ∉ busy).filter fun x => x ≠ t) := by
    rw [List.filter_filter]
    congr 1
    funext x
    simp [not_or, Bool.and_comm]
  rw [this]
  refine List.length_filter_lt_length_iff_exists.2 ⟨t, ?_, by simp⟩
  simp [h, hb]

theorem free_le (busy : List Nat) : A.free busy ≤ A.states.length := by
  unfold Atn.free
  exact Nat.le_trans (List.length_filter_le _ _) (by simp)

/-- A bound for the paths from a state with a stack. -/
def NetTab.mu (T : NetTab) (A : Atn) (s : Nat) (stk busy : List Nat) : Nat :=
  T.rk s + if s ∈ T.ends then (A.states.length + 1) * (stk.length + A.free busy) else 0

/-- The closure puts the configuration itself into the set. -/
def Stays (A : Atn) (full : Bool) (s : Nat) (stk : List Nat) : Prop :=
  (A.isStop s = true ∧ stk = [] ∧ (full = true ∨ A.followLinks s = [])) ∨ (A.isStop s = false ∧ (A.out s).all Atn.isEps = false)

theorem followLinks_lt (hT : T.ok A = true) {s t : Nat} (h : t ∈ A.followLinks s) : t < A.states.length := by
  unfold Atn.followLinks at h
  rw [List.mem_flatMap] at h
  obtain ⟨st, hst, ht⟩ := h
  rw [List.mem_filterMap] at ht
  obtain ⟨e, he, het⟩ := ht
  obtain ⟨n, hn, rfl⟩ := List.getElem_of_mem hst
  have hm : e ∈ A.out n := by simp [Atn.out, List.getElem?_eq_getElem hn, he]
  cases e with
  | rule start i f =>
    simp only at het
    split at het
    · cases het; exact (edge_rule hT hm).2.2.2.2.1
    · cases het
  | _ => cases het

theorem closure_path (hT : T.ok A = true) {full : Bool} {s s' : Nat} {stk l stk' : List Nat} (h : Path A full s stk l s' stk')
    (hs : Stays A full s' stk') (eof : Bool) : ∀ (n : Nat) (busy : List Nat) (alt o : Nat), l.Nodup → (∀ t ∈ l, t ∉ busy) →
      (∀ r ∈ stk, r < A.states.length) → T.mu A s stk busy < n →
      ∃ o', (⟨s', alt, stk', o'⟩ : AConfig) ∈ A.closure full eof n busy ⟨s, alt, stk, o⟩ := by
  induction h with
  | here =>
    intro n busy alt o _ _ _ hn
    obtain ⟨n, rfl⟩ : ∃ m, n = m + 1 := ⟨n - 1, by omega⟩
    refine ⟨o, ?_⟩
    rcases hs with ⟨h1, rfl, h3⟩ | ⟨h1, h2⟩
    · simp only [Atn.closure, h1, if_true]
      rcases h3 with rfl | h3
      · simp
      · cases full <;> simp [h3]
    · simp [Atn.closure, h1, h2]
  | @eps s t s' stk l stk' he hp ih =>
    intro n busy alt o hl hb hst hn
    obtain ⟨n, rfl⟩ : ∃ m, n = m + 1 := ⟨n - 1, by omega⟩
    obtain ⟨-, h2, h3, -⟩ := edge_eps hT he
    have hmu : T.mu A t stk busy < n := by
      unfold NetTab.mu at hn ⊢
      by_cases ht : t ∈ T.ends
      · rw [if_pos ht]; rw [if_pos (h3 ht)] at hn; omega
      · rw [if_neg ht]; omega
    obtain ⟨o', ho'⟩ := ih hs n busy alt o hl hb hst hmu
    refine ⟨o', ?_⟩
    have hns : A.isStop s = false := by
      cases h : A.isStop s with
      | false => rfl
      | true => rw [(stop_ok hT h).1] at he; cases he
    simp only [Atn.closure, hns, Bool.false_eq_true, if_false]
    refine List.mem_append_right _ (List.mem_flatMap.2 ⟨_, he, ?_⟩)
    exact ho'
  | @call s start i t s' stk l stk' he hp ih =>
    intro n busy alt o hl hb hst hn
    obtain ⟨n, rfl⟩ : ∃ m, n = m + 1 := ⟨n - 1, by omega⟩
    obtain ⟨-, -, -, -, hft, -, h2, h3, -⟩ := edge_rule hT he
    have hmu : T.mu A start (t :: stk) busy < n := by
      unfold NetTab.mu at hn ⊢
      rw [if_neg h3]; omega
    obtain ⟨o', ho'⟩ := ih hs n busy alt o hl hb (fun r hr => by
      rcases List.mem_cons.1 hr with rfl | hr
      · exact hft
      · exact hst r hr) hmu
    refine ⟨o', ?_⟩
    have hns : A.isStop s = false := by
      cases h : A.isStop s with
      | false => rfl
      | true => rw [(stop_ok hT h).1] at he; cases he
    simp only [Atn.closure, hns, Bool.false_eq_true, if_false]
    refine List.mem_append_right _ (List.mem_flatMap.2 ⟨_, he, ?_⟩)
    exact ho'
  | @pop s r s' stk l stk' he hp ih =>
    intro n busy alt o hl hb hst hn
    obtain ⟨n, rfl⟩ : ∃ m, n = m + 1 := ⟨n - 1, by omega⟩
    have hmu : T.mu A r stk busy < n := by
      unfold NetTab.mu at hn ⊢
      rw [if_pos (stop_ok hT he).2.1] at hn
      have h1 := rk_le hT (hst r (by simp))
      have h2 : (A.states.length + 1) * ((r :: stk).length + A.free busy) =
          (A.states.length + 1) * (stk.length + A.free busy) + (A.states.length + 1) := by
        rw [List.length_cons, show stk.length + 1 + A.free busy = (stk.length + A.free busy) + 1 by omega, Nat.mul_succ]
      rw [h2] at hn
      split <;> omega
    obtain ⟨o', ho'⟩ := ih hs n busy alt o hl hb (fun r' hr' => hst r' (by simp [hr'])) hmu
    refine ⟨o', ?_⟩
    simp only [Atn.closure, he, if_true]
    exact ho'
  | @follow s t s' l stk' hf he ht hp ih =>
    intro n busy alt o hl hb hst hn
    obtain ⟨n, rfl⟩ : ∃ m, n = m + 1 := ⟨n - 1, by omega⟩
    have htb : t ∉ busy := hb t (by simp)
    have hmu : T.mu A t [] (t :: busy) < n := by
      unfold NetTab.mu at hn ⊢
      rw [if_pos (stop_ok hT he).2.1] at hn
      have h1 := rk_le hT (followLinks_lt hT ht)
      have h0 := free_cons_lt (followLinks_lt hT ht) htb
      have h2 : (A.states.length + 1) * (([] : List Nat).length + A.free (t :: busy)) + (A.states.length + 1) ≤
          (A.states.length + 1) * (([] : List Nat).length + A.free busy) := by
        rw [← Nat.mul_succ]
        exact Nat.mul_le_mul_left _ (by simp only [List.length_nil]; omega)
      split <;> omega
    obtain ⟨o', ho'⟩ := ih hs n (t :: busy) alt (o + 1) (List.nodup_cons.1 hl).2 (fun x hx hxb => by
      rcases List.mem_cons.1 hxb with rfl | hxb
      · exact (List.nodup_cons.1 hl).1 hx
      · exact hb x (by simp [hx]) hxb) (fun _ h => (by cases h)) hmu
    refine ⟨o', ?_⟩
    subst hf
    simp only [Atn.closure, he, if_true, Bool.false_eq_true, if_false]
    refine List.mem_append_right _ (List.mem_flatMap.2 ⟨_, ht, ?_⟩)
    rw [if_neg htb]
    exact ho'

theorem matches_nonEps {k : Int} {e : Trans} {t : Nat} (h : A.matchesTok k e = some t) : Atn.isEps e = false := by
  cases e <;> simp_all [Atn.matchesTok, Atn.isEps]

theorem front_stays (hT : T.ok A = true) {full : Bool} {s : Nat} {stk real : List Nat} {ts : List Tok} (hc : Stands full stk real)
    (hv : FitStack A s real) (h : Front A s real ts) : Stays A full s stk := by
  rcases h with ⟨h1, rfl, -⟩ | ⟨x, ts', e, t, rfl, he, hm, -⟩
  · refine .inl ⟨h1, List.prefix_nil.1 hc.1, .inr (followLinks_nil hT hv)⟩
  · refine .inr ⟨?_, ?_⟩
    · cases h : A.isStop s with
      | false => rfl
      | true => rw [(stop_ok hT h).1] at he; cases he
    · rw [List.all_eq_false]
      exact ⟨e, he, by simp [matches_nonEps hm]⟩

/-- From a configuration that stands for a run, the closure finds one that stands for the run before its next token. -/
theorem closureOf_complete (hT : T.ok A = true) (full eof : Bool) {c : AConfig} {real : List Nat} {ts : List Tok}
    (hr : Run A c.state real ts) (hv : FitStack A c.state real) (hc : Stands full c.stack real) (hlt : c.state < A.states.length) :
    ∃ c' ∈ A.closureOf full eof c, c'.alt = c.alt ∧ ∃ real', Stands full c'.stack real' ∧ FitStack A c'.state real' ∧
      Front A c'.state real' ts := by
  obtain ⟨l, s', stk', real', hp, h1, h2, h3⟩ := run_path hT full hr c.stack hv hc
  obtain ⟨l', hn, hp'⟩ := hp.nodup
  have hst : ∀ r ∈ real, r < A.states.length := by
    clear hr hc hp hp' hlt
    generalize c.state = s at hv
    induction real generalizing s with
    | nil => intro r h; cases h
    | cons r real ih =>
      intro x hx
      obtain ⟨⟨st, start, i, hm, -⟩, hv'⟩ := hv
      rcases List.mem_cons.1 hx with rfl | hx
      · exact (edge_rule hT hm).2.2.2.2.1
      · exact ih r hv' x hx
  have hb : T.mu A c.state c.stack [] < A.pathBound c := by
    unfold NetTab.mu Atn.pathBound
    have h1 := rk_le hT hlt
    have h2 := free_le (A := A) []
    have h3 : (A.states.length + 1) * (c.stack.length + A.free []) ≤ (A.states.length + 1) * (c.stack.length + A.states.length) :=
      Nat.mul_le_mul_left _ (by omega)
    have h4 : (A.states.length + 1) * (c.stack.length + A.states.length + 2) =
      (A.states.length + 1) * (c.stack.length + A.states.length) + (A.states.length + 1) * 2 := by rw [Nat.mul_add]
    split <;> omega
  obtain ⟨o', ho'⟩ := closure_path hT hp' (front_stays hT h1 h2 h3) eof (A.pathBound c) [] c.alt c.outer hn (by simp)
    (fun r hr => hst r (hc.1.subset hr)) hb
  exact ⟨_, ho', rfl, real', h1, h2, h3⟩

/-! ### Sets of configurations -/

/-- `d'` stands for `d` in a set: same state and alternative, and a stack that is equal or (without context) a beginning. -/
def AConfig.Rep (full : Bool) (d d' : AConfig) : Prop := d'.state = d.state ∧ d'.alt = d.alt ∧ Stands full d'.stack d.stack

theorem Stands.trans {full : Bool} {a b c : List Nat} (h : Stands full a b) (h' : Stands full b c) : Stands full a c :=
  ⟨h.1.trans h'.1, fun hf => (h.2 hf).trans (h'.2 hf)⟩

theorem Stands.refl (full : Bool) (a : List Nat) : Stands full a a := ⟨List.prefix_rfl, fun _ => rfl⟩

theorem swallows_iff (full : Bool) (a b : List Nat) : AConfigSet.swallows full a b = true ↔ Stands full a b := by
  cases full
  · simp [AConfigSet.swallows, Stands]
  · simp only [AConfigSet.swallows, if_true, beq_iff_eq, Stands]
    constructor
    · rintro rfl; exact ⟨List.prefix_rfl, fun _ => rfl⟩
    · exact fun h => h.2 trivial

theorem mem_add (full : Bool) (S : AConfigSet) (c d : AConfig) (h : d ∈ AConfigSet.add full S c) :
    (∃ o, { d with outer := o } ∈ S) ∨ ∃ o, d = { c with outer := o } := by
  have hS' : ∀ (f : AConfig → Bool) (o : Nat), d ∈ S.map (fun d => if f d then { d with outer := o } else d) → ∃ o, { d with outer := o } ∈ S := by
    intro f o hd
    obtain ⟨e, he, rfl⟩ := List.mem_map.1 hd
    refine ⟨e.outer, ?_⟩
    split <;> exact he
  simp only [AConfigSet.add] at h
  split at h
  · exact .inl (hS' _ _ h)
  · rcases List.mem_append.1 h with h | h
    · exact .inl (hS' _ _ ((List.mem_filter.1 h).1))
    · exact .inr ⟨_, List.mem_singleton.1 h⟩

theorem add_rep (full : Bool) (S : AConfigSet) (c d : AConfig) (h : d ∈ S ∨ d = c) : ∃ d' ∈ AConfigSet.add full S c, d.Rep full d' := by
  simp only [AConfigSet.add]
  generalize List.foldl _ _ _ = o
  have hsame' : ∀ x, AConfigSet.sameKey c x = true ↔ x.state = c.state ∧ x.alt = c.alt := by intro x; simp [AConfigSet.sameKey]
  generalize hS' : S.map (fun d => if AConfigSet.sameKey c d then { d with outer := o } else d) = S'
  have hmem : ∀ x ∈ S, ∃ x' ∈ S', x'.state = x.state ∧ x'.alt = x.alt ∧ x'.stack = x.stack := by
    intro x hx
    rw [← hS']
    refine ⟨_, List.mem_map.2 ⟨x, hx, rfl⟩, ?_⟩
    split <;> exact ⟨rfl, rfl, rfl⟩
  split
  · rename_i hany
    rcases h with h | rfl
    · obtain ⟨x', h1, h2, h3, h4⟩ := hmem d h
      exact ⟨x', h1, h2, h3, by rw [h4]; exact .refl full _⟩
    · obtain ⟨x, hx, hxs⟩ := List.any_eq_true.1 hany
      rw [Bool.and_eq_true, swallows_iff, hsame'] at hxs
      exact ⟨x, hx, hxs.1.1, hxs.1.2, hxs.2⟩
  · rcases h with h | rfl
    · obtain ⟨x', h1, h2, h3, h4⟩ := hmem d h
      by_cases hsw : (AConfigSet.sameKey c x' && AConfigSet.swallows full c.stack x'.stack) = true
      · refine ⟨_, List.mem_append_right _ (List.mem_singleton.2 rfl), ?_⟩
        rw [Bool.and_eq_true, swallows_iff, hsame'] at hsw
        exact ⟨hsw.1.1.symm.trans h2, hsw.1.2.symm.trans h3, by rw [← h4]; exact hsw.2⟩
      · refine ⟨x', List.mem_append_left _ (List.mem_filter.2 ⟨h1, ?_⟩), h2, h3, by rw [h4]; exact .refl full _⟩
        rw [Bool.not_eq_true] at hsw
        rw [hsw]; rfl
    · exact ⟨_, List.mem_append_right _ (List.mem_singleton.2 rfl), rfl, rfl, .refl full _⟩

theorem AConfig.Rep.trans {full : Bool} {a b c : AConfig} (h : a.Rep full b) (h' : b.Rep full c) : a.Rep full c :=
  ⟨h'.1.trans h.1, h'.2.1.trans h.2.1, h'.2.2.trans h.2.2⟩

theorem foldl_add_rep (full : Bool) (l : List AConfig) : ∀ (S : AConfigSet) (d : AConfig), d ∈ S ∨ d ∈ l →
    ∃ d' ∈ l.foldl (AConfigSet.add full) S, d.Rep full d' := by
  induction l with
  | nil => intro S d h; exact ⟨d, h.resolve_right (by simp), rfl, rfl, .refl full _⟩
  | cons c l ih =>
    intro S d h
    rw [List.foldl_cons]
    have : d ∈ S ∨ d = c ∨ d ∈ l := by rcases h with h | h; exact .inl h; exact .inr (List.mem_cons.1 h)
    rcases this with h | h | h
    · obtain ⟨d1, h1, h2⟩ := add_rep full S c d (.inl h)
      obtain ⟨d2, h3, h4⟩ := ih _ d1 (.inl h1)
      exact ⟨d2, h3, h2.trans h4⟩
    · obtain ⟨d1, h1, h2⟩ := add_rep full S c d (.inr h)
      obtain ⟨d2, h3, h4⟩ := ih _ d1 (.inl h1)
      exact ⟨d2, h3, h2.trans h4⟩
    · exact ih _ d (.inr h)

theorem mem_foldl_add (full : Bool) (l : List AConfig) : ∀ (S : AConfigSet) (d : AConfig), d ∈ l.foldl (AConfigSet.add full) S →
    ∃ o, { d with outer := o } ∈ S ∨ { d with outer := o } ∈ l := by
  induction l with
  | nil => exact fun S d h => ⟨d.outer, .inl h⟩
  | cons c l ih =>
    intro S d h
    rw [List.foldl_cons] at h
    obtain ⟨o, h | h⟩ := ih _ d h
    · rcases mem_add full S c _ h with ⟨o', h'⟩ | ⟨o', h'⟩
      · exact ⟨o', .inl h'⟩
      · refine ⟨c.outer, .inr (List.mem_cons.2 (.inl ?_))⟩
        simp only [AConfig.mk.injEq] at h'
        rw [AConfig.mk.injEq]
        exact ⟨h'.1, h'.2.1, h'.2.2.1, rfl⟩
    · exact ⟨o, .inr (List.mem_cons_of_mem _ h)⟩

theorem ofList_rep (full : Bool) (l : List AConfig) (d : AConfig) (h : d ∈ l) : ∃ d' ∈ AConfigSet.ofList full l, d.Rep full d' :=
  foldl_add_rep full l [] d (.inr h)

theorem mem_ofList (full : Bool) (l : List AConfig) (d : AConfig) (h : d ∈ AConfigSet.ofList full l) : ∃ o, { d with outer := o } ∈ l := by
  obtain ⟨o, h | h⟩ := mem_foldl_add full l [] d h
  · cases h
  · exact ⟨o, h⟩

/-! ### Alternatives found -/

/-- The set has a configuration of alternative `j` that stands for a run on the tokens, before its next token. -/
def Finds (A : Atn) (full : Bool) (S : AConfigSet) (j : Nat) (ts : List Tok) : Prop :=
  ∃ c ∈ S, c.alt = j ∧ ∃ real, Stands full c.stack real ∧ FitStack A c.state real ∧ Front A c.state real ts

/-- The same, anywhere in the run. -/
def FindsRun (A : Atn) (full : Bool) (S : AConfigSet) (j : Nat) (ts : List Tok) : Prop :=
  ∃ c ∈ S, c.alt = j ∧ c.state < A.states.length ∧ ∃ real, Stands full c.stack real ∧ FitStack A c.state real ∧ Run A c.state real ts

theorem Finds.rep {full : Bool} {S S' : AConfigSet} {j : Nat} {ts : List Tok} (h : Finds A full S j ts)
    (hs : ∀ d ∈ S, ∃ d' ∈ S', d.Rep full d') : Finds A full S' j ts := by
  obtain ⟨c, hc, h1, real, h2, h3, h4⟩ := h
  obtain ⟨c', hc', e1, e2, e3⟩ := hs c hc
  exact ⟨c', hc', e2.trans h1, real, e3.trans h2, e1 ▸ h3, e1 ▸ h4⟩

theorem FindsRun.rep {full : Bool} {S S' : AConfigSet} {j : Nat} {ts : List Tok} (h : FindsRun A full S j ts)
    (hs : ∀ d ∈ S, ∃ d' ∈ S', d.Rep full d') : FindsRun A full S' j ts := by
  obtain ⟨c, hc, h1, h0, real, h2, h3, h4⟩ := h
  obtain ⟨c', hc', e1, e2, e3⟩ := hs c hc
  exact ⟨c', hc', e2.trans h1, e1 ▸ h0, real, e3.trans h2, e1 ▸ h3, e1 ▸ h4⟩

theorem FindsRun.close (hT : T.ok A = true) {full : Bool} {S : AConfigSet} {j : Nat} {ts : List Tok} (eof : Bool) (h : FindsRun A full S j ts) :
    Finds A full (AConfigSet.ofList full (S.flatMap (A.closureOf full eof))) j ts := by
  obtain ⟨c, hc, rfl, h0, real, h2, h3, h4⟩ := h
  obtain ⟨c', hc', h5, real', h6, h7, h8⟩ := closureOf_complete hT full eof h4 h3 h2 h0
  refine Finds.rep (S := S.flatMap (A.closureOf full eof)) ⟨c', List.mem_flatMap.2 ⟨c, hc, hc'⟩, h5, real', h6, h7, h8⟩ ?_
  exact fun d hd => ofList_rep full _ d hd

theorem lt_of_rule {s : Nat} (h : A.ruleOf s ≠ -1) : s < A.states.length := by
  rcases Nat.lt_or_ge s A.states.length with h' | h'
  · exact h'
  · simp [Atn.ruleOf, List.getElem?_eq_none h'] at h

theorem matches_target (hT : T.ok A = true) {s t : Nat} {e : Trans} {k : Int} (he : e ∈ A.out s) (hm : A.matchesTok k e = some t) :
    A.ruleOf t = A.ruleOf s ∧ s ∉ T.post ∧ (k = -1 → t ∈ T.post ∧ A.ruleOf s = 0) ∧ (k ≠ -1 → t ∉ T.post) ∧
      ((∃ l, e = .set l t ∧ InIntervals k l) ∨ e = .atom k t) := by
  cases e with
  | eps t' => simp [Atn.matchesTok] at hm
  | atom l t' =>
    simp only [Atn.matchesTok] at hm
    split at hm
    · rename_i h; cases hm; subst h
      obtain ⟨h1, h2, h3, h4⟩ := edge_atom hT he
      exact ⟨h1, h2, h3, h4, .inr rfl⟩
    · cases hm
  | set l t' =>
    simp only [Atn.matchesTok] at hm
    split at hm
    · rename_i h; cases hm
      obtain ⟨h1, h2, h3, h4⟩ := edge_set hT he
      obtain ⟨p, hp, hk⟩ := List.any_eq_true.1 h
      simp only [Bool.and_eq_true, decide_eq_true_eq] at hk
      refine ⟨h1, h2, fun h => ?_, fun _ => h3, .inl ⟨l, rfl, p, hp, hk⟩⟩
      have := h4 p hp
      omega
    · cases hm
  | notSet l t' => exact (edge_notSet hT he).elim
  | rule a b c => simp [Atn.matchesTok] at hm
  | action a b => simp [Atn.matchesTok] at hm

theorem Finds.consume (hT : T.ok A = true) (hr0 : ∀ s, s < A.states.length → A.ruleOf s ≠ -1) {full : Bool} {S : AConfigSet} {j : Nat}
    {x : Tok} {ts : List Tok} (h : Finds A full S j (x :: ts)) : FindsRun A full (A.consumed full S x.type.num) j ts := by
  obtain ⟨c, hc, h1, real, h2, h3, h4⟩ := h
  rcases h4 with ⟨-, -, h⟩ | ⟨y, ts', e, t, hy, he, hm, hr⟩
  · cases h
  · cases hy
    have hns : A.isStop c.state = false := by
      cases h : A.isStop c.state with
      | false => rfl
      | true => rw [(stop_ok hT h).1] at he; cases he
    have hrt := (matches_target hT he hm).1
    refine FindsRun.rep (S := (S.filter fun c => !A.isStop c.state).flatMap fun c =>
      (A.out c.state).filterMap fun t => (A.matchesTok x.type.num t).map fun t' => { c with state := t' }) ?_
      (fun d hd => ofList_rep full _ d hd)
    refine ⟨{ c with state := t }, ?_, h1, ?_, real, h2, h3.of_rule hrt, hr⟩
    · refine List.mem_flatMap.2 ⟨c, List.mem_filter.2 ⟨hc, by simp [hns]⟩, List.mem_filterMap.2 ⟨e, he, by simp [hm]⟩⟩
    · exact lt_of_rule (by rw [hrt]; exact hr0 _ (lt_of_out he))

/-- After a token, all viable alternatives are still there; and if more than one is, before their next token. -/
theorem Finds.reach (hT : T.ok A = true) (hr0 : ∀ s, s < A.states.length → A.ruleOf s ≠ -1) {full : Bool} {S : AConfigSet} {j : Nat}
    {x : Tok} {ts : List Tok} (h : Finds A full S j (x :: ts)) (heof : x.type.num = -1 → ts = []) :
    (∃ c ∈ A.reachSet full S x.type.num, c.alt = j) ∧
      ((A.reachSet full S x.type.num).uniqueAlt = none → Finds A full (A.reachSet full S x.type.num) j ts) := by
  have hmid := h.consume hT hr0
  simp only [Atn.reachSet]
  split
  · rename_i hif
    obtain ⟨c, hc, h1, -⟩ := hmid
    refine ⟨⟨c, hc, h1⟩, fun hu => ?_⟩
    simp only [Bool.and_eq_true, Bool.or_eq_true, decide_eq_true_eq] at hif
    rcases hif.2 with hl | hl
    · obtain ⟨a, ha⟩ := List.length_eq_one_iff.1 hl
      rw [ha] at hu
      simp [AConfigSet.uniqueAlt] at hu
    · rw [hu] at hl; cases hl
  · have hcl := hmid.close hT (decide (x.type.num = -1))
    generalize AConfigSet.ofList full ((A.consumed full S x.type.num).flatMap (A.closureOf full (decide (x.type.num = -1)))) = R at hcl
    have hf : Finds A full (if x.type.num = -1 then R.filter fun c => A.isStop c.state else R) j ts := by
      split
      · rename_i hx
        have := heof hx
        subst this
        obtain ⟨c, hc, h1, real, h2, h3, h4⟩ := hcl
        have hst : A.isStop c.state = true := by
          rcases h4 with ⟨h, -⟩ | ⟨_, _, _, _, h, -⟩
          · exact h
          · cases h
        exact ⟨c, List.mem_filter.2 ⟨hc, hst⟩, h1, real, h2, h3, h4⟩
      · exact hcl
    generalize (if x.type.num = -1 then R.filter fun c => A.isStop c.state else R) = R' at hf
    have hfin : ∀ sk : List AConfig, ∀ b : Bool, Finds A full (if b then sk.foldl (AConfigSet.add full) R' else R') j ts := by
      intro sk b
      cases b
      · exact hf
      · exact hf.rep fun d hd => foldl_add_rep full sk R' d (.inl hd)
    have := hfin (S.filter fun c => A.isStop c.state && (full || decide (x.type.num = -1))) (!full || !(R'.any fun c => A.isStop c.state))
    refine ⟨?_, fun _ => this⟩
    obtain ⟨c, hc, h1, -⟩ := this
    exact ⟨c, hc, h1⟩

theorem mem_altConfigs {stk : List Nat} : ∀ (ts : List Trans) (i : Nat) (c : AConfig), c ∈ Atn.altConfigs stk i ts ↔
    ∃ k s, ts[k]? = some (.eps s) ∧ c = ⟨s, i + k, stk, 0⟩ := by
  intro ts
  induction ts with
  | nil => intro i c; simp [Atn.altConfigs]
  | cons t ts ih =>
    intro i c
    have hsucc : (∃ k s, ts[k]? = some (.eps s) ∧ c = ⟨s, i + 1 + k, stk, 0⟩) → ∃ k s, (t :: ts)[k]? = some (.eps s) ∧ c = ⟨s, i + k, stk, 0⟩ := by
      rintro ⟨k, s, h1, h2⟩
      exact ⟨k + 1, s, by simpa using h1, by rw [h2, Nat.add_assoc, Nat.add_comm 1 k]⟩
    have hpred : ∀ k s, (t :: ts)[k + 1]? = some (.eps s) → c = ⟨s, i + (k + 1), stk, 0⟩ →
        ∃ k s, ts[k]? = some (.eps s) ∧ c = ⟨s, i + 1 + k, stk, 0⟩ := by
      intro k s h1 h2
      exact ⟨k, s, by simpa using h1, by rw [h2, Nat.add_assoc, Nat.add_comm 1 k]⟩
    cases t with
    | eps s0 =>
      rw [Atn.altConfigs, List.mem_cons, ih]
      constructor
      · rintro (h | h)
        · exact ⟨0, s0, rfl, by rw [h]; rfl⟩
        · exact hsucc h
      · rintro ⟨k, s, h1, h2⟩
        cases k with
        | zero => cases h1; exact .inl h2
        | succ k => exact .inr (hpred k s h1 h2)
    | _ =>
      rw [Atn.altConfigs, ih]
      · constructor
        · exact hsucc
        · rintro ⟨k, s, h1, h2⟩
          cases k with
          | zero => cases h1
          | succ k => exact hpred k s h1 h2
      · intro s h; cases h

theorem start_finds (hT : T.ok A = true) (hr0 : ∀ s, s < A.states.length → A.ruleOf s ≠ -1) (full : Bool) {d s : Nat} {ctx stk : List Nat}
    {ts : List Tok} {j : Nat} (hd : A.decisions[d]? = some s) (hc : Calls A (A.ruleOf s) ctx) (hs : Stands full stk (A.returnStates ctx))
    (h : ViableAlt A d ctx ts j) : Finds A full (A.startConfigs full d stk) j ts := by
  obtain ⟨s0, t, hd', h1, ht, ha⟩ := h
  rw [hd] at hd'; cases hd'
  have hm := List.mem_of_getElem? ht
  have hrt := (edge_eps hT hm).1
  simp only [Atn.startConfigs, hd]
  refine FindsRun.close hT false (S := Atn.altConfigs stk 1 (A.out s)) ?_
  refine ⟨⟨t, j, stk, 0⟩, (mem_altConfigs _ _ _).2 ⟨j - 1, t, ht, by congr; omega⟩, rfl, ?_, A.returnStates ctx, hs, ?_, accepts_run ha⟩
  · exact lt_of_rule (by rw [hrt]; exact hr0 _ (lt_of_out hm))
  · exact (calls_fit hT hc s rfl).of_rule hrt

/-! ### Alternatives that exist -/

theorem closure_alt (full eof : Bool) : ∀ (n : Nat) (busy : List Nat) (c f : AConfig), f ∈ A.closure full eof n busy c → f.alt = c.alt := by
  intro n
  induction n with
  | zero => intro busy c f h; cases h
  | succ n ih =>
    intro busy c f h
    simp only [Atn.closure] at h
    split at h
    · split at h
      · have := ih _ _ _ h; exact this
      · split at h
        · rw [List.mem_singleton.1 h]
        · rcases List.mem_append.1 h with h | h
          · split at h
            · rw [List.mem_singleton.1 h]
            · cases h
          · obtain ⟨t, -, h⟩ := List.mem_flatMap.1 h
            split at h
            · cases h
            · have := ih _ _ _ h; exact this
    · rcases List.mem_append.1 h with h | h
      · split at h
        · cases h
        · rw [List.mem_singleton.1 h]
      · obtain ⟨t, -, h⟩ := List.mem_flatMap.1 h
        split at h
        · rename_i c' hc'
          rw [ih _ _ _ h]
          cases t <;> simp only [Atn.epsilonTarget] at hc'
          case eps => cases hc'; rfl
          case action => cases hc'; rfl
          case rule => cases hc'; rfl
          all_goals
            split at hc'
            · obtain ⟨t', -, rfl⟩ := Option.map_eq_some_iff.1 hc'; rfl
            · cases hc'
        · cases h

/-- Every alternative in `S` satisfies `p`. -/
def AltsIn (p : Nat → Prop) (S : AConfigSet) : Prop := ∀ c ∈ S, p c.alt

theorem AltsIn.ofList {p : Nat → Prop} (full : Bool) {l : List AConfig} (h : AltsIn p l) : AltsIn p (AConfigSet.ofList full l) := by
  intro c hc
  obtain ⟨o, ho⟩ := mem_ofList full l c hc
  have := h _ ho; exact this

theorem AltsIn.close {p : Nat → Prop} (full eof : Bool) {l : List AConfig} (h : AltsIn p l) :
    AltsIn p (AConfigSet.ofList full (l.flatMap (A.closureOf full eof))) := by
  refine AltsIn.ofList full fun c hc => ?_
  obtain ⟨c0, h0, hc⟩ := List.mem_flatMap.1 hc
  rw [closure_alt full eof _ _ _ _ hc]
  exact h _ h0

theorem AltsIn.consumed {p : Nat → Prop} (full : Bool) {S : AConfigSet} (h : AltsIn p S) (k : Int) : AltsIn p (A.consumed full S k) := by
  refine AltsIn.ofList full fun c hc => ?_
  obtain ⟨c0, h0, hc⟩ := List.mem_flatMap.1 hc
  obtain ⟨t, -, ht⟩ := List.mem_filterMap.1 hc
  obtain ⟨t', -, rfl⟩ := Option.map_eq_some_iff.1 ht
  have := h _ (List.mem_filter.1 h0).1; exact this

theorem AltsIn.reach {p : Nat → Prop} (full : Bool) {S : AConfigSet} (h : AltsIn p S) (k : Int) : AltsIn p (A.reachSet full S k) := by
  have h1 := h.consumed (A := A) full k
  simp only [Atn.reachSet]
  split
  · exact h1
  · have h2 := h1.close (A := A) full (decide (k = -1))
    generalize AConfigSet.ofList full ((A.consumed full S k).flatMap (A.closureOf full (decide (k = -1)))) = R at h2
    have h3 : AltsIn p (if k = -1 then R.filter fun c => A.isStop c.state else R) := by
      split
      · exact fun c hc => h2 c (List.mem_filter.1 hc).1
      · exact h2
    generalize (if k = -1 then R.filter fun c => A.isStop c.state else R) = R' at h3
    split
    · intro c hc
      obtain ⟨o, ho | ho⟩ := mem_foldl_add full _ _ _ hc
      · have := h3 _ ho; exact this
      · have := h _ (List.mem_filter.1 ho).1; exact this
    · exact h3

theorem start_alts {d s : Nat} (hd : A.decisions[d]? = some s) (full : Bool) (stk : List Nat) :
    AltsIn (fun i => 1 ≤ i ∧ i ≤ (A.out s).length) (A.startConfigs full d stk) := by
  simp only [Atn.startConfigs, hd]
  refine AltsIn.close full false fun c hc => ?_
  obtain ⟨k, t, h1, rfl⟩ := (mem_altConfigs _ _ _).1 hc
  obtain ⟨h, -⟩ := List.getElem?_eq_some_iff.1 h1
  change 1 ≤ 1 + k ∧ 1 + k ≤ _
  omega

theorem minAlt_mem : ∀ (l : List Nat), l ≠ [] → AConfigSet.minAlt l ∈ l
  | [], h => absurd rfl h
  | [a], _ => by simp [AConfigSet.minAlt]
  | a :: b :: l, _ => by
    rw [AConfigSet.minAlt]
    · have := minAlt_mem (b :: l) (by simp)
      rcases Nat.le_total a (AConfigSet.minAlt (b :: l)) with h | h
      · rw [Nat.min_eq_left h]; simp
      · rw [Nat.min_eq_right h]; exact List.mem_cons_of_mem _ this
    · intro h; cases h

theorem minAlt_le : ∀ (l : List Nat), ∀ a ∈ l, AConfigSet.minAlt l ≤ a
  | [], _, h => by cases h
  | [a], x, h => by simp at h; simp [AConfigSet.minAlt, h]
  | a :: b :: l, x, h => by
    rw [AConfigSet.minAlt]
    · rcases List.mem_cons.1 h with rfl | h
      · exact Nat.min_le_left _ _
      · exact Nat.le_trans (Nat.min_le_right _ _) (minAlt_le (b :: l) x h)
    · intro h; cases h

theorem uniqueAlt_some {S : AConfigSet} {i : Nat} (h : S.uniqueAlt = some i) : (∀ c ∈ S, c.alt = i) ∧ ∃ c ∈ S, c.alt = i := by
  cases S with
  | nil => cases h
  | cons c cs =>
    simp only [AConfigSet.uniqueAlt] at h
    split at h
    · rename_i hall
      cases h
      refine ⟨fun d hd => ?_, c, by simp, rfl⟩
      rcases List.mem_cons.1 hd with rfl | hd
      · rfl
      · simpa using List.all_eq_true.1 hall d hd
    · cases h

theorem finishedAlt_in {p : Nat → Prop} {S : AConfigSet} (h : AltsIn p S) {i : Nat} (hi : A.finishedAlt S = some i) : p i := by
  simp only [Atn.finishedAlt] at hi
  split at hi
  · cases hi
  · rename_i hne
    cases hi
    have := minAlt_mem _ (fun h => hne h)
    obtain ⟨c, hc, he⟩ := List.mem_map.1 this
    rw [← he]
    exact h _ (List.mem_filter.1 hc).1

theorem resolves_mem {ls : List (List Nat)} {m : Nat} (h : AConfigSet.resolves ls = some m) : (∃ l ∈ ls, AConfigSet.minAlt l = m) ∧ ∀ l ∈ ls, AConfigSet.minAlt l = m := by
  cases ls with
  | nil => cases h
  | cons l ls =>
    simp only [AConfigSet.resolves] at h
    split at h
    · rename_i hall
      cases h
      refine ⟨⟨l, by simp, rfl⟩, fun l' hl' => ?_⟩
      rcases List.mem_cons.1 hl' with rfl | hl'
      · rfl
      · simpa using List.all_eq_true.1 hall l' hl'
    · cases h

theorem subsets_mem {S : AConfigSet} {c : AConfig} (h : c ∈ S) :
    ∃ l ∈ S.conflictingAltSubsets, c.alt ∈ l ∧ ∀ a ∈ l, ∃ d ∈ S, d.alt = a ∧ d.state = c.state ∧ d.stack = c.stack := by
  refine ⟨_, List.mem_map.2 ⟨c, h, rfl⟩, ?_, ?_⟩
  · refine List.mem_map.2 ⟨c, List.mem_filter.2 ⟨h, ?_⟩, rfl⟩
    simp [AConfigSet.sameStacks]
  · intro a ha
    obtain ⟨d, hd, rfl⟩ := List.mem_map.1 ha
    obtain ⟨hd, hs⟩ := List.mem_filter.1 hd
    simp only [Bool.and_eq_true, decide_eq_true_eq, AConfigSet.sameStacks, List.all_eq_true, List.contains_eq_mem] at hs
    obtain ⟨h1, -, h2⟩ := hs
    have := h2 c.stack (List.mem_map.2 ⟨c, List.mem_filter.2 ⟨h, by simp⟩, rfl⟩)
    obtain ⟨d', hd', he⟩ := List.mem_map.1 this
    obtain ⟨hd', hs'⟩ := List.mem_filter.1 hd'
    simp only [Bool.and_eq_true, decide_eq_true_eq] at hs'
    exact ⟨d', hd', hs'.2, hs'.1.trans h1, he⟩

theorem subset_of {S : AConfigSet} {l : List Nat} (h : l ∈ S.conflictingAltSubsets) : ∀ a ∈ l, ∃ d ∈ S, d.alt = a := by
  obtain ⟨c, -, rfl⟩ := List.mem_map.1 h
  intro a ha
  obtain ⟨d, hd, rfl⟩ := List.mem_map.1 ha
  exact ⟨d, (List.mem_filter.1 hd).1, rfl⟩

theorem llLoop_in {p : Nat → Prop} : ∀ (ts : List Tok) (S : AConfigSet), AltsIn p S → ∀ i, A.llLoop S ts = some i → p i := by
  intro ts
  induction ts with
  | nil => intro S _ i h; cases h
  | cons x xs ih =>
    intro S hS i h
    have hR := hS.reach (A := A) true x.type.num
    simp only [Atn.llLoop] at h
    split at h
    · exact finishedAlt_in hS h
    · split at h
      · rename_i j hu
        cases h
        obtain ⟨-, c, hc, rfl⟩ := uniqueAlt_some hu
        exact hR c hc
      · split at h
        · rename_i j hu
          cases h
          obtain ⟨⟨l, hl, hm⟩, -⟩ := resolves_mem hu
          have hne : l ≠ [] := by
            obtain ⟨c0, hc0, he⟩ := List.mem_map.1 hl
            have : c0.alt ∈ l := by
              rw [← he]
              exact List.mem_map.2 ⟨c0, List.mem_filter.2 ⟨hc0, by simp [AConfigSet.sameStacks]⟩, rfl⟩
            rintro rfl; cases this
          have hm' := minAlt_mem l hne
          rw [hm] at hm'
          obtain ⟨d, hd, rfl⟩ := subset_of hl _ hm'
          exact hR d hd
        · exact ih _ hR i h

/-! ### With context, nothing else is found -/

/-- The state of the outermost rule. -/
def bottom : Nat → List Nat → Nat
  | s, [] => s
  | _, r :: stk => bottom r stk

theorem not_stop_of_bottom (hT : T.ok A = true) {s : Nat} (hv : FitStack A s []) (hb : bottom s [] ∉ T.post) : A.isStop s = false := by
  cases h : A.isStop s with
  | false => rfl
  | true => exact absurd ((stop_ok hT h).2.2 hv).2 hb

theorem closure_sound (hT : T.ok A = true) : ∀ (n : Nat) (busy : List Nat) (c f : AConfig), f ∈ A.closure true false n busy c →
    FitStack A c.state c.stack → bottom c.state c.stack ∉ T.post →
    FitStack A f.state f.stack ∧ bottom f.state f.stack ∉ T.post ∧ A.isStop f.state = false ∧
      ∀ ts, Run A f.state f.stack ts → Run A c.state c.stack ts := by
  intro n
  induction n with
  | zero => intro busy c f h; cases h
  | succ n ih =>
    intro busy c f h hv hb
    simp only [Atn.closure] at h
    split at h
    · rename_i hst
      split at h
      · rename_i r stk hstk
        rw [hstk] at hv hb
        obtain ⟨h1, h2, h3, h4⟩ := ih _ _ _ h hv.2 hb
        exact ⟨h1, h2, h3, fun ts hts => by rw [hstk]; exact .ret hst (h4 ts hts)⟩
      · rename_i hstk
        rw [hstk] at hv hb
        rw [not_stop_of_bottom hT hv hb] at hst; cases hst
    · rename_i hst
      rcases List.mem_append.1 h with h | h
      · split at h
        · cases h
        · cases List.mem_singleton.1 h
          exact ⟨hv, hb, by simpa using hst, fun _ h => h⟩
      · obtain ⟨t, ht, h⟩ := List.mem_flatMap.1 h
        split at h
        · rename_i c' hc'
          cases t with
          | eps t =>
            cases hc'
            have he := edge_eps hT ht
            have hb' : bottom t c.stack ∉ T.post := by
              cases hk : c.stack with
              | nil => rw [hk] at hb; exact fun hp => hb (he.2.2.2.1 hp)
              | cons r stk => rw [hk] at hb; exact hb
            obtain ⟨h1, h2, h3, h4⟩ := ih _ _ _ h (hv.of_rule he.1) hb'
            exact ⟨h1, h2, h3, fun ts hts => .eps ht (h4 ts hts)⟩
          | rule start i f' =>
            cases hc'
            obtain ⟨e1, e2, -, -, -, -, -, -, -, e10⟩ := edge_rule hT ht
            have hb' : bottom start (f' :: c.stack) ∉ T.post := by
              cases hk : c.stack with
              | nil => exact e10
              | cons r stk => rw [hk] at hb; exact hb
            obtain ⟨h1, h2, h3, h4⟩ := ih _ _ _ h ⟨⟨_, start, i, ht, e1.symm⟩, hv.of_rule e2⟩ hb'
            exact ⟨h1, h2, h3, fun ts hts => .call ht (h4 ts hts)⟩
          | action a b => exact (edge_action hT ht).elim
          | atom a b => simp [Atn.epsilonTarget] at hc'
          | set a b => simp [Atn.epsilonTarget] at hc'
          | notSet a b => simp [Atn.epsilonTarget] at hc'
        · cases h

theorem closure_sound_eof (hT : T.ok A = true) : ∀ (n : Nat) (busy : List Nat) (c f : AConfig), f ∈ A.closure true true n busy c →
    c.stack = [] → c.state ∈ T.post → f.stack = [] ∧ f.state ∈ T.post ∧ ∀ ts, Run A f.state f.stack ts → Run A c.state c.stack ts := by
  intro n
  induction n with
  | zero => intro busy c f h; cases h
  | succ n ih =>
    intro busy c f h hk hp
    simp only [Atn.closure] at h
    split at h
    · split at h
      · rename_i hstk; rw [hk] at hstk; cases hstk
      · cases List.mem_singleton.1 h
        exact ⟨hk, hp, fun _ h => h⟩
    · rcases List.mem_append.1 h with h | h
      · split at h
        · cases h
        · cases List.mem_singleton.1 h
          exact ⟨hk, hp, fun _ h => h⟩
      · obtain ⟨t, ht, h⟩ := List.mem_flatMap.1 h
        split at h
        · rename_i c' hc'
          cases t with
          | eps t =>
            cases hc'
            obtain ⟨h1, h2, h3⟩ := ih _ _ _ h hk ((edge_eps hT ht).2.2.2.2 hp)
            exact ⟨h1, h2, fun ts hts => .eps ht (h3 ts hts)⟩
          | rule start i f' => exact absurd hp (edge_rule hT ht).2.2.2.2.2.2.2.2.1
          | action a b => exact (edge_action hT ht).elim
          | atom a b => exact absurd hp (edge_atom hT ht).2.1
          | set a b => exact absurd hp (edge_set hT ht).2.1
          | notSet a b => exact (edge_notSet hT ht).elim
        · cases h

/-- Alternative `a` of the decision in state `s` leads to a run. -/
def AltRun (A : Atn) (s : Nat) (stk : List Nat) (a : Nat) (w : List Tok) : Prop :=
  ∃ t, 1 ≤ a ∧ (A.out s)[a - 1]? = some (.eps t) ∧ Run A t stk w

/-- What a set of configurations computed with context after the tokens `u` says is true. -/
def Sound (A : Atn) (T : NetTab) (s : Nat) (stk : List Nat) (S : AConfigSet) (u : List Tok) : Prop :=
  ∀ c ∈ S, FitStack A c.state c.stack ∧ bottom c.state c.stack ∉ T.post ∧ A.isStop c.state = false ∧
    ∀ vs, Run A c.state c.stack vs → AltRun A s stk c.alt (u ++ vs)

theorem start_sound (hT : T.ok A = true) {d s : Nat} {ctx : List Nat} (hd : A.decisions[d]? = some s) (hc : Calls A (A.ruleOf s) ctx) :
    Sound A T s (A.returnStates ctx) (A.startConfigs true d (A.returnStates ctx)) [] := by
  simp only [Atn.startConfigs, hd]
  intro c hc'
  obtain ⟨o, ho⟩ := mem_ofList true _ _ hc'
  obtain ⟨c0, h0, hcl⟩ := List.mem_flatMap.1 ho
  obtain ⟨k, t, h1, rfl⟩ := (mem_altConfigs _ _ _).1 h0
  have hm := List.mem_of_getElem? h1
  have hfit := calls_fit hT hc s rfl
  have hbot : bottom t (A.returnStates ctx) ∉ T.post := by
    have hb : ∀ (stk : List Nat) (s : Nat), FitStack A s stk → stk ≠ [] → bottom s stk ∉ T.post := by
      intro stk
      induction stk with
      | nil => intro s _ h; exact absurd rfl h
      | cons r stk ih =>
        intro s hv _
        obtain ⟨⟨st, start, i, he, -⟩, hv'⟩ := hv
        cases stk with
        | nil => exact (edge_rule hT he).2.2.2.2.2.2.2.2.2
        | cons r' stk => exact ih r hv' (by simp)
    cases hk : A.returnStates ctx with
    | nil => exact fun hp => (decision_ok hT hd).2.1 ((edge_eps hT hm).2.2.2.1 hp)
    | cons r stk =>
      have := hb (r :: stk) t (by rw [← hk]; exact hfit.of_rule (edge_eps hT hm).1) (by simp)
      exact this
  obtain ⟨h2, h3, h4, h5⟩ := closure_sound hT _ _ _ _ hcl (hfit.of_rule (edge_eps hT hm).1) hbot
  have halt : c.alt = 1 + k := closure_alt _ _ _ _ _ _ hcl
  refine ⟨h2, h3, h4, fun vs hvs => ⟨t, by omega, ?_, h5 vs hvs⟩⟩
  rw [halt, Nat.add_sub_cancel_left]
  exact h1

theorem consumed_sound (hT : T.ok A = true) {s : Nat} {stk : List Nat} {S : AConfigSet} {u : List Tok} (h : Sound A T s stk S u) (x : Tok) :
    ∀ c ∈ A.consumed true S x.type.num, FitStack A c.state c.stack ∧ (x.type.num ≠ -1 → bottom c.state c.stack ∉ T.post) ∧
      (x.type.num = -1 → c.stack = [] ∧ c.state ∈ T.post) ∧ ∀ vs, Run A c.state c.stack vs → AltRun A s stk c.alt ((u ++ [x]) ++ vs) := by
  intro c hc
  obtain ⟨o, ho⟩ := mem_ofList true _ _ hc
  obtain ⟨c0, h0, hcl⟩ := List.mem_flatMap.1 ho
  obtain ⟨e, he, hm⟩ := List.mem_filterMap.1 hcl
  obtain ⟨t, ht, heq⟩ := Option.map_eq_some_iff.1 hm
  obtain ⟨h1, h2, h3, h4⟩ := h c0 (List.mem_filter.1 h0).1
  obtain ⟨m1, m2, m3, m4, m5⟩ := matches_target hT he ht
  simp only [AConfig.mk.injEq] at heq
  obtain ⟨rfl, e2, e3, -⟩ := heq
  rw [← e3, ← e2]
  refine ⟨h1.of_rule m1, fun hx => ?_, fun hx => ⟨?_, (m3 hx).1⟩, fun vs hvs => ?_⟩
  · cases hk : c0.stack with
    | nil => exact m4 hx
    | cons r stk' => rw [hk] at h2; exact h2
  · cases hk : c0.stack with
    | nil => rfl
    | cons r stk' =>
      rw [hk] at h1
      obtain ⟨⟨st, start, i, hr, hi⟩, -⟩ := h1
      have := (edge_rule hT hr).2.2.1
      have := (m3 hx).2
      omega
  · rw [List.append_assoc]
    refine h4 _ ?_
    rcases m5 with ⟨l, rfl, hl⟩ | rfl
    · exact .set he hl hvs
    · exact .atom he hvs

theorem skipped_nil {s : Nat} {stk : List Nat} {S : AConfigSet} {u : List Tok} (h : Sound A T s stk S u) (b : Bool) :
    (S.filter fun c => A.isStop c.state && b) = [] := by
  rw [List.filter_eq_nil_iff]
  intro c hc
  simp [(h c hc).2.2.1]

theorem reach_sound (hT : T.ok A = true) {s : Nat} {stk : List Nat} {S : AConfigSet} {u : List Tok} (h : Sound A T s stk S u) {x : Tok}
    (hx : x.type.num ≠ -1) (hu : (A.reachSet true S x.type.num).uniqueAlt = none) : Sound A T s stk (A.reachSet true S x.type.num) (u ++ [x]) := by
  have hcon := consumed_sound hT h x
  simp only [Atn.reachSet, skipped_nil h] at hu ⊢
  split
  · rename_i hif
    rw [if_pos hif] at hu
    simp only [Bool.and_eq_true, Bool.or_eq_true, decide_eq_true_eq] at hif
    rcases hif.2 with hl | hl
    · obtain ⟨a, ha⟩ := List.length_eq_one_iff.1 hl
      rw [ha] at hu
      simp [AConfigSet.uniqueAlt] at hu
    · rw [hu] at hl; cases hl
  · intro c hc
    simp only [List.foldl_nil, hx, if_false, decide_false, ite_self] at hc
    obtain ⟨o, ho⟩ := mem_ofList true _ _ hc
    obtain ⟨c0, h0, hcl⟩ := List.mem_flatMap.1 ho
    obtain ⟨h1, h2, -, h4⟩ := hcon c0 h0
    obtain ⟨k1, k2, k3, k4⟩ := closure_sound hT _ _ _ _ hcl h1 (h2 hx)
    have halt := closure_alt _ _ _ _ _ _ hcl
    change c.alt = c0.alt at halt
    exact ⟨k1, k2, k3, fun vs hvs => by rw [halt]; exact h4 vs (k4 vs hvs)⟩

theorem reach_sound_eof (hT : T.ok A = true) {s : Nat} {stk : List Nat} {S : AConfigSet} {u : List Tok} (h : Sound A T s stk S u) {x : Tok}
    (hx : x.type.num = -1) : ∀ c ∈ A.reachSet true S x.type.num, c.state = T.last ∧ c.stack = [] ∧ AltRun A s stk c.alt (u ++ [x]) := by
  have hcon := consumed_sound hT h x
  intro c hc
  simp only [Atn.reachSet, skipped_nil h] at hc
  rw [if_neg (by simp [hx])] at hc
  simp only [List.foldl_nil, hx, if_true, decide_true, ite_self] at hc
  obtain ⟨hc, hstop⟩ := List.mem_filter.1 hc
  obtain ⟨o, ho⟩ := mem_ofList true _ _ hc
  obtain ⟨c0, h0, hcl⟩ := List.mem_flatMap.1 ho
  obtain ⟨h1, -, h3, h4⟩ := hcon c0 (by rw [hx]; exact h0)
  obtain ⟨k1, k2, k3⟩ := closure_sound_eof hT _ _ _ _ hcl (h3 hx).1 (h3 hx).2
  have halt := closure_alt _ _ _ _ _ _ hcl
  change c.alt = c0.alt at halt
  have hlast := (stop_ok hT hstop).2.2 (post_rule hT (lt_of_stop hstop) k2)
  refine ⟨hlast.1, k1, ?_⟩
  have := h4 [] (k3 [] (by simp only at k1; simp only [k1]; exact .done hstop))
  rw [List.append_nil] at this
  rw [halt]; exact this

theorem eof_resolves {R : AConfigSet} {z : Nat} (h : ∀ c ∈ R, c.state = z ∧ c.stack = []) (hne : R ≠ []) :
    ∃ m, AConfigSet.resolves R.conflictingAltSubsets = some m := by
  have hall : ∀ c ∈ R, ((R.filter fun d => d.state = c.state && AConfigSet.sameStacks (R.stacks d.state d.alt) (R.stacks c.state c.alt)).map (·.alt)) =
      R.map (·.alt) := by
    intro c hc
    congr 1
    rw [List.filter_eq_self]
    intro d hd
    have hst : ∀ e ∈ R, ∀ x, x ∈ R.stacks e.state e.alt ↔ x = [] := by
      intro e he x
      constructor
      · intro hx
        obtain ⟨y, hy, rfl⟩ := List.mem_map.1 hx
        exact (h y (List.mem_filter.1 hy).1).2
      · rintro rfl
        exact List.mem_map.2 ⟨e, List.mem_filter.2 ⟨he, by simp⟩, (h e he).2⟩
    simp only [Bool.and_eq_true, decide_eq_true_eq, AConfigSet.sameStacks, List.all_eq_true, List.contains_eq_mem]
    refine ⟨(h d hd).1.trans (h c hc).1.symm, fun x hx => ?_, fun x hx => ?_⟩
    · exact (hst c hc x).2 ((hst d hd x).1 hx)
    · exact (hst d hd x).2 ((hst c hc x).1 hx)
  have : R.conflictingAltSubsets = R.map fun _ => R.map (·.alt) := List.map_congr_left hall
  rw [this]
  cases R with
  | nil => exact absurd rfl hne
  | cons c R =>
    refine ⟨AConfigSet.minAlt ((c :: R).map (·.alt)), ?_⟩
    generalize (c :: R).map (·.alt) = l
    simp only [List.map_cons, AConfigSet.resolves]
    rw [if_pos]
    rw [List.all_eq_true]
    intro l' hl'
    obtain ⟨_, -, rfl⟩ := List.mem_map.1 hl'
    simp

theorem front_run {s : Nat} {stk : List Nat} {ts : List Tok} (hT : T.ok A = true) (h : Front A s stk ts) : Run A s stk ts := by
  rcases h with ⟨h, rfl, rfl⟩ | ⟨x, ts', e, t, rfl, he, hm, hr⟩
  · exact .done h
  · rcases (matches_target hT he hm).2.2.2.2 with ⟨l, rfl, hl⟩ | rfl
    · exact .set he hl hr
    · exact .atom he hr

/-- The repetition with context finds the least alternative with a run. -/
theorem llLoop_least (hT : T.ok A = true) (hr0 : ∀ s, s < A.states.length → A.ruleOf s ≠ -1) {s : Nat} {stk : List Nat} {i : Nat} :
    ∀ (look u : List Tok) (S : AConfigSet), EndsEof look → Sound A T s stk S u → Finds A true S i look →
      (∀ m, AltRun A s stk m (u ++ look) → i ≤ m) → A.llLoop S look = some i := by
  intro look
  induction look with
  | nil => rintro u S ⟨us, e, h, -⟩; cases us <;> cases h
  | cons x xs ih =>
    intro u S hE hS hF hleast
    have hx : (x.type.num = -1 ∧ xs = []) ∨ (x.type.num ≠ -1 ∧ EndsEof xs) := by
      obtain ⟨us, e, h1, h2, h3⟩ := hE
      cases us with
      | nil => cases h1; exact .inl ⟨by rw [h2]; rfl, rfl⟩
      | cons y us =>
        cases h1
        refine .inr ⟨?_, us, e, rfl, h2, fun z hz => h3 z (by simp [hz])⟩
        have := h3 x (by simp)
        cases hxt : x.type <;> first | (exact absurd hxt this) | decide
    obtain ⟨⟨c, hc, hci⟩, hfind⟩ := hF.reach hT hr0 (fun h => (hx.resolve_right (fun h' => h'.1 h)).2)
    have hne : A.reachSet true S x.type.num ≠ [] := by intro h; rw [h] at hc; cases hc
    simp only [Atn.llLoop]
    rw [if_neg (by simpa using hne)]
    cases hu : (A.reachSet true S x.type.num).uniqueAlt with
    | some k => simp only; rw [← (uniqueAlt_some hu).1 c hc, hci]
    | none =>
      have hfr := hfind hu
      have hmin : ∀ m, AConfigSet.resolves (A.reachSet true S x.type.num).conflictingAltSubsets = some m → m = i := by
        intro m hm
        obtain ⟨c', hc', hci', real, h2, h3, h4⟩ := hfr
        obtain rfl := h2.2 rfl
        obtain ⟨l, hl, h5, h6⟩ := subsets_mem hc'
        have hml := (resolves_mem hm).2 l hl
        have hmi : m ≤ i := by rw [← hml, ← hci']; exact minAlt_le l _ h5
        obtain ⟨d, hd, hdm, hds, hdk⟩ := h6 _ (minAlt_mem l (fun h => by rw [h] at h5; cases h5))
        have : AltRun A s stk d.alt (u ++ x :: xs) := by
          rcases hx with ⟨hx, rfl⟩ | ⟨hx, -⟩
          · exact (reach_sound_eof hT hS hx d hd).2.2
          · have := (reach_sound hT hS hx hu d hd).2.2.2 xs (by rw [hds, hdk]; exact front_run hT h4)
            rwa [List.append_assoc] at this
        have := hleast _ this
        omega
      simp only
      cases hm : AConfigSet.resolves (A.reachSet true S x.type.num).conflictingAltSubsets with
      | some m => simp only; rw [hmin m hm]
      | none =>
        rcases hx with ⟨hx, rfl⟩ | ⟨hx, hE'⟩
        · obtain ⟨m, hm'⟩ := eof_resolves (fun c hc => ⟨(reach_sound_eof hT hS hx c hc).1, (reach_sound_eof hT hS hx c hc).2.1⟩) hne
          rw [hm] at hm'; cases hm'
        · exact ih (u ++ [x]) _ hE' (reach_sound hT hS hx hu) hfr (fun m hm => hleast m (by rwa [List.append_assoc] at hm))

end

end Fcsql
