/-
The modelled prediction of the runtime library answers with the least alternative that leads on, when it is asked as the
generated parser asks it; its other answers are alternatives that exist; and `sync` passes when the next token is expected.
-/
import Verif.Spec.Adaptive
import Verif.Proofs.Adaptive
import Verif.Proofs.Cache

set_option autoImplicit false
set_option linter.unusedSimpArgs false

namespace Fcsql

section
variable {A : Atn} {T : NetTab}

theorem endsEof_cons {x : Tok} {xs : List Tok} (h : EndsEof (x :: xs)) : (x.type.num = -1 ∧ xs = []) ∨ (x.type.num ≠ -1 ∧ EndsEof xs) := by
  obtain ⟨us, e, h1, h2, h3⟩ := h
  cases us with
  | nil => cases h1; exact .inl ⟨by rw [h2]; rfl, rfl⟩
  | cons y us =>
    cases h1
    refine .inr ⟨?_, us, e, rfl, h2, fun z hz => h3 z (by simp [hz])⟩
    have := h3 x (by simp)
    cases hxt : x.type <;> first | (exact absurd hxt this) | decide

/-- With context the answer is the least viable alternative. -/
theorem fullContext_least (hT : T.ok A = true) (hr0 : ∀ s, s < A.states.length → A.ruleOf s ≠ -1) {d s : Nat} {ctx : List Nat} {ts : List Tok} {i : Nat}
    (hd : A.decisions[d]? = some s) (hc : Calls A (A.ruleOf s) ctx) (hE : EndsEof ts) (hi : ViableAlt A d ctx ts i)
    (hl : ∀ j, j < i → ¬ ViableAlt A d ctx ts j) : A.simulator.fullContext d ctx ts = some i := by
  refine llLoop_least hT hr0 ts [] _ hE (start_sound hT hd hc) (start_finds hT hr0 true hd hc (Stands.refl _ _) hi) fun m hm => ?_
  obtain ⟨t, h1, h2, h3⟩ := hm
  rcases Nat.lt_or_ge m i with h | h
  · refine absurd ⟨s, t, hd, h1, h2, ?_⟩ (hl m h)
    exact acceptsR_accepts (run_acceptsR hT h3) ctx rfl (calls_follow hc)
  · exact h

theorem walk_least (hT : T.ok A = true) (hr0 : ∀ s, s < A.states.length → A.ruleOf s ≠ -1) {d : Nat} {ctx : List Nat} {ts : List Tok} {i : Nat}
    (hfull : A.simulator.fullContext d ctx ts = some i) :
    ∀ (look : List Tok) (S : AConfigSet), look = [] ∨ EndsEof look → Finds A false S i look → A.simulator.walk d ctx ts look S = some i := by
  intro look
  induction look with
  | nil => intro S _ _; exact hfull
  | cons x xs ih =>
    intro S hE hF
    have hx := endsEof_cons (hE.resolve_left (by simp))
    obtain ⟨⟨c, hc, hci⟩, hfind⟩ := hF.reach hT hr0 (fun h => (hx.resolve_right (fun h' => h'.1 h)).2)
    have hne : (A.reachSet false S x.type.num).isEmpty = false := by
      cases h : A.reachSet false S x.type.num with
      | nil => rw [h] at hc; cases hc
      | cons _ _ => rfl
    rw [Simulator.walk]
    change (match A.sllVerdict (A.reachSet false S x.type.num) with | .alt i => _ | .fail => _ | .full => _ | .more => _) = _
    rw [Atn.sllVerdict, if_neg (by simp [hne])]
    cases hu : (A.reachSet false S x.type.num).uniqueAlt with
    | some k => simp only; rw [← (uniqueAlt_some hu).1 c hc, hci]
    | none =>
      simp only
      cases A.sllConflict (A.reachSet false S x.type.num) with
      | true => exact hfull
      | false =>
        refine ih _ ?_ (hfind hu)
        rcases hx with ⟨-, h⟩ | ⟨-, h⟩
        · exact .inl h
        · exact .inr h

/-- The answer is the least viable alternative. -/
theorem predict_least (hT : T.ok A = true) (hr0 : ∀ s, s < A.states.length → A.ruleOf s ≠ -1) {d s : Nat} {ctx : List Nat} {ts : List Tok} {i : Nat}
    (hd : A.decisions[d]? = some s) (hc : Calls A (A.ruleOf s) ctx) (hE : EndsEof ts) (hi : ViableAlt A d ctx ts i)
    (hl : ∀ j, j < i → ¬ ViableAlt A d ctx ts j) : A.simulator.predictor.predict d ctx ts = some i :=
  walk_least hT hr0 (fullContext_least hT hr0 hd hc hE hi hl) ts _ (.inr hE)
    (start_finds hT hr0 false hd hc ⟨List.nil_prefix, fun h => (by cases h)⟩ hi)

theorem walk_range {d s : Nat} (hd : A.decisions[d]? = some s) (ctx : List Nat) (ts : List Tok) {i : Nat} :
    ∀ (look : List Tok) (S : AConfigSet), AltsIn (fun i => 1 ≤ i ∧ i ≤ (A.out s).length) S →
      A.simulator.walk d ctx ts look S = some i → 1 ≤ i ∧ i ≤ (A.out s).length := by
  have hfull : A.simulator.fullContext d ctx ts = some i → 1 ≤ i ∧ i ≤ (A.out s).length :=
    fun h => llLoop_in ts _ (start_alts hd true _) i h
  intro look
  induction look with
  | nil => intro S _ h; exact hfull h
  | cons x xs ih =>
    intro S hS h
    rw [Simulator.walk] at h
    change (match A.sllVerdict (A.reachSet false S x.type.num) with | .alt i => _ | .fail => _ | .full => _ | .more => _) = _ at h
    have hr : AltsIn (fun i => 1 ≤ i ∧ i ≤ (A.out s).length) (A.reachSet false S x.type.num) := AltsIn.reach false hS _
    cases hv : A.sllVerdict (A.reachSet false S x.type.num) with
    | alt k =>
      rw [hv] at h
      cases h
      simp only [Atn.sllVerdict] at hv
      split at hv
      · cases hv
      · split at hv
        · rename_i hu
          cases hv
          obtain ⟨c, hc, rfl⟩ := (uniqueAlt_some hu).2
          exact hr c hc
        · split at hv <;> cases hv
    | fail => rw [hv] at h; exact finishedAlt_in hS h
    | full => rw [hv] at h; exact hfull h
    | more => rw [hv] at h; exact ih _ hr h

/-- Every answer is an alternative that exists. -/
theorem predict_range {d s : Nat} (hd : A.decisions[d]? = some s) (ctx : List Nat) (ts : List Tok) {i : Nat}
    (h : A.simulator.predictor.predict d ctx ts = some i) : 1 ≤ i ∧ i ≤ (A.out s).length :=
  walk_range hd ctx ts ts _ (start_alts hd false []) h

/-! ### `sync` -/

theorem walk_nil_ends (hT : T.ok A = true) {s : Nat} {ts : List Tok} {f : List PTree} (h : Walk A s ts f) (hts : ts = []) : s ∈ T.ends := by
  induction h with
  | stop h => exact (stop_ok hT h).2.1
  | eps h _ ih => exact (edge_eps hT h).2.2.1 (ih hts)
  | atom _ _ _ => cases hts
  | set _ _ _ _ => cases hts
  | rule h h1 h2 ih1 ih2 =>
    have h3 := (edge_rule hT h).2.2.2.2.2.2.2.1
    exact absurd (ih1 (List.append_eq_nil_iff.1 hts).1) h3

theorem lookSet_complete (hT : T.ok A = true) {s : Nat} {ts : List Tok} {f : List PTree} (h : Walk A s ts f) :
    ∀ (n : Nat) (stk called : List Nat), T.rk s < n → (∀ i ∈ called, ∀ s0, A.rules[i]? = some (s0, 0) → T.rk s ≤ T.rk s0) →
      (ts = [] → stk = [] → none ∈ A.lookSet n s stk called) ∧
      (∀ x xs, ts = x :: xs → ∃ l, some l ∈ A.lookSet n s stk called ∧ InIntervals x.type.num l) := by
  have hns : ∀ {s : Nat} {t : Trans}, t ∈ A.out s → A.isStop s = false := by
    intro s t ht
    cases h : A.isStop s with
    | false => rfl
    | true => rw [(stop_ok hT h).1] at ht; cases ht
  induction h with
  | stop h =>
    intro n stk called hn _
    cases n with
    | zero => omega
    | succ n =>
      refine ⟨fun _ hk => ?_, fun x xs h => (by cases h)⟩
      subst hk
      simp [Atn.lookSet, h]
  | @eps s t ts f h _ ih =>
    intro n stk called hn hcal
    cases n with
    | zero => omega
    | succ n =>
      have hrk := (edge_eps hT h).2.1
      obtain ⟨h1, h2⟩ := ih n stk called (by omega) fun i hi s0 h0 => Nat.le_of_lt (Nat.lt_of_lt_of_le hrk (hcal i hi s0 h0))
      simp only [Atn.lookSet, hns h, Bool.false_eq_true, if_false]
      refine ⟨fun a b => List.mem_flatMap.2 ⟨_, h, h1 a b⟩, fun x xs hx => ?_⟩
      obtain ⟨l, hl, hin⟩ := h2 x xs hx
      exact ⟨l, List.mem_flatMap.2 ⟨_, h, hl⟩, hin⟩
  | @atom s t x ts f h _ ih =>
    intro n stk called hn _
    cases n with
    | zero => omega
    | succ n =>
      refine ⟨fun a => (by cases a), fun y ys hy => ?_⟩
      cases hy
      simp only [Atn.lookSet, hns h, Bool.false_eq_true, if_false]
      exact ⟨[(x.type.num, x.type.num)], List.mem_flatMap.2 ⟨_, h, by simp⟩, (x.type.num, x.type.num), by simp, Int.le_refl _, Int.le_refl _⟩
  | @set s t l x ts f h hi _ ih =>
    intro n stk called hn _
    cases n with
    | zero => omega
    | succ n =>
      refine ⟨fun a => (by cases a), fun y ys hy => ?_⟩
      cases hy
      simp only [Atn.lookSet, hns h, Bool.false_eq_true, if_false]
      exact ⟨l, List.mem_flatMap.2 ⟨_, h, by simp⟩, hi⟩
  | @rule s start t r us ts ks f h hw1 hw2 ih1 ih2 =>
    intro n stk called hn hcal
    cases n with
    | zero => omega
    | succ n =>
      obtain ⟨-, -, -, -, -, hru, hrk, hne, -, -⟩ := edge_rule hT h
      have hus : us ≠ [] := fun h0 => hne (walk_nil_ends hT hw1 h0)
      have hnc : r.num ∉ called := fun hin => by
        have := hcal _ hin _ hru
        omega
      obtain ⟨-, h2⟩ := ih1 n (t :: stk) (r.num :: called) (by omega) (by
        intro i hi s0 h0
        rcases List.mem_cons.1 hi with rfl | hi
        · rw [hru] at h0; cases h0; exact Nat.le_refl _
        · exact Nat.le_of_lt (Nat.lt_of_lt_of_le hrk (hcal i hi s0 h0)))
      simp only [Atn.lookSet, hns h, Bool.false_eq_true, if_false]
      refine ⟨fun a => absurd (List.append_eq_nil_iff.1 a).1 hus, fun x xs hx => ?_⟩
      cases us with
      | nil => exact absurd rfl hus
      | cons y ys =>
        cases hx
        obtain ⟨l, hl, hin⟩ := h2 _ _ rfl
        refine ⟨l, List.mem_flatMap.2 ⟨_, h, ?_⟩, hin⟩
        simp only [hnc, if_false]
        exact hl

/-- `sync` passes when the next token is expected. -/
theorem syncOk_expected (hT : T.ok A = true) {st : Nat} {ts : List Tok} (h : Expected A st (la ts)) : A.syncOk st ts = true := by
  obtain ⟨us, f, hw, hx⟩ := h
  have hlt : st < A.states.length := by
    cases hw with
    | stop h => exact lt_of_stop h
    | eps h _ => exact lt_of_out h
    | atom h _ => exact lt_of_out h
    | set h _ _ => exact lt_of_out h
    | rule h _ _ => exact lt_of_out h
  obtain ⟨h1, h2⟩ := lookSet_complete hT hw (A.states.length + 1) [] [] (Nat.lt_succ_of_le (rk_le hT hlt)) (fun i hi => (by cases hi))
  rw [Atn.syncOk, List.any_eq_true]
  cases us with
  | nil => exact ⟨none, h1 rfl rfl, rfl⟩
  | cons x xs =>
    obtain ⟨l, hl, p, hp, hin⟩ := h2 x xs rfl
    refine ⟨some l, hl, List.any_eq_true.2 ⟨p, hp, ?_⟩⟩
    rw [hx x xs rfl] at hin
    simpa using hin

/-! ### From every state the end can be reached -/

/-- How far it is from the state to the end of its rule; 1000 if it cannot be reached. -/
def nearOf (near : List Nat) (s : Nat) : Nat := match near[s]? with | some n => n | none => 1000

/-- A number of a token type. -/
def isTokNum (k : Int) : Bool := k = -1 || (1 ≤ k && k ≤ 25)

theorem tok_of_num {k : Int} (h : isTokNum k = true) : ∃ x : Tok, x.type.num = k := by
  have : ∀ n : Nat, n < 26 → ∃ t ∈ [TokType.L_PAREN, .R_PAREN, .L_SQUARE_BRACKET, .R_SQUARE_BRACKET, .OR, .AND, .NOT, .FWD_SLASH, .L_CURLY_BRACKET,
      .R_CURLY_BRACKET, .Q_ONE_OR_MORE, .Q_ZERO_OR_MORE, .Q_ZERO_OR_ONE, .Q_COMMA, .OPERATOR_EQ, .OPERATOR_NE, .COLON, .WITHIN, .SIMPLE_WITHIN_SCOPE,
      .REGEXP_FLAGS, .IDENTIFIER, .INTEGER, .REGEXP, .QUOTED_STRING, .Space, .EOF], t.num = if n = 0 then -1 else (n : Int) := by decide
  simp only [isTokNum, Bool.or_eq_true, Bool.and_eq_true, decide_eq_true_eq] at h
  rcases h with rfl | ⟨h1, h2⟩
  · obtain ⟨t, -, ht⟩ := this 0 (by omega); exact ⟨⟨t, [], 0, 0⟩, ht⟩
  · obtain ⟨t, -, ht⟩ := this k.toNat (by omega)
    refine ⟨⟨t, [], 0, 0⟩, ?_⟩
    rw [ht, if_neg (by omega)]
    omega

/-- One step nearer. -/
def nearer (near : List Nat) (n : Nat) : Trans → Bool
  | .eps t => nearOf near t < n
  | .atom k t => isTokNum k && nearOf near t < n
  | .set l t => (l.any fun p => p.1 ≤ p.2 && isTokNum p.1) && nearOf near t < n
  | .rule a i f => nearOf near a < n && nearOf near f < n && i < 23
  | _ => false

/-- The targets are states from which the end can be reached. -/
def targetsNear (near : List Nat) : Trans → Bool
  | .eps t => nearOf near t < 1000
  | .atom _ t => nearOf near t < 1000
  | .set _ t => nearOf near t < 1000
  | .rule a _ f => nearOf near a < 1000 && nearOf near f < 1000
  | _ => true

def nearOk (A : Atn) (near : List Nat) : Bool :=
  (List.range near.length).all fun s => (decide (1000 ≤ nearOf near s) || A.isStop s || (A.out s).any (nearer near (nearOf near s))) &&
    (A.out s).all (targetsNear near)

theorem near_walk {near : List Nat} (hN : nearOk A near = true) : ∀ (n s : Nat), nearOf near s < n → n ≤ 1000 → ∃ ts f, Walk A s ts f := by
  intro n
  induction n with
  | zero => intro s h; omega
  | succ n ih =>
    intro s h hn
    have hlt : s < near.length := by
      rcases Nat.lt_or_ge s near.length with h' | h'
      · exact h'
      · simp only [nearOf, List.getElem?_eq_none h'] at h; omega
    have hs := List.all_eq_true.1 hN s (List.mem_range.2 hlt)
    simp only [Bool.and_eq_true, Bool.or_eq_true, decide_eq_true_eq, List.any_eq_true] at hs
    rcases hs.1 with (hs | hs) | ⟨t, ht, hs⟩
    · omega
    · exact ⟨[], [], .stop hs⟩
    · cases t with
      | eps t =>
        simp only [nearer, decide_eq_true_eq] at hs
        obtain ⟨ts, f, hw⟩ := ih t (by omega) (by omega)
        exact ⟨ts, f, .eps ht hw⟩
      | atom k t =>
        simp only [nearer, Bool.and_eq_true, decide_eq_true_eq] at hs
        obtain ⟨ts, f, hw⟩ := ih t (by omega) (by omega)
        obtain ⟨x, rfl⟩ := tok_of_num hs.1
        exact ⟨_, _, .atom ht hw⟩
      | set l t =>
        simp only [nearer, Bool.and_eq_true, decide_eq_true_eq, List.any_eq_true] at hs
        obtain ⟨⟨p, hp, h1, h2⟩, h3⟩ := hs
        obtain ⟨ts, f, hw⟩ := ih t (by omega) (by omega)
        obtain ⟨x, hx⟩ := tok_of_num h2
        exact ⟨_, _, .set (x := x) ht ⟨p, hp, by rw [hx]; exact Int.le_refl _, by rw [hx]; exact h1⟩ hw⟩
      | rule a i f =>
        simp only [nearer, Bool.and_eq_true, decide_eq_true_eq] at hs
        obtain ⟨us, f1, hw1⟩ := ih a (by omega) (by omega)
        obtain ⟨vs, f2, hw2⟩ := ih f (by omega) (by omega)
        obtain ⟨r, rfl⟩ := Rule.exists_num hs.2
        exact ⟨_, _, .rule ht hw1 hw2⟩
      | notSet l t => simp [nearer] at hs
      | action a b => simp [nearer] at hs

theorem near_run {near : List Nat} (hN : nearOk A near = true) : ∀ (stk : List Nat) (s : Nat), nearOf near s < 1000 → (∀ r ∈ stk, nearOf near r < 1000) →
    ∃ ts, Run A s stk ts := by
  intro stk
  induction stk with
  | nil =>
    intro s hs _
    obtain ⟨ts, f, hw⟩ := near_walk hN 1000 s hs (Nat.le_refl _)
    exact ⟨_, walk_run hw [] [] fun p hp => .done hp⟩
  | cons r stk ih =>
    intro s hs hk
    obtain ⟨ts, f, hw⟩ := near_walk hN 1000 s hs (Nat.le_refl _)
    obtain ⟨vs, hv⟩ := ih r (hk r (by simp)) fun r' h' => hk r' (by simp [h'])
    exact ⟨_, walk_run hw (r :: stk) vs fun p hp => .ret hp hv⟩

theorem targets_near {near : List Nat} (hN : nearOk A near = true) (hl : near.length = A.states.length) {s : Nat} {t : Trans} (h : t ∈ A.out s) :
    targetsNear near t = true := by
  have hs := List.all_eq_true.1 hN s (List.mem_range.2 (hl ▸ lt_of_out h))
  simp only [Bool.and_eq_true, List.all_eq_true] at hs
  exact hs.2 t h

theorem lookSet_sound (hT : T.ok A = true) {near : List Nat} (hN : nearOk A near = true) (hl : near.length = A.states.length) :
    ∀ (n s : Nat) (stk called : List Nat), (∀ r ∈ stk, nearOf near r < 1000) → ∀ o ∈ A.lookSet n s stk called,
      (o = none → Run A s stk []) ∧ (∀ l x, o = some l → InIntervals x.type.num l → ∃ vs, Run A s stk (x :: vs)) := by
  intro n
  induction n with
  | zero => intro s stk called _ o h; cases h
  | succ n ih =>
    intro s stk called hk o h
    simp only [Atn.lookSet] at h
    split at h
    · rename_i hs
      cases stk with
      | nil =>
        simp only [List.mem_singleton] at h
        subst h
        exact ⟨fun _ => .done hs, fun l x h => (by cases h)⟩
      | cons r stk =>
        obtain ⟨h1, h2⟩ := ih r stk _ (fun r' h' => hk r' (by simp [h'])) o h
        refine ⟨fun ho => .ret hs (h1 ho), fun l x ho hx => ?_⟩
        obtain ⟨vs, hv⟩ := h2 l x ho hx
        exact ⟨vs, .ret hs hv⟩
    · obtain ⟨t, ht, h⟩ := List.mem_flatMap.1 h
      have htn := targets_near hN hl ht
      cases t with
      | eps t =>
        obtain ⟨h1, h2⟩ := ih t stk _ hk o h
        refine ⟨fun ho => .eps ht (h1 ho), fun l x ho hx => ?_⟩
        obtain ⟨vs, hv⟩ := h2 l x ho hx
        exact ⟨vs, .eps ht hv⟩
      | action a b => exact (edge_action hT ht).elim
      | atom k t =>
        simp only [List.mem_singleton] at h
        subst h
        refine ⟨fun ho => (by cases ho), fun l x ho hx => ?_⟩
        cases ho
        simp only [InIntervals, List.mem_singleton, exists_eq_left] at hx
        obtain rfl : k = x.type.num := by omega
        simp only [targetsNear, decide_eq_true_eq] at htn
        obtain ⟨vs, hv⟩ := near_run hN stk t htn hk
        exact ⟨vs, .atom ht hv⟩
      | set l t =>
        simp only [List.mem_singleton] at h
        subst h
        refine ⟨fun ho => (by cases ho), fun l x ho hx => ?_⟩
        cases ho
        simp only [targetsNear, decide_eq_true_eq] at htn
        obtain ⟨vs, hv⟩ := near_run hN stk t htn hk
        exact ⟨vs, .set ht hx hv⟩
      | rule a i f =>
        simp only [targetsNear, Bool.and_eq_true, decide_eq_true_eq] at htn
        simp only at h
        split at h
        · cases h
        · obtain ⟨h1, h2⟩ := ih a (f :: stk) _ (by
            intro r hr
            rcases List.mem_cons.1 hr with rfl | hr
            · exact htn.2
            · exact hk r hr) o h
          refine ⟨fun ho => .call ht (h1 ho), fun l x ho hx => ?_⟩
          obtain ⟨vs, hv⟩ := h2 l x ho hx
          exact ⟨vs, .call ht hv⟩
      | notSet l t => cases h

/-- `sync` passes only when the next token is expected. -/
theorem expected_syncOk (hT : T.ok A = true) {near : List Nat} (hN : nearOk A near = true) (hl : near.length = A.states.length) {st : Nat} {ts : List Tok}
    (h : A.syncOk st ts = true) : Expected A st (la ts) := by
  rw [Atn.syncOk, List.any_eq_true] at h
  obtain ⟨o, ho, h⟩ := h
  obtain ⟨h1, h2⟩ := lookSet_sound hT hN hl _ _ [] _ (fun r hr => (by cases hr)) o ho
  have hwalk : ∀ {w : List Tok}, Run A st [] w → ∃ f, Walk A st w f := by
    intro w hr
    cases run_acceptsR hT hr with
    | done hw => exact ⟨_, hw⟩
  cases o with
  | none =>
    obtain ⟨f, hw⟩ := hwalk (h1 rfl)
    exact ⟨[], f, hw, fun x xs hx => (by cases hx)⟩
  | some l =>
    obtain ⟨p, hp, hin⟩ := List.any_eq_true.1 h
    simp only [Bool.and_eq_true, decide_eq_true_eq] at hin
    obtain ⟨x, hx⟩ : ∃ x : Tok, x.type.num = la ts := by
      cases ts with
      | nil => exact ⟨⟨.EOF, [], 0, 0⟩, rfl⟩
      | cons x xs => exact ⟨x, rfl⟩
    obtain ⟨vs, hv⟩ := h2 l x rfl ⟨p, hp, by rw [hx]; exact hin⟩
    obtain ⟨f, hw⟩ := hwalk hv
    refine ⟨_, f, hw, fun y ys hy => ?_⟩
    cases hy
    exact hx

/-! ### Nothing is read after `EOF` -/

theorem llLoop_eof (hT : T.ok A = true) (rest : List Tok) {s : Nat} {stk : List Nat} :
    ∀ (look u : List Tok) (S : AConfigSet), EndsEof look → Sound A T s stk S u → A.llLoop S (look ++ rest) = A.llLoop S look := by
  intro look
  induction look with
  | nil => rintro u S ⟨us, e, h, -⟩; cases us <;> cases h
  | cons x xs ih =>
    intro u S hE hS
    rw [List.cons_append, Atn.llLoop, Atn.llLoop]
    -- what comes next is the same for both
    split
    · rfl
    · rename_i hne
      split
      · rfl
      · rename_i hu
        split
        · rfl
        · rename_i hm
          rcases endsEof_cons hE with ⟨hx, rfl⟩ | ⟨hx, hE'⟩
          · obtain ⟨m, hm'⟩ := eof_resolves (fun c hc => ⟨(reach_sound_eof hT hS hx c hc).1, (reach_sound_eof hT hS hx c hc).2.1⟩) (by simpa using hne)
            rw [hm] at hm'; cases hm'
          · exact ih (u ++ [x]) _ hE' (reach_sound hT hS hx hu)

theorem walk_eof {d : Nat} {ctx : List Nat} {ts ts' : List Tok} (hf : A.simulator.fullContext d ctx ts' = A.simulator.fullContext d ctx ts)
    (rest : List Tok) : ∀ (look : List Tok) (S : AConfigSet), EndsEof look →
      A.simulator.walk d ctx ts' (look ++ rest) S = A.simulator.walk d ctx ts look S := by
  intro look
  induction look with
  | nil => rintro S ⟨us, e, h, -⟩; cases us <;> cases h
  | cons x xs ih =>
    intro S hE
    rw [List.cons_append, Simulator.walk, Simulator.walk, hf]
    cases hv : A.simulator.verdict (A.simulator.target S x.type.num) with
    | alt i => rfl
    | fail => rfl
    | full => rfl
    | more =>
      rcases endsEof_cons hE with ⟨hx, rfl⟩ | ⟨-, hE'⟩
      · exfalso
        change A.sllVerdict (A.reachSet false S x.type.num) = .more at hv
        have hstop : ((A.reachSet false S x.type.num).all fun c => A.isStop c.state) = true := by
          rw [List.all_eq_true]
          intro c hc
          simp only [Atn.reachSet, hx] at hc
          rw [if_neg (by simp)] at hc
          simp only [if_true, Bool.not_false, Bool.true_or] at hc
          obtain ⟨o, ho⟩ := mem_foldl_add false _ _ _ hc
          rcases ho with ho | ho
          · exact (List.mem_filter.1 ho).2
          · have := (List.mem_filter.1 ho).2
            simp only [Bool.and_eq_true] at this
            exact this.1
        simp only [Atn.sllVerdict, Atn.sllConflict, hstop, Bool.true_or, if_true] at hv
        split at hv
        · cases hv
        · split at hv <;> cases hv
      · exact ih _ hE'

/-- The answer does not depend on anything after the end of input. -/
theorem predict_eof (hT : T.ok A = true) {d s : Nat} {ctx : List Nat} {ts : List Tok} (hd : A.decisions[d]? = some s) (hc : Calls A (A.ruleOf s) ctx)
    (hE : EndsEof ts) (rest : List Tok) : A.simulator.predictor.predict d ctx (ts ++ rest) = A.simulator.predictor.predict d ctx ts :=
  walk_eof (llLoop_eof hT rest ts [] _ hE (start_sound hT hd hc)) rest ts _ hE

end

end Fcsql
