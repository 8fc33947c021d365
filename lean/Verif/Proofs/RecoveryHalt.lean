/-
Runs with error recovery come to an end: what the scan says about runs.
-/
import Verif.Proofs.RecoveryScan

set_option autoImplicit false
set_option linter.unusedSimpArgs false

namespace Fcsql

/-! ### Lists of statements -/

section
variable {σ : Type} {S : Strategy σ} {eof : Tok} {prog : Rule → List Stmt} {T : ScanTab}

theorem Zero.andThen_fin (a b : Zero) : (a.andThen b).fin = (a.fin && b.fin) := by
  unfold Zero.andThen; cases h : a.fin <;> simp [h]

theorem Zero.andThen_raise (a b : Zero) : (a.andThen b).raise = (a.raise || (a.fin && b.raise)) := by
  unfold Zero.andThen; cases h : a.fin <;> simp [h]

theorem scanL_append_fin (k : Option TokType) (a b : List Stmt) :
    (scanL T k (a ++ b)).fin = ((scanL T k a).fin && (scanL T k b).fin) := by
  induction a with
  | nil => simp [scanL]
  | cons c a ih => simp [scanL, Zero.andThen_fin, ih, Bool.and_assoc]

theorem scanL_append_raise (k : Option TokType) (a b : List Stmt) :
    (scanL T k (a ++ b)).raise = ((scanL T k a).raise || ((scanL T k a).fin && (scanL T k b).raise)) := by
  induction a with
  | nil => simp [scanL]
  | cons c a ih =>
    simp only [List.cons_append, scanL, Zero.andThen_raise, Zero.andThen_fin, ih]
    cases (scanS T k c).raise <;> cases (scanS T k c).fin <;> simp

theorem prodL_append (a b : List Stmt) : prodL T (a ++ b) = (prodL T a && prodL T b) := by
  induction a with
  | nil => simp [prodL]
  | cons c a ih => simp [prodL, ih, Bool.and_assoc]

/-! ### Consumption -/

/-- Tokens and patience left. -/
def RState.mu (P : Nat) (s : RState σ) : Nat := s.rest.length * (P + 1) + (P - s.stuck)

theorem Moves.mu_lt {P : Nat} {s s' : RState σ} (h : Moves eof s s') (hne : s'.rest ≠ s.rest) : s'.mu P < s.mu P := by
  have h1 : s'.rest.length < s.rest.length := by
    rcases Nat.lt_or_ge s'.rest.length s.rest.length with h1 | h1
    · exact h1
    · exact absurd (h.suffix.eq_of_length_le h1) hne
  have h2 : (s'.rest.length + 1) * (P + 1) ≤ s.rest.length * (P + 1) := Nat.mul_le_mul_right _ h1
  rw [Nat.add_mul, Nat.one_mul] at h2
  unfold RState.mu
  omega

theorem Moves.mu_le {P : Nat} {s s' : RState σ} (h : Moves eof s s') : s'.mu P ≤ s.mu P := by
  by_cases e : s'.rest = s.rest
  · have := h.stuck e
    unfold RState.mu
    rw [e]; omega
  · exact Nat.le_of_lt (h.mu_lt e)

theorem Moves.rest_eq {P : Nat} {s s' : RState σ} (h : Moves eof s s') (hm : s.mu P ≤ s'.mu P) : s'.rest = s.rest := by
  by_cases e : s'.rest = s.rest
  · exact e
  · have := h.mu_lt (P := P) e; omega

/-- The token list ends with `EOF` (or everything has been consumed). -/
def Capped (ts : List Tok) : Prop := ∀ t ∈ ts.getLast?, t.type = .EOF

theorem Capped.suffix {ts us : List Tok} (h : Capped ts) (hs : us <:+ ts) : Capped us := by
  obtain ⟨vs, rfl⟩ := hs
  intro t ht
  refine h t ?_
  rw [List.getLast?_append, Option.mem_def.1 ht]; rfl

theorem Moves.capped {s s' : RState σ} (h : Moves eof s s') (hc : Capped s.rest) : Capped s'.rest := hc.suffix h.suffix

/-- An exception caught costs tokens or patience, unless at the end. -/
theorem caught_mu {ctx : List Nat} {k : Nat} {s : RState σ} (hc : Capped s.rest) (hk : solid (nextType s.rest) = true) :
    (caught S eof ctx k s).mu S.patience < s.mu S.patience := by
  have hm := caught_moves (S := S) (eof := eof) ctx k s
  by_cases e : (caught S eof ctx k s).rest = s.rest
  · have hlen : 2 ≤ s.rest.length := by
      cases hr : s.rest with
      | nil => rw [hr] at hk; simp [nextType, solid] at hk
      | cons x xs =>
        cases xs with
        | nil =>
          rw [hr] at hk hc
          have := hc x rfl
          simp [nextType, solid, this] at hk
        | cons y ys => simp
    have hlt : s.stuck < S.patience := by
      rcases Nat.lt_or_ge s.stuck S.patience with h | h
      · exact h
      · exfalso
        have h' : S.patience ≤ (reportAt eof k s).stuck := by rw [reportAt_stuck]; exact h
        simp only [caught, RState.to_rest, reportAt_rest, reportAt_stuck, reportAt_mem, if_pos h] at e
        have e := congrArg List.length e
        simp only [skipTo, List.length_drop] at e
        have : 1 ≤ max 1 (S.onRecover s.mem ctx s.rest).1 := Nat.le_max_left _ _
        omega
    have h2 : (caught S eof ctx k s).stuck = s.stuck + 1 := by
      simp only [caught] at e ⊢
      rw [RState.to_stuck _ (by simpa using e)]
      simp
    unfold RState.mu
    rw [e, h2]; omega
  · exact hm.mu_lt e

/-- What the scan says about a result that consumed nothing. -/
def ROut.Scanned (P : Nat) (s : RState σ) (c : Zero) : ROut σ → Prop
  | .ok _ s' => s.mu P ≤ s'.mu P → c.fin = true
  | .raised _ s' => s.mu P ≤ s'.mu P → c.raise = true
  | .timeout => True

/-- What the scan says about a step. -/
def Step.Scanned (P : Nat) (s : RState σ) (c : Zero) : Step σ → Prop
  | .go _ s' => s.mu P ≤ s'.mu P → c.fin = true
  | .stop _ s' => s.mu P ≤ s'.mu P → c.raise = true

theorem scanned_of_step {P : Nat} {s : RState σ} {c : Zero} {ss : List Stmt} {step : Step σ} {next : RState σ → ROut σ}
    (h : step.Scanned P s c) (hm : step.Ok eof s) (hn : ∀ s', (next s').Ok eof s')
    (hs : ∀ f s', step = .go f s' → (next s').Scanned P s' (scanL T (nextType s'.rest) ss)) :
    (step.andThen next).Scanned P s (c.andThen (scanL T (nextType s.rest) ss)) := by
  cases step with
  | stop k s' =>
    intro e
    rw [Zero.andThen_raise, h e]; rfl
  | go f s' =>
    have h2 := hs f s' rfl
    have h3 := hn s'
    have hm : Moves eof s s' := hm
    simp only [Step.andThen]
    cases hr : next s' with
    | timeout => trivial
    | ok f' s'' =>
      rw [hr] at h2 h3
      have h3 : Moves eof s' s'' := h3
      intro e
      have a1 := hm.mu_le (P := P)
      have a2 := h3.mu_le (P := P)
      have e1 : s.mu P ≤ s'.mu P := Nat.le_trans e a2
      rw [hm.rest_eq e1] at h2
      rw [Zero.andThen_fin, h e1, h2 (Nat.le_trans a1 e)]; rfl
    | raised j s'' =>
      rw [hr] at h2 h3
      have h3 : Moves eof s' s'' := h3
      intro e
      have a1 := hm.mu_le (P := P)
      have a2 := h3.mu_le (P := P)
      have e1 : s.mu P ≤ s'.mu P := Nat.le_trans e a2
      rw [hm.rest_eq e1] at h2
      rw [Zero.andThen_raise, h e1, h2 (Nat.le_trans a1 e)]; simp

theorem syncStep_scanned (P st : Nat) (ctx : List Nat) (s : RState σ) :
    (syncStep S eof st ctx s).Scanned P s (scanS T (nextType s.rest) (.sync st)) := by
  cases syncStep S eof st ctx s <;> exact fun _ => rfl

theorem matchStep_scanned (P st : Nat) (ctx : List Nat) (ok : Int → Bool) (s : RState σ) :
    (matchStep S eof st ctx ok s).Scanned P s
      (if (nextType s.rest).any (fun t => ok t.num) then ⟨[], false, false⟩ else ⟨[], true, true⟩) := by
  have hm := matchStep_moves (S := S) (eof := eof) st ctx ok s
  unfold matchStep at hm ⊢
  cases h : s.rest with
  | nil =>
    simp only [nextType, List.head?_nil, Option.map_none, Option.any_none, Bool.false_eq_true, if_false]
    cases inlineStep S eof st ctx ok s <;> exact fun _ => rfl
  | cons x xs =>
    rw [h] at hm
    cases hx : ok x.type.num with
    | true =>
      simp only [nextType, List.head?_cons, Option.map_some, Option.any_some, hx, if_true] at hm ⊢
      intro e
      have hm : Moves eof s _ := hm
      have := hm.rest_eq e
      rw [h] at this
      have := congrArg List.length this
      simp at this
    | false =>
      simp only [nextType, List.head?_cons, Option.map_some, Option.any_some, hx, Bool.false_eq_true, if_false]
      cases inlineStep S eof st ctx ok s <;> exact fun _ => rfl

theorem scanCs_eq (k : Option TokType) (cs : List (List Int × List Stmt)) :
    scanCs T k cs = match switchCase (keyNum k) cs with
      | some b => scanL T k b
      | none => ⟨[], false, true⟩ := by
  induction cs with
  | nil => rfl
  | cons c cs ih =>
    obtain ⟨ks, b⟩ := c
    simp only [scanCs, switchCase]
    split
    · rfl
    · exact ih

theorem ROut.Scanned.prepend {P : Nat} {s : RState σ} {c : Zero} {r : ROut σ} {f : List PTree} (h : r.Scanned P s c) :
    (r.prepend f).Scanned P s c := by
  cases r <;> exact h

theorem ROut.Scanned.mono {P : Nat} {s : RState σ} {c c' : Zero} {r : ROut σ} (h : r.Scanned P s c) (h1 : c.fin = true → c'.fin = true)
    (h2 : c.raise = true → c'.raise = true) : r.Scanned P s c' := by
  cases r with
  | ok f t => exact fun e => h1 (h e)
  | raised j t => exact fun e => h2 (h e)
  | timeout => trivial

theorem stepCapped {s s' : RState σ} {step : Step σ} {f : List PTree} (hc : Capped s.rest) (hm : step.Ok eof s)
    (e : step = .go f s') : Capped s'.rest := by
  subst e; exact Moves.capped hm hc

theorem execR_scanned (hT : T.Ok S prog) (n : Nat) : ∀ ctx ss (s : RState σ), Capped s.rest →
    (execR S eof prog n ctx ss s).Scanned S.patience s (scanL T (nextType s.rest) ss) := by
  induction n with
  | zero => intro ctx ss s _; simp [execR, ROut.Scanned]
  | succ n ih =>
    intro ctx ss s hc
    cases ss with
    | nil => simp [execR, ROut.Scanned, scanL]
    | cons c ss =>
      cases c with
      | sync st =>
        rw [execR, scanL]
        exact scanned_of_step (syncStep_scanned _ st ctx s) (syncStep_moves st ctx s) (fun s' => execR_moves n ctx ss s')
          fun f s' e => ih ctx ss s' (stepCapped hc (syncStep_moves st ctx s) e)
      | matchTok st j =>
        rw [execR, scanL, scanS]
        exact scanned_of_step (matchStep_scanned _ st ctx _ s) (matchStep_moves st ctx _ s) (fun s' => execR_moves n ctx ss s')
          fun f s' e => ih ctx ss s' (stepCapped hc (matchStep_moves st ctx _ s) e)
      | matchSet st t =>
        rw [execR, scanL, scanS]
        exact scanned_of_step (matchStep_scanned _ st ctx _ s) (matchStep_moves st ctx _ s) (fun s' => execR_moves n ctx ss s')
          fun f s' e => ih ctx ss s' (stepCapped hc (matchStep_moves st ctx _ s) e)
      | call st r =>
        rw [execR, scanL, scanS]
        have h := ih (st :: ctx) (prog r) s hc
        have hm := execR_moves (S := S) (eof := eof) (prog := prog) n (st :: ctx) (prog r) s
        -- the call as a step
        have key : ∀ f s', Moves eof s s' → (s.mu S.patience ≤ s'.mu S.patience → T.silent r (nextType s.rest) = true) →
            (ROut.prepend f (execR S eof prog n ctx ss s')).Scanned S.patience s
              (Zero.andThen ⟨[r], T.silent r (nextType s.rest), false⟩ (scanL T (nextType s.rest) ss)) := by
          intro f s' hs hq
          exact scanned_of_step (eof := eof) (T := T) (step := .go f s') (next := execR S eof prog n ctx ss)
            (c := ⟨[r], T.silent r (nextType s.rest), false⟩) hq hs (fun s' => execR_moves n ctx ss s')
            (fun f' s'' e => by cases e; exact ih ctx ss s' (hs.capped hc))
        cases hr : execR S eof prog n (st :: ctx) (prog r) s with
        | timeout => trivial
        | ok f s' =>
          rw [hr] at h hm
          refine key _ s' hm fun e => ?_
          cases hq : T.silent r (nextType s.rest) with
          | true => rfl
          | false => have := (hT.silent r _ hq).1; rw [h e] at this; cases this
        | raised j s' =>
          rw [hr] at h hm
          have hm : Moves eof s s' := hm
          have hcm := caught_moves (S := S) (eof := eof) (st :: ctx) j s'
          refine key _ _ (Moves.trans hm hcm) fun e => ?_
          have e' : s.mu S.patience ≤ s'.mu S.patience := Nat.le_trans e hcm.mu_le
          cases hq : T.silent r (nextType s.rest) with
          | true => rfl
          | false =>
            rcases (hT.silent r _ hq).2 with h2 | h2
            · rw [h e'] at h2; cases h2
            · rw [← hm.rest_eq e'] at h2
              have := caught_mu (S := S) (eof := eof) (ctx := st :: ctx) (k := j) (hm.capped hc) h2
              have := hm.mu_le (P := S.patience)
              omega
      | predict d bs =>
        rw [execR, scanL, scanS]
        cases hp : S.predict d ctx s.rest with
        | none => intro _; simp [Zero.andThen]
        | some a =>
          refine (ih ctx (branch bs a ++ ss) s hc).mono ?_ ?_
          · rw [scanL_append_fin, Zero.andThen_fin]; simp
          · rw [Zero.andThen_raise]; simp
      | switchLA cs =>
        rw [execR, scanL, scanS, scanCs_eq, ← la_keyNum]
        cases hp : switchCase (la s.rest) cs with
        | none => intro _; simp [Zero.andThen]
        | some b =>
          refine (ih ctx (b ++ ss) s hc).mono ?_ ?_
          · rw [scanL_append_fin, Zero.andThen_fin]; exact id
          · rw [scanL_append_raise, Zero.andThen_raise]; exact id
      | ifLA t b =>
        rw [execR, scanL, scanS, ← la_keyNum]
        refine (ih ctx _ s hc).mono ?_ ?_
        · rw [scanL_append_fin, Zero.andThen_fin]; split <;> simp [scanL]
        · rw [scanL_append_raise, Zero.andThen_raise]; split <;> simp [scanL]
      | whileLA b st t =>
        rw [execR, scanL, scanS]
        refine (ih ctx _ s hc).mono ?_ ?_
        · rw [scanL_append_fin, Zero.andThen_fin, scanL, scanL, Zero.andThen_fin, Zero.andThen_fin]
          simp only [Bool.and_eq_true]
          exact fun h => ⟨h.1, h.2.2.2⟩
        · rw [Zero.andThen_raise]; simp
      | whilePredict b st d =>
        rw [execR, scanL, scanS]
        refine (ih ctx _ s hc).mono ?_ ?_
        · rw [scanL_append_fin, Zero.andThen_fin, scanL, scanL, Zero.andThen_fin, Zero.andThen_fin]
          simp only [Bool.and_eq_true]
          exact fun h => ⟨h.1, h.2.2.2⟩
        · rw [Zero.andThen_raise]; simp
      | loopPredict b st d =>
        rw [execR, scanL, scanS]
        cases hp : S.predict d ctx s.rest with
        | none => intro _; simp [Zero.andThen]
        | some a =>
          dsimp only
          by_cases h2 : a = 2 ∨ a = 0
          · rw [if_pos h2]
            refine (ih ctx ss s hc).mono ?_ ?_
            · rw [Zero.andThen_fin]; simp
            · rw [Zero.andThen_raise]; simp
          · rw [if_neg h2]
            by_cases h1 : a = 1
            · rw [if_pos h1]
              refine (ih ctx _ s hc).mono ?_ ?_
              · rw [scanL, scanS, Zero.andThen_fin, Zero.andThen_fin]; simp
              · rw [Zero.andThen_raise]; simp
            · rw [if_neg h1]
              intro _; rw [Zero.andThen_raise]; simp

/-! ### Halting -/

/-- Some number of steps is enough. -/
def HaltsR (S : Strategy σ) (eof : Tok) (prog : Rule → List Stmt) (ctx : List Nat) (ss : List Stmt) (s : RState σ) : Prop :=
  ∃ n, execR S eof prog n ctx ss s ≠ .timeout

theorem HaltsR.of_eq {ctx : List Nat} {ss ss' : List Stmt} {s : RState σ} (h : HaltsR S eof prog ctx ss' s)
    (he : ∀ n, execR S eof prog (n + 1) ctx ss s = execR S eof prog n ctx ss' s) : HaltsR S eof prog ctx ss s := by
  obtain ⟨n, hn⟩ := h
  exact ⟨n + 1, by rw [he]; exact hn⟩

theorem HaltsR.of_step {ctx : List Nat} {c : Stmt} {ss : List Stmt} {s : RState σ} {step : Step σ}
    (he : ∀ n, execR S eof prog (n + 1) ctx (c :: ss) s = step.andThen (execR S eof prog n ctx ss))
    (h : ∀ f s', step = .go f s' → HaltsR S eof prog ctx ss s') : HaltsR S eof prog ctx (c :: ss) s := by
  cases hs : step with
  | stop k s' =>
    refine ⟨1, ?_⟩
    rw [he 0, hs]
    simp [Step.andThen]
  | go f s' =>
    obtain ⟨n, hn⟩ := h f s' hs
    refine ⟨n + 1, ?_⟩
    rw [he n, hs]
    exact fun e => hn (ROut.prepend_timeout.1 e)

theorem branch_size {bs : List (List Stmt)} {d a : Nat} : sizeOf (branch bs a) ≤ sizeOf (Stmt.predict d bs) := by
  cases a with
  | zero => simp only [branch, Stmt.predict.sizeOf_spec, List.nil.sizeOf_spec]; omega
  | succ a =>
    simp only [branch]
    cases h : bs[a]? with
    | none => simp only [Stmt.predict.sizeOf_spec, List.nil.sizeOf_spec]; omega
    | some b =>
      have := List.sizeOf_lt_of_mem (List.mem_of_getElem? h)
      simp only [Stmt.predict.sizeOf_spec]; omega

theorem case_size {cs : List (List Int × List Stmt)} {k : Int} {b : List Stmt} (h : switchCase k cs = some b) :
    sizeOf b < sizeOf (Stmt.switchLA cs) := by
  induction cs with
  | nil => simp [switchCase] at h
  | cons c cs ih =>
    obtain ⟨ks, b'⟩ := c
    simp only [switchCase] at h
    split at h
    · cases h
      simp only [Stmt.switchLA.sizeOf_spec, List.cons.sizeOf_spec, Prod.mk.sizeOf_spec]; omega
    · have := ih h
      simp only [Stmt.switchLA.sizeOf_spec, List.cons.sizeOf_spec, Prod.mk.sizeOf_spec] at this ⊢; omega

theorem prodBs_branch {bs : List (List Stmt)} (h : prodBs T bs = true) (a : Nat) : prodL T (branch bs a) = true := by
  cases a with
  | zero => rfl
  | succ a =>
    induction bs generalizing a with
    | nil => rfl
    | cons b bs ih =>
      simp only [prodBs, Bool.and_eq_true] at h
      cases a with
      | zero => exact h.1
      | succ a => simpa only [branch, List.getElem?_cons_succ] using ih h.2 a

theorem prodCs_case {cs : List (List Int × List Stmt)} {k : Int} {b : List Stmt} (hp : prodCs T cs = true)
    (h : switchCase k cs = some b) : prodL T b = true := by
  induction cs with
  | nil => simp [switchCase] at h
  | cons c cs ih =>
    obtain ⟨ks, b'⟩ := c
    simp only [prodCs, Bool.and_eq_true] at hp
    simp only [switchCase] at h
    split at h
    · cases h; exact hp.1
    · exact ih hp.2 h

theorem scanBs_branch {k : Option TokType} {d : Nat} {r : Rule} {bs : List (List Stmt)} : ∀ {i a : Nat},
    T.alt d (i + a) k = true → r ∈ (scanL T k (branch bs (a + 1))).calls → r ∈ scanBs T k d i bs := by
  induction bs with
  | nil => intro i a _ h; simp [branch, scanL] at h
  | cons b bs ih =>
    intro i a ha h
    rw [scanBs, List.mem_append]
    cases a with
    | zero =>
      left
      rw [Nat.add_zero] at ha
      rw [if_pos ha]
      simpa [branch] using h
    | succ a =>
      right
      refine ih (i := i + 1) (a := a) (by rw [← ha]; congr 1; omega) ?_
      simpa only [branch, List.getElem?_cons_succ] using h

/-- What is known about the functions called: those called later come to an end, and so do those called now. -/
structure CallsHalt (S : Strategy σ) (eof : Tok) (prog : Rule → List Stmt) (s : RState σ) (calls : List Rule) : Prop where
  low : ∀ r ctx (s' : RState σ), Capped s'.rest → s'.mu S.patience < s.mu S.patience → HaltsR S eof prog ctx (prog r) s'
  same : ∀ r ∈ calls, ∀ ctx (s' : RState σ), Moves eof s s' → s.mu S.patience ≤ s'.mu S.patience → HaltsR S eof prog ctx (prog r) s'

theorem CallsHalt.mono {s : RState σ} {cs cs' : List Rule} (h : CallsHalt S eof prog s cs) (hs : ∀ r ∈ cs', r ∈ cs) :
    CallsHalt S eof prog s cs' := ⟨h.low, fun r hr => h.same r (hs r hr)⟩

/-- After some moves. -/
theorem CallsHalt.move {s s' : RState σ} {cs cs' : List Rule} (h : CallsHalt S eof prog s cs) (hc : Capped s.rest) (hm : Moves eof s s')
    (hs : s.mu S.patience ≤ s'.mu S.patience → ∀ r ∈ cs', r ∈ cs) : CallsHalt S eof prog s' cs' := by
  refine ⟨fun r ctx s'' h1 h2 => h.low r ctx s'' h1 (Nat.lt_of_lt_of_le h2 hm.mu_le), fun r hr ctx s'' h1 h2 => ?_⟩
  rcases Nat.lt_or_ge (s'.mu S.patience) (s.mu S.patience) with hl | hl
  · exact h.low r ctx s'' (h1.capped (hm.capped hc)) (Nat.lt_of_le_of_lt h1.mu_le hl)
  · exact h.same r (hs hl r hr) ctx s'' (hm.trans h1) (Nat.le_trans hl h2)

theorem halts_stmts (hT : T.Ok S prog) (M : Nat) : ∀ N ctx (ss : List Stmt) (s : RState σ) ks,
    s.mu S.patience ≤ M → sizeOf ss ≤ N → prodL T ss = true → Capped s.rest →
    CallsHalt S eof prog s (scanL T (nextType s.rest) ss).calls →
    (∀ s', Moves eof s s' → (s.mu S.patience ≤ s'.mu S.patience → (scanL T (nextType s.rest) ss).fin = true) →
      HaltsR S eof prog ctx ks s') →
    HaltsR S eof prog ctx (ss ++ ks) s := by
  induction M using Nat.strongRecOn with
  | ind M ihM =>
  intro N
  induction N using Nat.strongRecOn with
  | ind N ihN =>
  intro ctx ss s ks hM hN hp hc hcalls hk
  cases ss with
  | nil => exact hk s (.refl s) fun _ => rfl
  | cons c ss =>
    simp only [prodL, Bool.and_eq_true] at hp
    obtain ⟨hpc, hps⟩ := hp
    have hsz : sizeOf c + sizeOf ss < N := by simp only [List.cons.sizeOf_spec] at hN; omega
    -- the statements after `c`
    have tail : ∀ s', Moves eof s s' → (s.mu S.patience ≤ s'.mu S.patience → (scanS T (nextType s.rest) c).fin = true) →
        HaltsR S eof prog ctx (ss ++ ks) s' := by
      intro s' hm hf
      refine ihN (sizeOf ss) (by omega) ctx ss s' ks (Nat.le_trans hm.mu_le hM) (Nat.le_refl _) hps (hm.capped hc) ?_ ?_
      · refine hcalls.move hc hm fun hl r hr => ?_
        rw [hm.rest_eq hl] at hr
        rw [scanL, Zero.andThen, if_pos (hf hl)]
        exact List.mem_append_right _ hr
      · intro s'' hm' hf'
        refine hk s'' (hm.trans hm') fun hl => ?_
        have h1 : s.mu S.patience ≤ s'.mu S.patience := Nat.le_trans hl hm'.mu_le
        have h2 : s'.mu S.patience ≤ s''.mu S.patience := Nat.le_trans hm.mu_le hl
        have := hf' h2
        rw [hm.rest_eq h1] at this
        rw [scanL, Zero.andThen_fin, hf h1, this]; rfl
    have hcallsC : CallsHalt S eof prog s (scanS T (nextType s.rest) c).calls := by
      refine hcalls.mono fun r hr => ?_
      rw [scanL, Zero.andThen]
      split
      · exact List.mem_append_left _ hr
      · exact hr
    rw [List.cons_append]
    cases c with
    | sync st =>
      refine HaltsR.of_step (step := syncStep S eof st ctx s) (fun n => by rw [execR]) fun f s' e => ?_
      have hm := syncStep_moves (S := S) (eof := eof) st ctx s
      rw [e] at hm
      exact tail s' hm fun _ => rfl
    | matchTok st k =>
      refine HaltsR.of_step (step := matchStep S eof st ctx (fun j => decide (j = k)) s) (fun n => by rw [execR]) fun f s' e => ?_
      have hm := matchStep_moves (S := S) (eof := eof) st ctx (fun j => decide (j = k)) s
      have hs := matchStep_scanned (S := S) (eof := eof) S.patience st ctx (fun j => decide (j = k)) s
      rw [e] at hm hs
      exact tail s' hm hs
    | matchSet st t =>
      refine HaltsR.of_step (step := matchStep S eof st ctx t.eval s) (fun n => by rw [execR]) fun f s' e => ?_
      have hm := matchStep_moves (S := S) (eof := eof) st ctx t.eval s
      have hs := matchStep_scanned (S := S) (eof := eof) S.patience st ctx t.eval s
      rw [e] at hm hs
      exact tail s' hm hs
    | call st r =>
      obtain ⟨n, hn⟩ := hcallsC.same r (by simp [scanS]) (st :: ctx) s (.refl s) (Nat.le_refl _)
      have hm := execR_moves (S := S) (eof := eof) (prog := prog) n (st :: ctx) (prog r) s
      have hs := execR_scanned (eof := eof) hT n (st :: ctx) (prog r) s hc
      cases hr : execR S eof prog n (st :: ctx) (prog r) s with
      | timeout => exact absurd hr hn
      | ok f s' =>
        rw [hr] at hm hs hn
        have ht : HaltsR S eof prog ctx (ss ++ ks) s' := by
          refine tail s' hm fun hl => ?_
          simp only [scanS]
          cases hq : T.silent r (nextType s.rest) with
          | true => rfl
          | false => have := (hT.silent r _ hq).1; rw [hs hl] at this; cases this
        obtain ⟨m, hm'⟩ := ht
        refine ⟨max n m + 1, ?_⟩
        rw [execR, execR_mono (Nat.le_max_left n m) (by rw [hr]; simp), hr]
        dsimp only
        rw [execR_mono (Nat.le_max_right n m) hm']
        exact fun e => hm' (ROut.prepend_timeout.1 e)
      | raised j s' =>
        rw [hr] at hm hs hn
        have hm : Moves eof s s' := hm
        have hcm := caught_moves (S := S) (eof := eof) (st :: ctx) j s'
        have ht : HaltsR S eof prog ctx (ss ++ ks) (caught S eof (st :: ctx) j s') := by
          refine tail _ (hm.trans hcm) fun hl => ?_
          have e' : s.mu S.patience ≤ s'.mu S.patience := Nat.le_trans hl hcm.mu_le
          simp only [scanS]
          cases hq : T.silent r (nextType s.rest) with
          | true => rfl
          | false =>
            rcases (hT.silent r _ hq).2 with h2 | h2
            · rw [hs e'] at h2; cases h2
            · rw [← hm.rest_eq e'] at h2
              have := caught_mu (S := S) (eof := eof) (ctx := st :: ctx) (k := j) (hm.capped hc) h2
              have := hm.mu_le (P := S.patience)
              omega
        obtain ⟨m, hm'⟩ := ht
        refine ⟨max n m + 1, ?_⟩
        rw [execR, execR_mono (Nat.le_max_left n m) (by rw [hr]; simp), hr]
        dsimp only
        rw [execR_mono (Nat.le_max_right n m) hm']
        exact fun e => hm' (ROut.prepend_timeout.1 e)
    | predict d bs =>
      cases hp : S.predict d ctx s.rest with
      | none => exact ⟨1, by rw [execR, hp]; simp⟩
      | some a =>
        refine HaltsR.of_eq (ss' := branch bs a ++ (ss ++ ks)) ?_ fun n => by rw [execR, hp]
        simp only [prodS] at hpc
        refine ihN (sizeOf (branch bs a)) (by have := branch_size (bs := bs) (d := d) (a := a); omega) ctx (branch bs a) s _ hM (Nat.le_refl _)
          (prodBs_branch hpc a) hc ?_ fun s' hm _ => tail s' hm fun _ => rfl
        refine hcallsC.mono fun r hr => ?_
        cases a with
        | zero => simp [branch, scanL] at hr
        | succ a => exact scanBs_branch (i := 1) (a := a) (by rw [Nat.add_comm]; exact hT.alt d ctx s.rest _ hp) hr
    | switchLA cs =>
      have hscan := scanCs_eq (T := T) (nextType s.rest) cs
      rw [← la_keyNum] at hscan
      cases hp : switchCase (la s.rest) cs with
      | none => exact ⟨1, by rw [execR, hp]; simp⟩
      | some b =>
        rw [hp] at hscan
        dsimp only at hscan
        refine HaltsR.of_eq (ss' := b ++ (ss ++ ks)) ?_ fun n => by rw [execR, hp]
        simp only [prodS] at hpc
        refine ihN (sizeOf b) (by have := case_size hp; omega) ctx b s _ hM (Nat.le_refl _) (prodCs_case hpc hp) hc ?_
          fun s' hm hf => tail s' hm fun hl => by rw [scanS, hscan]; exact hf hl
        rw [scanS, hscan] at hcallsC
        exact hcallsC
    | ifLA t b =>
      refine HaltsR.of_eq (ss' := (if t.eval (la s.rest) then b else []) ++ (ss ++ ks)) ?_ fun n => by rw [execR]
      by_cases ht : t.eval (la s.rest) = true
      · have hs : scanS T (nextType s.rest) (.ifLA t b) = scanL T (nextType s.rest) b := by rw [scanS, ← la_keyNum, if_pos ht]
        rw [hs] at hcallsC tail
        rw [if_pos ht]
        simp only [prodS] at hpc
        exact ihN (sizeOf b) (by simp only [Stmt.ifLA.sizeOf_spec] at hsz; omega) ctx b s _ hM (Nat.le_refl _) hpc hc hcallsC tail
      · rw [if_neg ht]
        exact tail s (.refl s) fun _ => by rw [scanS, ← la_keyNum, if_neg ht]
    | whileLA b st t =>
      refine HaltsR.of_eq (ss' := b ++ (.sync st :: .ifLA t [.whileLA b st t] :: (ss ++ ks))) ?_ fun n => by rw [execR]
      have hpc' := hpc
      simp only [prodS, Bool.and_eq_true] at hpc
      have hsz' : sizeOf b < N := by simp only [Stmt.whileLA.sizeOf_spec] at hsz; omega
      refine ihN (sizeOf b) hsz' ctx b s _ hM (Nat.le_refl _) hpc.1 hc (by simpa only [scanS] using hcallsC) fun s1 hm1 hf1 => ?_
      refine HaltsR.of_step (step := syncStep S eof st ctx s1) (fun n => by rw [execR]) fun f s2 e => ?_
      have hm2 := syncStep_moves (S := S) (eof := eof) st ctx s1
      rw [e] at hm2
      have hm2 : Moves eof s1 s2 := hm2
      have hm := hm1.trans hm2
      have hf : s.mu S.patience ≤ s2.mu S.patience → (scanL T (nextType s.rest) b).fin = true :=
        fun hl => hf1 (Nat.le_trans hl hm2.mu_le)
      have htail := tail s2 hm (by simpa only [scanS] using hf)
      refine HaltsR.of_eq (ss' := (if t.eval (la s2.rest) then [.whileLA b st t] else []) ++ (ss ++ ks)) ?_ fun n => by rw [execR]
      by_cases ht : t.eval (la s2.rest) = true
      · rw [if_pos ht]
        have hlt : s2.mu S.patience < s.mu S.patience := by
          rcases Nat.lt_or_ge (s2.mu S.patience) (s.mu S.patience) with h | h
          · exact h
          · exfalso
            have h1 := hf h
            rw [hm.rest_eq h, la_keyNum] at ht
            have := List.all_eq_true.1 hpc.2 _ (mem_allKeys (nextType s.rest))
            rw [h1, ht] at this
            cases this
        refine ihM (s2.mu S.patience) (Nat.lt_of_lt_of_le hlt hM) _ ctx [.whileLA b st t] s2 _ (Nat.le_refl _) (Nat.le_refl _)
          (by simp only [prodL, hpc', Bool.and_self]) (hm.capped hc) (hcalls.move hc hm fun hl => by omega) ?_
        intro s3 hm3 _
        refine tail s3 (hm.trans hm3) fun hl => ?_
        have := hm3.mu_le (P := S.patience)
        omega
      · rw [if_neg ht]
        exact htail
    | whilePredict b st d =>
      refine HaltsR.of_eq (ss' := b ++ (.sync st :: .loopPredict b st d :: (ss ++ ks))) ?_ fun n => by rw [execR]
      have hpc' := hpc
      simp only [prodS, Bool.and_eq_true] at hpc
      have hsz' : sizeOf b < N := by simp only [Stmt.whilePredict.sizeOf_spec] at hsz; omega
      refine ihN (sizeOf b) hsz' ctx b s _ hM (Nat.le_refl _) hpc.1 hc (by simpa only [scanS] using hcallsC) fun s1 hm1 hf1 => ?_
      refine HaltsR.of_step (step := syncStep S eof st ctx s1) (fun n => by rw [execR]) fun f s2 e => ?_
      have hm2 := syncStep_moves (S := S) (eof := eof) st ctx s1
      rw [e] at hm2
      have hm2 : Moves eof s1 s2 := hm2
      have hm := hm1.trans hm2
      have hf : s.mu S.patience ≤ s2.mu S.patience → (scanL T (nextType s.rest) b).fin = true :=
        fun hl => hf1 (Nat.le_trans hl hm2.mu_le)
      have htail := tail s2 hm (by simpa only [scanS] using hf)
      cases hpr : S.predict d ctx s2.rest with
      | none => exact ⟨1, by rw [execR, hpr]; simp⟩
      | some a =>
        by_cases ha : a = 2 ∨ a = 0
        · exact HaltsR.of_eq htail fun n => by rw [execR, hpr]; simp only [if_pos ha]
        · by_cases ha1 : a = 1
          · subst ha1
            have hlt : s2.mu S.patience < s.mu S.patience := by
              rcases Nat.lt_or_ge (s2.mu S.patience) (s.mu S.patience) with h | h
              · exact h
              · exfalso
                have h1 := hf h
                have h2 := hT.alt d ctx _ _ hpr
                rw [hm.rest_eq h] at h2
                have := List.all_eq_true.1 hpc.2 _ (mem_allKeys (nextType s.rest))
                rw [h1, h2] at this
                cases this
            refine HaltsR.of_eq (ss' := [.whilePredict b st d] ++ (ss ++ ks)) ?_ fun n => by rw [execR, hpr]; simp
            refine ihM (s2.mu S.patience) (Nat.lt_of_lt_of_le hlt hM) _ ctx [.whilePredict b st d] s2 _ (Nat.le_refl _) (Nat.le_refl _)
              (by simp only [prodL, hpc', Bool.and_self]) (hm.capped hc) (hcalls.move hc hm fun hl => by omega) ?_
            intro s3 hm3 _
            refine tail s3 (hm.trans hm3) fun hl => ?_
            have := hm3.mu_le (P := S.patience)
            omega
          · exact ⟨1, by rw [execR, hpr]; simp [ha, ha1]⟩
    | loopPredict b st d => cases hpc

/-- Functions come to an end when, as long as nothing is consumed, they call functions of lower weight only. -/
theorem halts_rule (hT : T.Ok S prog) (hprod : ∀ r, prodL T (prog r) = true) (w : Rule → Option TokType → Nat)
    (hw : ∀ r k r', r' ∈ (scanL T k (prog r)).calls → w r' k < w r k) (M : Nat) : ∀ W r ctx (s : RState σ),
    s.mu S.patience ≤ M → w r (nextType s.rest) ≤ W → Capped s.rest → HaltsR S eof prog ctx (prog r) s := by
  induction M using Nat.strongRecOn with
  | ind M ihM =>
  intro W
  induction W using Nat.strongRecOn with
  | ind W ihW =>
  intro r ctx s hM hW hc
  have := halts_stmts (eof := eof) hT M (sizeOf (prog r)) ctx (prog r) s [] hM (Nat.le_refl _) (hprod r) hc ⟨?_, ?_⟩ ?_
  · rwa [List.append_nil] at this
  · intro r' ctx' s' hc' hlt
    exact ihM (s'.mu S.patience) (Nat.lt_of_lt_of_le hlt hM) _ r' ctx' s' (Nat.le_refl _) (Nat.le_refl _) hc'
  · intro r' hr' ctx' s' hm hl
    have := hw r _ r' hr'
    refine ihW (w r' (nextType s.rest)) (Nat.lt_of_lt_of_le this hW) r' ctx' s' (Nat.le_trans hm.mu_le hM) ?_ (hm.capped hc)
    rw [hm.rest_eq hl]; exact Nat.le_refl _
  · intro s' _ _
    exact ⟨1, by simp [execR]⟩

end

end Fcsql
