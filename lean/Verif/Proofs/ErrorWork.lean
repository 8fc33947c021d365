/-
What a run of the generated functions costs, with error recovery.
-/
import Verif.Proofs.ErrorWorkScan
import Verif.Proofs.Pending
import Verif.Model.ErrorWork

set_option autoImplicit false
set_option linter.unusedSimpArgs false

namespace Fcsql

attribute [local irreducible] parserAtn parseQuery lexerAtn lexPieces

/-! ### Static facts -/

/-- Lower bounds are better. -/
def Cost.le (x y : Cost) : Prop := x.now ≤ y.now ∧ y.gain ≤ x.gain

/-- Within the bound for all keys. -/
def Cost.within (c : Cost) (late : Nat) : Prop := c.now ≤ late ∧ -(late : Int) ≤ c.gain

variable {R : Rates} {k : DKey}

theorem Cost.within.andThen {fin : Bool} {a b : Cost} {la lb : Nat} (ha : a.within la) (hb : b.within lb) :
    (Cost.andThen fin lb a b).within (la + lb) := by
  obtain ⟨a1, a2⟩ := ha
  obtain ⟨b1, b2⟩ := hb
  unfold Cost.andThen Cost.within
  cases fin <;> simp only [if_true, if_false, Bool.false_eq_true] <;> constructor <;> omega

theorem loop_within {fin : Bool} {C w w1 w2 late lb : Nat} {b : Cost} (hb : b.within lb) (h1 : ((w + w1 + w2 : Nat) : Int) ≤ b.gain)
    (h2 : ((w + w1 + w2 : Nat) : Int) + b.now ≤ C) (hl : late ≤ w1 + (w2 + (w + lb + w1 + w2))) :
    (Cost.loop fin C w w1 w2 late b).within (w + lb + w1 + w2) := by
  obtain ⟨b1, b2⟩ := hb
  unfold Cost.loop Cost.within
  cases fin <;> simp only [if_true, if_false, Bool.false_eq_true] <;> constructor <;> omega

theorem fitLoop_at {over : Nat} {again : DKey → Bool} {b : List Stmt} (h : fitLoop R over again b = true) (hk : k ∈ nowKeys) :
    (over : Int) ≤ (costL R k b).gain ∧ (over : Int) + (costL R k b).now ≤ R.C ∧ (again k = true → (nowL k b).fin = false) := by
  have := List.all_eq_true.1 h k hk
  simp only [Bool.and_eq_true, decide_eq_true_eq, Bool.or_eq_true, Bool.not_eq_true'] at this
  refine ⟨this.1.1, this.1.2, fun ha => ?_⟩
  rcases this.2 with h | h
  · rw [ha] at h; cases h
  · exact h

theorem sane_at (h : R.sane = true) (r : Rule) (hk : k ∈ nowKeys) :
    R.now r k ≤ R.top r ∧ -(R.top r : Int) ≤ R.gain r k ∧ (R.now r k : Int) + R.gain r k ≤ R.C := by
  have := List.all_eq_true.1 (List.all_eq_true.1 h r (mem_allRules r)) k hk
  simp only [Bool.and_eq_true, decide_eq_true_eq] at this
  exact ⟨this.1.1, this.1.2, this.2⟩

mutual
theorem costS_within (hs : R.sane = true) (hk : k ∈ nowKeys) : ∀ c : Stmt, fitS R c = true → (costS R k c).within (wlS R c)
  | .sync st, _ => by simp only [costS, wlS, Cost.within]; omega
  | .matchTok st j, _ => by simp only [costS, wlS, Cost.within]; omega
  | .matchSet st t, _ => by simp only [costS, wlS, Cost.within]; omega
  | .call st r, _ => by
    obtain ⟨h1, h2, -⟩ := sane_at hs r hk
    simp only [costS, wlS, Cost.within]; omega
  | .predict d bs, h => by
    rw [fitS] at h
    obtain ⟨h1, h2⟩ := costBs_within hs hk d bs h 1
    simp only [costS, wlS, Cost.within]; omega
  | .switchLA cs, h => by
    rw [fitS] at h
    obtain ⟨h1, h2⟩ := costCs_within hs hk cs h
    simp only [costS, wlS, Cost.within]; omega
  | .ifLA t b, h => by
    rw [fitS] at h
    obtain ⟨h1, h2⟩ := costL_within hs hk b h
    simp only [costS, wlS, Cost.within]
    split <;> dsimp only <;> omega
  | .whileLA b st t, h => by
    simp only [fitS, Bool.and_eq_true] at h
    have h1 := costL_within hs hk b h.1
    obtain ⟨h2, h3, -⟩ := fitLoop_at h.2 hk
    simp only [costS, wlS]
    exact loop_within h1 h2 h3 (by omega)
  | .whilePredict b st d, h => by
    simp only [fitS, Bool.and_eq_true] at h
    have h1 := costL_within hs hk b h.1
    obtain ⟨h2, h3, -⟩ := fitLoop_at h.2 hk
    simp only [costS, wlS]
    exact loop_within h1 h2 h3 (by omega)
  | .loopPredict b st d, h => by
    simp only [fitS, Bool.and_eq_true] at h
    obtain ⟨h0, h1⟩ := costL_within hs hk b h.1
    obtain ⟨h2, h3, h4⟩ := fitLoop_at h.2 hk
    simp only [costS, wlS, Cost.within]
    split
    · rename_i ho
      rw [h4 ho]
      simp only [Cost.loop, Bool.false_eq_true, if_false]
      constructor <;> omega
    · constructor <;> dsimp only <;> omega
theorem costL_within (hs : R.sane = true) (hk : k ∈ nowKeys) : ∀ ss : List Stmt, fitL R ss = true → (costL R k ss).within (wlL R ss)
  | [], _ => by simp only [costL, wlL, Cost.within]; omega
  | c :: ss, h => by
    simp only [fitL, Bool.and_eq_true] at h
    simp only [costL, wlL]
    exact (costS_within hs hk c h.1).andThen (costL_within hs hk ss h.2)
theorem costBs_within (hs : R.sane = true) (hk : k ∈ nowKeys) (d : Nat) : ∀ bs : List (List Stmt), fitBs R bs = true →
    ∀ i, (costBs R k d i bs).within (wlBs R bs)
  | [], _, i => by simp only [costBs, wlBs, Cost.within]; omega
  | b :: bs, h, i => by
    simp only [fitBs, Bool.and_eq_true] at h
    obtain ⟨h1, h2⟩ := costL_within hs hk b h.1
    obtain ⟨h3, h4⟩ := costBs_within hs hk d bs h.2 (i + 1)
    simp only [costBs, wlBs, Cost.within]
    split <;> constructor <;> (try dsimp only) <;> omega
theorem costCs_within (hs : R.sane = true) (hk : k ∈ nowKeys) : ∀ cs : List (List Int × List Stmt), fitCs R cs = true →
    (costCs R k cs).within (wlCs R cs)
  | [], _ => by simp only [costCs, wlCs, Cost.within]; omega
  | (ks, b) :: cs, h => by
    simp only [fitCs, Bool.and_eq_true] at h
    obtain ⟨h1, h2⟩ := costL_within hs hk b h.1
    obtain ⟨h3, h4⟩ := costCs_within hs hk cs h.2
    simp only [costCs, wlCs, Cost.within]
    split <;> omega
end

theorem fitL_append (a b : List Stmt) : fitL R (a ++ b) = (fitL R a && fitL R b) := by
  induction a with
  | nil => simp [fitL]
  | cons c a ih => simp [fitL, ih, Bool.and_assoc]

theorem wlL_append (a b : List Stmt) : wlL R (a ++ b) = wlL R a + wlL R b := by
  induction a with
  | nil => simp [wlL]
  | cons c a ih => simp [wlL, ih, Nat.add_assoc]

theorem Cost.andThen_le {fin : Bool} {late : Nat} {a b b' : Cost} (h : b.le b') : (Cost.andThen fin late a b).le (Cost.andThen fin late a b') := by
  obtain ⟨h1, h2⟩ := h
  unfold Cost.andThen Cost.le
  cases fin <;> simp only [if_true, if_false, Bool.false_eq_true] <;> constructor <;> omega

theorem Cost.le.trans {a b c : Cost} (h : a.le b) (h' : b.le c) : a.le c := ⟨Nat.le_trans h.1 h'.1, Int.le_trans h'.2 h.2⟩

theorem costL_append (k : DKey) (a b : List Stmt) :
    (costL R k (a ++ b)).le (Cost.andThen (nowL k a).fin (wlL R b) (costL R k a) (costL R k b)) := by
  induction a with
  | nil =>
    simp only [List.nil_append, nowL, costL, Cost.andThen, if_true, Cost.le]
    constructor <;> omega
  | cons c a ih =>
    rw [List.cons_append, costL, nowL, Zero.andThen_fin, costL]
    refine (Cost.andThen_le ih).trans ?_
    rw [wlL_append]
    unfold Cost.andThen Cost.le
    cases (nowS k c).fin <;> cases (nowL k a).fin <;>
      simp only [if_true, if_false, Bool.false_eq_true, Bool.and_true, Bool.true_and, Bool.and_self, Bool.false_and] <;> constructor <;> omega

theorem fitBs_branch : ∀ (bs : List (List Stmt)) (a : Nat), fitBs R bs = true → fitL R (branch bs a) = true
  | [], a, _ => by have : branch [] a = [] := by cases a <;> simp [branch]
                   rw [this]; rfl
  | b :: bs, 0, _ => by simp [branch, fitL]
  | b :: bs, 1, h => by
    simp only [fitBs, Bool.and_eq_true] at h
    simpa only [branch, List.getElem?_cons_zero] using h.1
  | b :: bs, a + 2, h => by
    simp only [fitBs, Bool.and_eq_true] at h
    have e : branch (b :: bs) (a + 2) = branch bs (a + 1) := by simp [branch]
    rw [e]; exact fitBs_branch bs (a + 1) h.2

theorem costBs_branch {d : Nat} : ∀ (bs : List (List Stmt)) (i a : Nat), 1 ≤ a → altOpen d (i + a - 1) k = true →
    (costL R k (branch bs a)).le (costBs R k d i bs)
  | [], i, a, ha, h => by
    have : branch [] a = [] := by cases a <;> simp [branch]
    rw [this]; exact ⟨Nat.le_refl _, Int.le_refl _⟩
  | b :: bs, i, 0, ha, h => by omega
  | b :: bs, i, 1, ha, h => by
    have h : altOpen d i k = true := by simpa using h
    simp only [branch, List.getElem?_cons_zero, costBs, if_pos h, Cost.le]
    constructor <;> omega
  | b :: bs, i, a + 2, ha, h => by
    have e : branch (b :: bs) (a + 2) = branch bs (a + 1) := by simp [branch]
    have h' : altOpen d (i + 1 + (a + 1) - 1) k = true := by
      rwa [show i + 1 + (a + 1) - 1 = i + (a + 2) - 1 by omega]
    obtain ⟨h1, h2⟩ := costBs_branch bs (i + 1) (a + 1) (by omega) h'
    rw [e]
    simp only [costBs]
    split
    · simp only [Cost.le]; constructor <;> omega
    · exact ⟨h1, h2⟩

theorem fitCs_case {j : Int} : ∀ (cs : List (List Int × List Stmt)) {b : List Stmt}, fitCs R cs = true → switchCase j cs = some b →
    fitL R b = true
  | [], b, _, h => by simp [switchCase] at h
  | (ks, b') :: cs, b, hf, h => by
    simp only [fitCs, Bool.and_eq_true] at hf
    simp only [switchCase] at h
    split at h
    · cases h; exact hf.1
    · exact fitCs_case cs hf.2 h

theorem costCs_case : ∀ (cs : List (List Int × List Stmt)) {b : List Stmt}, switchCase (keyNum k.1) cs = some b →
    costCs R k cs = costL R k b
  | [], b, h => by simp [switchCase] at h
  | (ks, b') :: cs, b, h => by
    simp only [switchCase] at h
    simp only [costCs]
    split at h
    · rename_i hk; cases h; rw [if_pos hk]
    · rename_i hk; rw [if_neg hk]; exact costCs_case cs h

/-! ### Runs -/

/-- The weight of statements. -/
def workOf (R : Rates) (l : List Executed) : Nat := (l.map fun d => R.w d.stmt).sum

theorem workOf_cons (d : Executed) (l : List Executed) : workOf R (d :: l) = R.w d.stmt + workOf R l := by simp [workOf]

theorem workOf_append (l l' : List Executed) : workOf R (l ++ l') = workOf R l + workOf R l' := by simp [workOf]

theorem workOf_nil : workOf R [] = 0 := rfl

/-- The tokens that are left. -/
def EOut.left : EOut → List Tok
  | .ok s => s.rest
  | .raised _ s => s.rest
  | .timeout s => s.rest

/-- The cost of a run from the tokens `ts` to `ts'` is covered. -/
def Covered (R : Rates) (ts : List Tok) (c : Cost) (a : Nat) (ts' : List Tok) : Prop :=
  ts' <:+ ts ∧ (ts' = ts → a ≤ c.now) ∧ (ts' ≠ ts → (a : Int) + c.gain + ((R.C * ts'.length : Nat) : Int) ≤ ((R.C * ts.length : Nat) : Int))

theorem Covered.mono {ts ts' : List Tok} {c c' : Cost} {a : Nat} (h : Covered R ts c a ts') (hc : c.le c') : Covered R ts c' a ts' := by
  obtain ⟨h1, h2, h3⟩ := h
  obtain ⟨h4, h5⟩ := hc
  exact ⟨h1, fun e => by have := h2 e; omega, fun e => by have := h3 e; omega⟩

theorem paid {ts ts' : List Tok} (h : ts' <:+ ts) (hne : ts' ≠ ts) : R.C * ts'.length + R.C ≤ R.C * ts.length := by
  have h1 := h.length_le
  have h2 : ts'.length ≠ ts.length := fun e => hne (h.eq_of_length_le (by omega))
  have := Nat.mul_le_mul_left R.C (show ts'.length + 1 ≤ ts.length by omega)
  rwa [Nat.mul_add, Nat.mul_one] at this

/-- A run that costs no more than the bound for all keys, beyond what the tokens pay. -/
theorem Covered.late {ts ts' : List Tok} {c : Cost} {a late : Nat} (h : Covered R ts c a ts') (hc : c.within late) :
    a + R.C * ts'.length ≤ late + R.C * ts.length := by
  obtain ⟨h1, h2, h3⟩ := h
  obtain ⟨h4, h5⟩ := hc
  by_cases e : ts' = ts
  · have := h2 e; rw [e]; omega
  · have := h3 e; omega

theorem Covered.andThen {ts ts1 ts2 : List Tok} {fin : Bool} {ss : List Stmt} {c : Cost} {a1 a2 : Nat} (hs : R.sane = true)
    (hf : fitL R ss = true) (h1 : Covered R ts c a1 ts1) (hfin : ts1 = ts → fin = true)
    (h2 : Covered R ts1 (costL R (dkey ts1) ss) a2 ts2) :
    Covered R ts (Cost.andThen fin (wlL R ss) c (costL R (dkey ts) ss)) (a1 + a2) ts2 := by
  have hw := costL_within hs (mem_nowKeys ts1) ss hf
  have hlate := h2.late hw
  obtain ⟨h1, h3, h4⟩ := h1
  refine ⟨h2.1.trans h1, ?_, ?_⟩
  · rintro rfl
    have e : ts1 = ts2 := h1.eq_of_length_le h2.1.length_le
    have := h3 e
    have := h2.2.1 e.symm
    rw [hfin e]
    simp only [Cost.andThen, if_true]
    rw [e] at this
    omega
  · intro hne
    by_cases e : ts1 = ts
    · subst e
      have := h3 rfl
      have := h2.2.2 hne
      rw [hfin rfl]
      simp only [Cost.andThen, if_true]
      omega
    · have := h4 e
      unfold Cost.andThen
      split <;> dsimp only <;> omega

theorem Covered.stop {ts ts1 : List Tok} {fin : Bool} {late : Nat} {c d : Cost} {a : Nat} (h : Covered R ts c a ts1) :
    Covered R ts (Cost.andThen fin late c d) a ts1 := by
  obtain ⟨h1, h2, h3⟩ := h
  refine ⟨h1, fun e => ?_, fun e => ?_⟩
  · have := h2 e
    unfold Cost.andThen
    split <;> dsimp only <;> omega
  · have := h3 e
    unfold Cost.andThen
    split <;> dsimp only <;> omega

/-- A statement that only costs its weight. -/
theorem Covered.plain {ts ts1 : List Tok} (w : Nat) (h : ts1 <:+ ts) : Covered R ts ⟨w, R.C - w⟩ w ts1 := by
  refine ⟨h, fun _ => Nat.le_refl _, fun e => ?_⟩
  have := paid (R := R) h e
  dsimp only
  omega

/-- Something is done first. -/
theorem Covered.first {ts ts1 : List Tok} {c c' : Cost} {a w : Nat} (h : Covered R ts c a ts1) (h1 : w + c.now ≤ c'.now)
    (h2 : c'.gain ≤ c.gain - w) : Covered R ts c' (w + a) ts1 := by
  obtain ⟨g1, g2, g3⟩ := h
  exact ⟨g1, fun e => by have := g2 e; omega, fun e => by have := g3 e; omega⟩

variable {room : Nat} {eof : Tok}

theorem covers_step {ctx : List Nat} {c : Stmt} {ss : List Stmt} {s : EState} {step : EStep} {next : EState → EOut} {did : EState → List Executed}
    (hs : R.sane = true) (hf : fitL R ss = true) (hn : step.Now s.rest (nowS (dkey s.rest) c)) (hc : costS R (dkey s.rest) c = ⟨R.w c, R.C - R.w c⟩)
    (h : ∀ s', step = .go s' → Covered R s'.rest (costL R (dkey s'.rest) ss) (workOf R (did s')) (next s').left) :
    Covered R s.rest (costL R (dkey s.rest) (c :: ss)) (workOf R (⟨c, ctx, s.rest⟩ :: step.acts did)) (step.andThen next).left := by
  rw [costL, hc, workOf_cons]
  cases step with
  | stop f s' => exact Covered.stop (Covered.plain _ hn.1)
  | go s' => exact Covered.andThen hs hf (Covered.plain _ hn.1) hn.2 (h s' rfl)

theorem right_at (h : R.right = true) (r : Rule) : fitL R (code r) = true ∧ ∀ ts, calledAt r (nextType ts) = true →
    (costL R (dkey ts) (code r)).le ⟨R.now r (dkey ts), R.gain r (dkey ts)⟩ := by
  have := List.all_eq_true.1 h r (mem_allRules r)
  rw [Bool.and_eq_true] at this
  refine ⟨this.1, fun ts ht => ?_⟩
  have := List.all_eq_true.1 this.2 _ (mem_nowKeys ts)
  rw [show (dkey ts).1 = nextType ts from rfl, ht, Bool.not_true, Bool.false_or] at this
  simp only [Bool.and_eq_true, decide_eq_true_eq] at this
  exact this

theorem exec_covers (hs : R.sane = true) (hg : R.right = true) : ∀ (n : Nat) (ctx : List Nat) (ss : List Stmt) (s : EState), Capped s.rest →
    Roomy room ctx ss s.rest → fitL R ss = true →
    Covered R s.rest (costL R (dkey s.rest) ss) (workOf R (execActs parserAtn eof code n ctx ss s)) (execE parserAtn eof code n ctx ss s).left := by
  intro n
  induction n with
  | zero => intro ctx ss s _ _ _; exact ⟨List.suffix_rfl, fun _ => Nat.zero_le _, fun e => absurd rfl e⟩
  | succ n ih =>
    intro ctx ss s hc hr hf
    cases ss with
    | nil => exact ⟨List.suffix_rfl, fun _ => Nat.zero_le _, fun e => absurd rfl e⟩
    | cons c ss =>
      have hf' := hf
      simp only [fitL, Bool.and_eq_true] at hf'
      obtain ⟨hf1, hf2⟩ := hf'
      have hgo : ∀ {step : EStep}, step.Now s.rest (nowS (dkey s.rest) c) → ∀ s', step = .go s' →
          Covered R s'.rest (costL R (dkey s'.rest) ss) (workOf R (execActs parserAtn eof code n ctx ss s')) (execE parserAtn eof code n ctx ss s').left := by
        intro step h s' e
        subst e
        exact ih ctx ss s' (hc.suffix h.1) (hr.step h.1 h.2) hf2
      cases c with
      | sync st =>
        rw [execE, execActs]
        have h := sync_now (eof := eof) st ctx s
        exact covers_step hs hf2 h rfl (hgo h)
      | matchTok st j =>
        rw [execE, execActs]
        have h : EStep.Now s.rest (nowS (dkey s.rest) (.matchTok st j)) (matchE parserAtn eof ctx (fun i => decide (i = j)) (s.at st)) := by
          rw [nowS]; simpa using match_now (eof := eof) st ctx (fun i => decide (i = j)) s
        exact covers_step hs hf2 h rfl (hgo h)
      | matchSet st t =>
        rw [execE, execActs]
        have h : EStep.Now s.rest (nowS (dkey s.rest) (.matchSet st t)) (matchE parserAtn eof ctx t.eval (s.at st)) := by
          rw [nowS]; exact match_now (eof := eof) st ctx t.eval s
        exact covers_step hs hf2 h rfl (hgo h)
      | call st r =>
        obtain ⟨-, hb⟩ := hr.body
        have hcall : calledAt r (nextType s.rest) = true :=
          (hr.now r (by rw [nowL, Zero.andThen_calls, nowS]; exact .inl List.mem_cons_self)).1
        obtain ⟨f1, f2⟩ := right_at hg r
        have hin : Covered R s.rest ⟨R.now r (dkey s.rest), R.gain r (dkey s.rest)⟩
            (workOf R (execActs parserAtn eof code n (st :: ctx) (code r) (s.at st)))
            (execE parserAtn eof code n (st :: ctx) (code r) (s.at st)).left :=
          (ih (st :: ctx) (code r) (s.at st) hc hb f1).mono (f2 _ hcall)
        have hsane := (sane_at hs r (mem_nowKeys s.rest)).2.2
        have hnow := execE_now (eof := eof) n (st :: ctx) (code r) (s.at st) hc
        have hbody : ∀ ts' : List Tok, Covered R s.rest ⟨R.now r (dkey s.rest), R.gain r (dkey s.rest)⟩
              (workOf R (execActs parserAtn eof code n (st :: ctx) (code r) (s.at st))) ts' →
            Covered R s.rest (costS R (dkey s.rest) (.call st r))
              (R.w (.call st r) + workOf R (execActs parserAtn eof code n (st :: ctx) (code r) (s.at st))) ts' := by
          intro ts' h
          exact h.first (by simp only [costS]; omega) (by simp only [costS]; omega)
        rw [execE, execActs, workOf_cons, workOf_append, ← Nat.add_assoc, costL]
        have fin : ∀ s' : EState, s'.rest <:+ s.rest → (s'.rest = s.rest → sureNow r (dkey s.rest) = false) →
            Covered R s.rest ⟨R.now r (dkey s.rest), R.gain r (dkey s.rest)⟩
              (workOf R (execActs parserAtn eof code n (st :: ctx) (code r) (s.at st))) s'.rest →
            Covered R s.rest (Cost.andThen (nowS (dkey s.rest) (.call st r)).fin (wlL R ss) (costS R (dkey s.rest) (.call st r)) (costL R (dkey s.rest) ss))
              (R.w (.call st r) + workOf R (execActs parserAtn eof code n (st :: ctx) (code r) (s.at st)) +
                workOf R (execActs parserAtn eof code n ctx ss (s'.at st))) (execE parserAtn eof code n ctx ss (s'.at st)).left := by
          intro s' h1 h2 h3
          have hfin : s'.rest = s.rest → (nowS (dkey s.rest) (.call st r)).fin = true := fun e => by rw [nowS]; simp [h2 e]
          exact Covered.andThen hs hf2 (hbody _ h3) hfin (ih ctx ss (s'.at st) (hc.suffix h1) (hr.step h1 hfin) hf2)
        cases hx : execE parserAtn eof code n (st :: ctx) (code r) (s.at st) with
        | timeout s' =>
          rw [hx] at hin
          dsimp only
          rw [workOf_nil, Nat.add_zero]
          exact Covered.stop (hbody _ hin)
        | ok s' =>
          rw [hx] at hin hnow
          refine fin s' hnow.1 (fun e => ?_) hin
          cases hq : sureNow r (dkey s.rest) with
          | false => rfl
          | true => have := (sure_code hq).1; rw [show (nowL (dkey s.rest) (code r)).fin = true from hnow.2 e] at this; cases this
        | raised f s' =>
          rw [hx] at hin hnow
          obtain ⟨c1, c2⟩ := caught_now (eof := eof) (ctx := st :: ctx) (f := f) (hc.suffix hnow.1)
          refine fin _ (c1.trans hnow.1) (fun e => ?_) ?_
          · have e1 : s'.rest = s.rest := hnow.1.eq_of_length_le (by change s.rest.length ≤ _; rw [← e]; exact c1.length_le)
            cases hq : sureNow r (dkey s.rest) with
            | false => rfl
            | true =>
              rcases (sure_code hq).2 with h3 | h3
              · rw [show (nowL (dkey s.rest) (code r)).raise = true from hnow.2 e1] at h3; cases h3
              · rw [← e1, c2 (by rw [e, e1])] at h3; cases h3
          · obtain ⟨i1, i2, i3⟩ := hin
            dsimp only [EOut.left] at i1 i2 i3
            refine ⟨c1.trans i1, fun e => ?_, fun e => ?_⟩
            · exact i2 (i1.eq_of_length_le (by rw [← e]; exact c1.length_le))
            · by_cases e1 : s'.rest = s.rest
              · have := i2 e1
                have := paid (R := R) (c1.trans i1) e
                dsimp only at this ⊢
                omega
              · have := i3 e1
                have := Nat.mul_le_mul_left R.C c1.length_le
                dsimp only at *
                omega
      | predict d bs =>
        rw [execE, execActs, workOf_cons]
        cases hp : parserAtn.simulator.predictor.predict d ctx s.rest with
        | none =>
          dsimp only
          rw [workOf_nil, costL]
          refine Covered.stop ⟨List.suffix_rfl, fun _ => ?_, fun e => absurd rfl e⟩
          simp only [costS]; omega
        | some a =>
          obtain ⟨g1, g2⟩ := predict_open hc hp
          rw [fitS] at hf1
          have h := ih ctx (branch bs a ++ ss) (s.look (parserAtn.looksAt d ctx s.rest)) hc (hr.branch g1 g2)
            (by rw [fitL_append, fitBs_branch bs a hf1, hf2]; rfl)
          dsimp only
          obtain ⟨b1, b2⟩ := costBs_branch (R := R) (k := dkey s.rest) bs 1 a g1 (by rwa [show 1 + a - 1 = a by omega])
          have h := h.mono (costL_append _ _ _)
          refine Covered.first h ?_ ?_
          · change _ + (Cost.andThen (nowL (dkey s.rest) (branch bs a)).fin (wlL R ss) (costL R (dkey s.rest) (branch bs a)) (costL R (dkey s.rest) ss)).now ≤ _
            rw [costL, costS]
            unfold Cost.andThen
            simp only [nowS, if_true]
            split <;> dsimp only <;> omega
          · change _ ≤ (Cost.andThen (nowL (dkey s.rest) (branch bs a)).fin (wlL R ss) (costL R (dkey s.rest) (branch bs a)) (costL R (dkey s.rest) ss)).gain - _
            rw [costL, costS]
            unfold Cost.andThen
            simp only [nowS, if_true]
            split <;> dsimp only <;> omega
      | switchLA cs =>
        rw [execE, execActs, workOf_cons]
        rw [fitS] at hf1
        cases hp : switchCase (la s.rest) cs with
        | none =>
          dsimp only
          rw [workOf_nil, costL]
          refine Covered.stop ⟨List.suffix_rfl, fun _ => ?_, fun e => absurd rfl e⟩
          simp only [costS]; omega
        | some b =>
          have h := (ih ctx (b ++ ss) s hc (hr.case hp) (by rw [fitL_append, fitCs_case cs hf1 hp, hf2]; rfl)).mono (costL_append _ _ _)
          have hp' : switchCase (keyNum (dkey s.rest).1) cs = some b := by rw [show keyNum (dkey s.rest).1 = la s.rest from (la_keyNum s.rest).symm, hp]
          dsimp only
          refine Covered.first h ?_ ?_ <;>
            (rw [costL, costS, costCs_case cs hp', nowS, nowCs_case, hp']; unfold Cost.andThen; dsimp only; split <;> dsimp only <;> omega)
      | ifLA t b =>
        rw [execE, execActs, workOf_cons]
        rw [fitS] at hf1
        have hk : keyNum (dkey s.rest).1 = la s.rest := (la_keyNum s.rest).symm
        have h := (ih ctx _ s hc hr.guard (by rw [fitL_append, hf2]; split <;> simp [hf1, fitL])).mono (costL_append _ _ _)
        refine Covered.first h ?_ ?_ <;>
          (rw [costL, costS, nowS, hk]
           by_cases ht : t.eval (la s.rest) = true
           · simp only [if_pos ht]; unfold Cost.andThen; dsimp only; split <;> dsimp only <;> omega
           · simp only [if_neg ht, nowL, costL]; unfold Cost.andThen; simp only [if_true]; omega)
      | whileLA b st t =>
        rw [execE, execActs, workOf_cons]
        simp only [fitS, Bool.and_eq_true] at hf1
        have hk : keyNum (dkey s.rest).1 = la s.rest := (la_keyNum s.rest).symm
        have hfit : fitL R (b ++ (.sync st :: .ifLA t [.whileLA b st t] :: ss)) = true := by
          simp only [fitL_append, fitL, fitS, hf1.1, hf1.2, hf2, Bool.and_self, Bool.true_and, Bool.and_true]
        have h := (ih ctx _ s hc hr.whileLA hfit).mono (costL_append _ _ _)
        obtain ⟨l1, l2, l3⟩ := fitLoop_at hf1.2 (mem_nowKeys s.rest)
        rw [hk] at l3
        have hb : (nowL (dkey s.rest) b).fin = true → t.eval (la s.rest) = false := by
          intro e
          cases ht : t.eval (la s.rest) with
          | false => rfl
          | true => rw [l3 ht] at e; cases e
        refine Covered.first h ?_ ?_ <;>
          (rw [show costL R (dkey s.rest) (.whileLA b st t :: ss) = Cost.andThen _ _ _ _ by rw [costL, costS, nowS]]
           simp only [Cost.andThen, Cost.loop]
           cases hfin : (nowL (dkey s.rest) b).fin with
           | false => simp only [Bool.false_eq_true, if_false, wlL, wlS]; omega
           | true =>
             simp only [if_true, costL, costS, nowS, hk, hb hfin, Bool.false_eq_true, if_false, Cost.andThen, wlL, wlS]
             omega)
      | whilePredict b st d =>
        rw [execE, execActs, workOf_cons]
        simp only [fitS, Bool.and_eq_true] at hf1
        have hfit : fitL R (b ++ (.sync st :: .loopPredict b st d :: ss)) = true := by
          simp only [fitL_append, fitL, fitS, hf1.1, hf1.2, hf2, Bool.and_self, Bool.true_and, Bool.and_true]
        have h := (ih ctx _ s hc hr.whilePredict hfit).mono (costL_append _ _ _)
        obtain ⟨l1, l2, l3⟩ := fitLoop_at hf1.2 (mem_nowKeys s.rest)
        have hb : (nowL (dkey s.rest) b).fin = true → altOpen d 1 (dkey s.rest) = false := by
          intro e
          cases ht : altOpen d 1 (dkey s.rest) with
          | false => rfl
          | true => rw [l3 ht] at e; cases e
        refine Covered.first h ?_ ?_ <;>
          (rw [show costL R (dkey s.rest) (.whilePredict b st d :: ss) = Cost.andThen _ _ _ _ by rw [costL, costS, nowS]]
           simp only [Cost.andThen, Cost.loop]
           cases hfin : (nowL (dkey s.rest) b).fin with
           | false => simp only [Bool.false_eq_true, if_false, wlL, wlS]; omega
           | true =>
             simp only [if_true, costL, costS, nowS, hb hfin, Bool.false_eq_true, if_false, Cost.andThen, wlL, wlS]
             omega)
      | loopPredict b st d =>
        rw [execE, execActs, workOf_cons]
        have hf3 := hf1
        simp only [fitS, Bool.and_eq_true] at hf1
        have hst : ∀ s' : EState, s'.rest = s.rest → Covered R s.rest (costL R (dkey s.rest) (.loopPredict b st d :: ss)) (R.w (.loopPredict b st d) + workOf R []) s'.rest := by
          intro s' e
          rw [e, workOf_nil, costL]
          refine Covered.stop ⟨List.suffix_rfl, fun _ => ?_, fun e => absurd rfl e⟩
          simp only [costS]; split <;> dsimp only <;> omega
        cases hp : parserAtn.simulator.predictor.predict d ctx s.rest with
        | none => exact hst _ rfl
        | some a =>
          obtain ⟨g1, g2⟩ := predict_open hc hp
          dsimp only
          split
          · have h := ih ctx ss (s.look (parserAtn.looksAt d ctx s.rest)) hc hr.leave hf2
            have hle : Covered R s.rest (costS R (dkey s.rest) (.loopPredict b st d)) (R.w (.loopPredict b st d)) s.rest := by
              refine ⟨List.suffix_rfl, fun _ => ?_, fun e => absurd rfl e⟩
              simp only [costS]; split <;> dsimp only <;> omega
            rw [costL]
            exact Covered.andThen hs hf2 hle (fun _ => rfl) h
          · split
            · rename_i ha
              rw [ha] at g2
              have h := ih ctx (.whilePredict b st d :: ss) (s.look (parserAtn.looksAt d ctx s.rest)) hc hr.again
                (by simp only [fitL, fitS, hf1.1, hf1.2, hf2, Bool.and_self])
              obtain ⟨l1, l2, l3⟩ := fitLoop_at hf1.2 (mem_nowKeys s.rest)
              refine Covered.first h ?_ ?_
              · change _ + (costL R (dkey s.rest) (.whilePredict b st d :: ss)).now ≤ _
                rw [costL, costL]
                simp only [costS, nowS, Cost.andThen, Cost.loop, l3 g2, if_pos g2, Bool.false_eq_true, if_false, if_true]
                omega
              · change _ ≤ (costL R (dkey s.rest) (.whilePredict b st d :: ss)).gain - _
                rw [costL, costL]
                simp only [costS, nowS, Cost.andThen, Cost.loop, l3 g2, if_pos g2, Bool.false_eq_true, if_false, if_true]
                omega
            · exact hst _ rfl

end Fcsql
