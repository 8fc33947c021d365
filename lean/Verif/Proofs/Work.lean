/-
The runtime's lexer looks at each character at most twice, on average.
-/
import Verif.Model.Work
import Verif.Proofs.LexerSimAll
import Verif.Proofs.Layout

set_option autoImplicit false
set_option linter.unusedSimpArgs false

namespace Fcsql

attribute [local irreducible] lexerAtn

/-! ### A token is overshot only over hyphens -/

/-- If the longest match is `w` and the simulation could go on to `u`, then `u` is `w` and hyphens. -/
theorem overshoot {s w u : PyStr} {t : TokType} (h : LongestMatch s t w) (hw : w <+: u) (hu : u <+: s) (hv : Viable lexRules u) :
    ∃ h, u = w ++ List.replicate h 45 := by
  obtain ⟨x, rfl⟩ := hw
  obtain ⟨v, hv⟩ := hv
  suffices hx : ∀ c ∈ x, c = 45 from ⟨x.length, by rw [List.eq_replicate_of_mem hx, List.length_replicate]⟩
  have hno : ∀ a b, x = a ++ b → a ≠ [] → ¬ SomeRule lexRules (w ++ a) := by
    rintro a b rfl ha
    refine h.longest _ ((List.prefix_append _ b).trans (by rwa [List.append_assoc])) ?_
    rw [List.length_append]
    have := List.length_pos_iff.2 ha
    omega
  by_cases hx0 : x = []
  · subst hx0; simp
  have hrule : SomeRule lexRules w := h.first.someRule
  have hfirst := someRule_text hrule
  obtain ⟨a, y, rfl, hcase⟩ := hfirst.head
  have hbig := someRule_text hv
  obtain ⟨a', y', e, hcase'⟩ := hbig.head
  simp only [List.cons_append, List.cons.injEq] at e
  obtain ⟨rfl, rfl⟩ := e
  rcases hcase' with ⟨h1, -⟩ | ⟨rfl, h1⟩ | ⟨hl, hn⟩ | ⟨hd, hall⟩ | ⟨hq, ps, hlit⟩
  · simp only [List.append_eq_nil_iff] at h1
    exact absurd h1.1.2 hx0
  · have hy : y = [] := by
      cases y with
      | nil => rfl
      | cons b y =>
        have h2 := congrArg List.length h1
        have h3 := List.length_pos_iff.2 hx0
        simp only [List.length_append, List.length_cons, List.length_nil] at h2
        omega
    subst hy
    have hx : x = [61] := by
      cases x with
      | nil => exact absurd rfl hx0
      | cons b x =>
        simp at h1
        rw [h1.1, h1.2.1]
    subst hx
    refine absurd ?_ (hno [61] [] rfl (by simp))
    exact ⟨(.OPERATOR_NE, Rx.str py!"!="), by simp [lexRules], (matches_str _).2 rfl⟩
  · -- a name
    have hnw : IsName (a :: y) := by
      have hne := isLetter_ne hl
      rcases hcase with ⟨rfl, h1⟩ | ⟨rfl, -⟩ | ⟨-, h1⟩ | ⟨h1, -⟩ | ⟨h1, -⟩
      · exact .inl ⟨a, rfl, hl⟩
      · simp at hne
      · exact h1
      · rw [hne.2.1] at h1; cases h1
      · omega
    have hch : ∀ c ∈ x, isAlnum c = true ∨ c = 45 := fun c hc => hn.chars c (by simp [hc])
    intro c hc
    rcases hch c hc with h1 | h1
    · exfalso
      obtain ⟨l, r, rfl⟩ := List.append_of_mem hc
      refine hno (l ++ [c]) r (by simp) (by simp) ?_
      have : IsName ((a :: y) ++ (l ++ [c])) := by
        refine .inr ⟨a, y ++ l, c, by simp, hl, ?_, h1⟩
        intro d hd
        rcases List.mem_append.1 hd with hd | hd
        · exact hnw.chars d (by simp [hd])
        · exact hch d (by simp [hd])
      exact ⟨(.IDENTIFIER, rxIdentifier), by simp [lexRules], matches_identifier.2 this⟩
    · exact h1
  · exfalso
    refine hno x [] (by simp) hx0 ?_
    refine ⟨(.INTEGER, rxInteger), by simp [lexRules], matches_integer.2 ⟨by simp, ?_⟩⟩
    simp only [List.all_eq_true] at hall ⊢
    intro c hc
    refine hall c ?_
    simp only [List.cons_append, List.mem_cons, List.mem_append] at hc ⊢
    rcases hc with hc | hc | hc <;> simp [hc]
  · exfalso
    have hlw : ∃ ps', IsLit (a :: y) a ps' := by
      rcases hcase with ⟨rfl, h1⟩ | ⟨rfl, -⟩ | ⟨h1, -⟩ | ⟨h1, -⟩ | ⟨-, h1⟩
      · exfalso
        rcases hq with rfl | rfl <;> rcases h1 with h1 | h1 <;> revert h1 <;> decide +kernel
      · omega
      · have := isLetter_ne h1; omega
      · have := isDigit_ne h1; omega
      · exact h1
    obtain ⟨ps', hps'⟩ := hlw
    have := lit_prefixFree hps' hlit (v := x ++ v) (by simp)
    simp only [List.append_eq_nil_iff] at this
    exact hx0 this.1

/-- No token begins with a hyphen. -/
theorem not_viable_hyphen (v : PyStr) : ¬ SomeRule lexRules (45 :: v) := by
  intro h
  obtain ⟨a, y, e, hcase⟩ := (someRule_text h).head
  simp only [List.cons.injEq] at e
  obtain ⟨rfl, rfl⟩ := e
  rcases hcase with ⟨-, h1 | h1⟩ | ⟨h1, -⟩ | ⟨h1, -⟩ | ⟨h1, -⟩ | ⟨h1, -⟩
  · revert h1; decide
  · revert h1; decide +kernel
  · omega
  · revert h1; decide
  · revert h1; decide
  · omega

/-! ### The rounds of a match -/

theorem lexExecRounds_eq {m : Nat} (hm : 28 ≤ m) (q : PyStr) (n : Nat) :
    ∀ (u : PyStr) (cs : List LConf) (prev prev' : Option SimState) (p e : LexPos), IsSet u cs → p.index ≤ q.length →
      lexExec lexerAtn m q n cs prev p = some (prev', e) → lexExecRounds lexerAtn m q n cs p + p.index = e.index + 1 := by
  induction n with
  | zero => intro u cs prev prev' p e _ _ h; cases h
  | succ n ih =>
    intro u cs prev prev' p e hcs hp h
    unfold lexExec at h
    unfold lexExecRounds
    cases hq : q[p.index]? with
    | none =>
      rw [inputLA_none.2 (List.getElem?_eq_none_iff.1 hq), hcs.eof] at h ⊢
      simp only [Option.some.injEq, Prod.mk.injEq] at h ⊢
      rw [← h.2]
      omega
    | some k =>
      rw [inputLA_some hq] at h ⊢
      obtain ⟨cs', h1, h2⟩ := hcs.step hm k
      rw [h1] at h ⊢
      cases cs' with
      | nil =>
        simp only [Option.some.injEq, Prod.mk.injEq] at h ⊢
        rw [← h.2]
        omega
      | cons c cs' =>
        have hk1 : ¬ ((k : Int) = -1) := by omega
        have hk2 : decide ((k : Int) = -1) = false := by simp
        simp only [hk2, Bool.and_false, if_neg hk1, Bool.false_eq_true, if_false] at h ⊢
        have hc : (p.consume q).index = p.index + 1 := by
          unfold LexPos.consume
          split <;> rfl
        have hl := (List.getElem?_eq_some_iff.1 hq).1
        have := ih _ _ _ _ _ _ h2 (by rw [hc]; omega) h
        omega

/-- Leading hyphens. -/
def leadingHyphens : PyStr → Nat
  | c :: cs => if c = 45 then leadingHyphens cs + 1 else 0
  | [] => 0

theorem leadingHyphens_le (s : PyStr) : leadingHyphens s ≤ s.length := by
  induction s with
  | nil => simp [leadingHyphens]
  | cons c cs ih => unfold leadingHyphens; split <;> simp <;> omega

theorem leadingHyphens_replicate (h : Nat) (s : PyStr) : h ≤ leadingHyphens (List.replicate h 45 ++ s) := by
  induction h with
  | zero => omega
  | succ h ih => simp only [List.replicate_succ, List.cons_append, leadingHyphens, if_true]; omega

/-- The rounds that are still needed for a text. -/
def lexBudget (s : PyStr) : Nat := 2 * s.length - leadingHyphens s

/-- What a match costs. -/
theorem lexMatch_cost {m : Nat} (q : PyStr) (p : LexPos) (hm : 28 ≤ m) (hp : p.index < q.length) :
    (∀ ty set p', lexMatch lexerAtn m q p = some (.accepted ty set p') →
      lexMatchRounds lexerAtn m q p + lexBudget (q.drop p'.index) ≤ lexBudget (q.drop p.index) ∧
      p'.index + 1 ≤ p.index + lexMatchRounds lexerAtn m q p) ∧
    (∀ e, lexMatch lexerAtn m q p = some (.failed e) →
      lexMatchRounds lexerAtn m q p + lexBudget (q.drop (e.index + 1)) ≤ lexBudget (q.drop p.index) ∧
      e.index + 1 ≤ p.index + lexMatchRounds lexerAtn m q p) := by
  obtain ⟨s0, h1, h2⟩ := isSet_start hm
  have hf : lexerAtn.firstStop s0 = none := by
    cases hf : lexerAtn.firstStop s0 with
    | none => rfl
    | some c =>
      obtain ⟨⟨i, s, _, hacc, _⟩, _⟩ := h2.firstStop_some hf
      exact absurd hacc (not_accepts_nil i)
  have hne : s0 ≠ [] := by
    have hA : lexerAtn.LexAccepts 0 [40] :=
      lexAccepts_iff.2 ⟨by decide +kernel, .cls (by decide +kernel)⟩
    exact h2.ne_nil.2 (viable_after (u := []) hA)
  obtain ⟨prev', u', h3, h4, h5, h6, ⟨x, hx⟩, h7⟩ := lexExec_spec hm q p (q.length + 1) [] s0 none (by simp) (by simp; omega) (by omega) h2 hne
    (by intro w hw j; rw [List.prefix_nil.1 hw]; exact not_accepts_nil j)
  rw [posAfter_nil] at h3
  have hmatch : lexMatch lexerAtn m q p = match (some (prev', posAfter p u') : Option (Option SimState × LexPos)) with
      | none => none
      | some (some st, _) => some (.accepted (lexerAtn.predictionOf st.conf) (lexerAtn.execActs st.conf.acts) st.pos)
      | some (none, e) =>
        if inputLA q e.index = -1 && e.index == p.index then some (.accepted (-1) none e) else some (.failed e) := by
    unfold lexMatch
    rw [lexerAtn_modes]
    simp only [h1]
    have hc : capture lexerAtn p s0 none = none := by unfold capture; rw [hf]
    rw [hc, h3]
    cases prev' <;> rfl
  have hrounds : lexMatchRounds lexerAtn m q p = u'.length + 1 := by
    unfold lexMatchRounds
    rw [lexerAtn_modes]
    simp only [h1]
    have := lexExecRounds_eq hm q _ _ _ _ _ _ _ h2 (by omega) h3
    simp only [posAfter] at this
    omega
  have hviable : Viable lexRules u' := by
    obtain ⟨v', j, hacc⟩ := hx.viable
    exact ⟨v', someRule_lexAccepts.2 ⟨j, hacc⟩⟩
  -- nothing is consumed of a text that begins with a hyphen
  have hhy : leadingHyphens (q.drop p.index) ≠ 0 → u' = [] := by
    intro h
    cases hd : q.drop p.index with
    | nil => rw [hd] at h; exact absurd rfl h
    | cons c s =>
      rw [hd] at h h5
      by_cases hc : c = 45
      · subst hc
        cases u' with
        | nil => rfl
        | cons b u' =>
          obtain ⟨v, hv⟩ := hviable
          have := (List.cons_prefix_cons.1 h5).1
          subst this
          exact absurd hv (not_viable_hyphen _)
      · unfold leadingHyphens at h
        rw [if_neg hc] at h
        exact absurd rfl h
  have hbud := leadingHyphens_le
  have hlen5 := h5.length_le
  rw [List.length_drop] at hlen5
  constructor
  · intro ty set p' hacc
    rcases lexMatch_spec q p hm hp with ⟨t, w, k1, k2, k3⟩ | ⟨u, k1, k2, k3⟩
    · rw [hacc] at k3
      simp only [Option.some.injEq, MatchRes.accepted.injEq] at k3
      obtain ⟨-, -, rfl⟩ := k3
      have hwu : w <+: u' := by
        rw [hacc] at hmatch
        cases prev' with
        | some st =>
          obtain ⟨w0, j1, j2, -, -⟩ := h6
          simp only [Option.some.injEq, MatchRes.accepted.injEq] at hmatch
          rw [j2] at hmatch
          have hl : w.length = w0.length := by
            have := congrArg LexPos.index hmatch.2.2
            simp only [posAfter] at this
            omega
          have : w = w0 := by
            have a := take_of_prefix k1.isPrefix
            have b := take_of_prefix (j1.trans h5)
            rw [← a, ← b, hl]
          rw [this]; exact j1
        | none =>
          have hw0 := List.length_pos_iff.2 k1.nonempty
          simp only at hmatch
          split at hmatch
          · rename_i hc
            simp only [Bool.and_eq_true, beq_iff_eq] at hc
            simp only [Option.some.injEq, MatchRes.accepted.injEq] at hmatch
            have := congrArg LexPos.index hmatch.2.2
            have := hc.2
            simp only [posAfter] at *
            omega
          · cases hmatch
      obtain ⟨h, rfl⟩ := overshoot k1 hwu h5 hviable
      have hw0 := List.length_pos_iff.2 k1.nonempty
      have hz : leadingHyphens (q.drop p.index) = 0 := by
        refine Decidable.byContradiction fun hc => ?_
        have := hhy hc
        simp only [List.append_eq_nil_iff] at this
        exact k1.nonempty this.1
      have hrest : h ≤ leadingHyphens (q.drop (p.index + w.length)) := by
        obtain ⟨r, hr⟩ := h5
        rw [List.append_assoc] at hr
        have : q.drop (p.index + w.length) = List.replicate h 45 ++ r := by
          rw [← List.drop_drop, ← hr, List.drop_left]
        rw [this]
        exact leadingHyphens_replicate h r
      have hb := hbud (q.drop (p.index + w.length))
      rw [hrounds]
      simp only [posAfter, lexBudget, hz, List.length_append, List.length_replicate, List.length_drop] at *
      omega
    · rw [hacc] at k3
      cases k3
  · intro e hfail
    have he : e = posAfter p u' := by
      rw [hfail] at hmatch
      cases prev' with
      | some st => cases hmatch
      | none =>
        simp only at hmatch
        split at hmatch
        · cases hmatch
        · simp only [Option.some.injEq, MatchRes.failed.injEq] at hmatch
          exact hmatch
    subst he
    rw [hrounds]
    refine ⟨?_, by simp only [posAfter]; omega⟩
    by_cases hz : leadingHyphens (q.drop p.index) = 0
    · simp only [posAfter, lexBudget, hz, List.length_drop] at *
      omega
    · have hu := hhy hz
      subst hu
      have hstep : leadingHyphens (q.drop p.index) = leadingHyphens (q.drop (p.index + 1)) + 1 := by
        rw [← List.drop_drop]
        cases hd : q.drop p.index with
        | nil => rw [hd] at hz; exact absurd rfl hz
        | cons c s =>
          rw [hd] at hz
          simp only [List.drop_succ_cons, List.drop_zero]
          unfold leadingHyphens at hz ⊢
          by_cases hc : c = 45
          · rw [if_pos hc]
            cases s <;> rfl
          · rw [if_neg hc] at hz
            exact absurd rfl hz
      have hb := hbud (q.drop (p.index + 1))
      simp only [posAfter, lexBudget, List.length_drop, List.length_nil, Nat.add_zero] at *
      omega

/-- A match that is accepted is no end of input. -/
theorem lexMatch_type {m : Nat} (q : PyStr) (p : LexPos) (hm : 28 ≤ m) (hp : p.index < q.length) (ty : Int) (set : Option Int) (p' : LexPos)
    (h : lexMatch lexerAtn m q p = some (.accepted ty set p')) : (match set with | some t => t | none => ty) ≠ -1 := by
  rcases lexMatch_spec q p hm hp with ⟨t, w, -, k2, k3⟩ | ⟨u, -, -, k3⟩
  · rw [h] at k3
    simp only [Option.some.injEq, MatchRes.accepted.injEq] at k3
    obtain ⟨rfl, rfl, -⟩ := k3
    by_cases ht : t = .Space
    · subst ht; decide
    · rw [if_neg ht]
      intro h
      exact k2 (TokType.num_inj (t := t) (u := .EOF) h)
  · rw [h] at k3; cases k3

/-! ### The whole text -/

theorem lexNextRounds_le {m : Nat} (q : PyStr) (hm : 28 ≤ m) (n : Nat) :
    ∀ (lx lx' : LexObj) (rs : List LexReport) (t : RawTok), lx.hitEOF = decide (inputLA q lx.pos.index = -1) →
      lexNextToken lexerAtn m q n lx = some (rs, t, lx') →
      lexNextRounds lexerAtn m q n lx + lexBudget (q.drop lx'.pos.index) ≤ lexBudget (q.drop lx.pos.index) ∧
        lx'.hitEOF = decide (inputLA q lx'.pos.index = -1) ∧ lx'.pos.index ≤ lx.pos.index + lexNextRounds lexerAtn m q n lx ∧
        (t.type = -1 → q.length ≤ lx'.pos.index) := by
  induction n with
  | zero => intro lx lx' rs t _ h; cases h
  | succ n ih =>
    intro lx lx' rs t heof h
    unfold lexNextToken at h
    unfold lexNextRounds
    split at h
    · rename_i hh
      simp only [Option.some.injEq, Prod.mk.injEq] at h
      rw [if_pos hh, ← h.2.2]
      refine ⟨by omega, heof, by omega, fun _ => ?_⟩
      rw [heof, decide_eq_true_eq, inputLA_none] at hh
      exact hh
    · rename_i hh
      rw [if_neg hh]
      have hlt : lx.pos.index < q.length := by
        rw [heof, decide_eq_true_eq, inputLA_none] at hh
        omega
      obtain ⟨ca, cf⟩ := lexMatch_cost q lx.pos hm hlt
      cases hmt : lexMatch lexerAtn m q lx.pos with
      | none => rw [hmt] at h; cases h
      | some r =>
        rw [hmt] at h
        cases r with
        | failed e =>
          have hcost := cf e hmt
          simp only at h ⊢
          generalize hp : (if inputLA q e.index ≠ -1 then e.consume q else e) = p at h ⊢
          have hpb : lexBudget (q.drop p.index) = lexBudget (q.drop (e.index + 1)) := by
            subst hp
            split
            · have : (e.consume q).index = e.index + 1 := by unfold LexPos.consume; split <;> rfl
              rw [this]
            · rename_i hc
              rw [ne_eq, Decidable.not_not, inputLA_none] at hc
              rw [List.drop_eq_nil_of_le hc, List.drop_eq_nil_of_le (by omega)]
          cases hn : lexNextToken lexerAtn m q n { pos := p, hitEOF := inputLA q p.index = -1 } with
          | none => rw [hn] at h; cases h
          | some r =>
            obtain ⟨rs', t', lx''⟩ := r
            rw [hn] at h
            simp only [Option.some.injEq, Prod.mk.injEq] at h
            obtain ⟨-, rfl, rfl⟩ := h
            obtain ⟨k1, k2, k3, k4⟩ := ih _ _ _ _ rfl hn
            simp only at k1 k3
            have hpi : p.index ≤ e.index + 1 := by
              subst hp
              split
              · have : (e.consume q).index = e.index + 1 := by unfold LexPos.consume; split <;> rfl
                omega
              · omega
            exact ⟨by omega, k2, by omega, k4⟩
        | accepted ty set p =>
          have hcost := ca ty set p hmt
          simp only at h ⊢
          have key : ∀ type : Int, type ≠ -1 → (if type = lexSkip then lexNextToken lexerAtn m q n { pos := p, hitEOF := inputLA q p.index = -1 }
              else some ([], { type, start := lx.pos.index, stop := (p.index : Int) - 1, line := lx.pos.line, column := lx.pos.column },
                { pos := p, hitEOF := inputLA q p.index = -1 })) = some (rs, t, lx') →
              lexMatchRounds lexerAtn m q lx.pos + (if type = lexSkip then
                lexNextRounds lexerAtn m q n { pos := p, hitEOF := inputLA q p.index = -1 } else 0) +
                lexBudget (q.drop lx'.pos.index) ≤ lexBudget (q.drop lx.pos.index) ∧
              lx'.hitEOF = decide (inputLA q lx'.pos.index = -1) ∧
              lx'.pos.index ≤ lx.pos.index + (lexMatchRounds lexerAtn m q lx.pos + (if type = lexSkip then
                lexNextRounds lexerAtn m q n { pos := p, hitEOF := inputLA q p.index = -1 } else 0)) ∧
              (t.type = -1 → q.length ≤ lx'.pos.index) := by
            intro type htype h
            by_cases hs : type = lexSkip
            · rw [if_pos hs] at h
              obtain ⟨k1, k2, k3, k4⟩ := ih { pos := p, hitEOF := inputLA q p.index = -1 } _ _ _ rfl h
              rw [if_pos hs]
              simp only at k1 k3
              exact ⟨by omega, k2, by omega, k4⟩
            · rw [if_neg hs] at h ⊢
              simp only [Option.some.injEq, Prod.mk.injEq] at h
              obtain ⟨-, rfl, rfl⟩ := h
              exact ⟨by simpa using hcost.1, rfl, by simp only; omega, fun h => absurd h htype⟩
          have hty := lexMatch_type q lx.pos hm hlt ty set p hmt
          cases set with
          | none => exact key _ hty h
          | some k => exact key _ hty h

theorem lexFillRounds_le {m : Nat} (q : PyStr) (hm : 28 ≤ m) (n : Nat) :
    ∀ (lx : LexObj), lx.hitEOF = decide (inputLA q lx.pos.index = -1) →
      (lexFillRounds lexerAtn m q n lx ≤ lexBudget (q.drop lx.pos.index) ∧
        q.length ≤ lx.pos.index + lexFillRounds lexerAtn m q n lx) ∨ lexFill lexerAtn m q n lx = none := by
  induction n with
  | zero => intro lx _; exact .inr rfl
  | succ n ih =>
    intro lx heof
    unfold lexFillRounds lexFill
    cases hn : lexNextToken lexerAtn m q (q.length + 1) lx with
    | none => exact .inr rfl
    | some r =>
      obtain ⟨rs, t, lx'⟩ := r
      obtain ⟨k1, k2, k3, k4⟩ := lexNextRounds_le q hm _ _ _ _ _ heof hn
      simp only
      by_cases ht : t.type = -1
      · rw [if_pos ht]
        have := k4 ht
        left; constructor <;> omega
      · simp only [if_neg ht]
        rcases ih lx' k2 with h | h
        · left; omega
        · right; rw [h]

theorem runLexerRounds_le {m : Nat} (q : PyStr) (hm : 28 ≤ m) (hq : q ≠ []) :
    q.length ≤ runLexerRounds lexerAtn m q ∧ runLexerRounds lexerAtn m q ≤ 2 * q.length := by
  have hrun := runLexer_spec q m hm
  unfold runLexer at hrun
  unfold runLexerRounds
  have hl := List.length_pos_iff.2 hq
  rcases lexFillRounds_le q hm (q.length + 1) { pos := { index := 0, line := 1, column := 0 }, hitEOF := false } (by
    symm
    rw [decide_eq_false_iff_not, inputLA_none]
    simp only
    omega) with h | h
  · simp only [List.drop_zero, lexBudget] at h
    omega
  · rw [h] at hrun; cases hrun

end Fcsql
