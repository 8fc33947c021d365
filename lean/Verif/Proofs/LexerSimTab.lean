/-
The runtime's lexer simulator on the network of FCSLexer.py: its recursion is bounded, every configuration can go on to a
token, and a configuration at the end of a rule knows the rule and its actions.
-/
import Verif.Proofs.LexerSim

set_option autoImplicit false
set_option linter.unusedSimpArgs false

namespace Fcsql

/-- How many states can be passed without consuming a character, at most. -/
def lexRankTab : List Nat := [
   5, 1, 0, 1, 0, 1, 0, 1, 0, 1, 0, 1, 0, 1, 0, 1, 0, 1, 0, 1, 0, 1, 0, 1, 0, 1, 0, 1, 0, 1, 0, 1, 0, 1, 0, 1, 0, 2, 0, 2,
   0, 1, 0, 1, 0, 1, 0, 3, 0, 2, 0, 4, 0, 2, 0, 4, 0, 1, 0, 1, 0, 1, 0, 3, 0, 0, 1, 0, 1, 0, 1, 0, 1, 0, 1, 0, 1, 0, 1, 0,
   1, 0, 1, 0, 1, 0, 1, 0, 1, 0, 1, 0, 1, 0, 1, 0, 0, 1, 0, 1, 0, 0, 0, 0, 0, 0, 1, 0, 0, 0, 0, 0, 0, 0, 0, 0, 0, 0, 0, 0,
   0, 0, 0, 0, 0, 0, 0, 0, 0, 0, 0, 0, 0, 0, 0, 0, 0, 0, 0, 0, 0, 0, 0, 0, 0, 0, 0, 0, 0, 0, 0, 0, 1, 1, 0, 1, 3, 2, 1, 0,
   1, 0, 1, 0, 1, 2, 2, 3, 6, 4, 3, 5, 2, 5, 1, 0, 1, 3, 2, 1, 3, 1, 0, 2, 0, 3, 6, 4, 1, 5, 0, 0, 2, 0, 3, 6, 4, 1, 5, 0,
   1, 1, 2, 0, 3, 1, 0, 1, 0, 0, 0, 2, 2, 2, 0, 2, 2, 2, 2, 2, 0, 2, 2, 2, 2, 2, 2, 2, 2, 2, 1, 1, 0, 1, 2, 3, 2, 1]

/-- 1 if the end of the rule can be reached without consuming a character. -/
def lexEndsTab : List Nat := [
   0, 0, 1, 0, 1, 0, 1, 0, 1, 0, 1, 0, 1, 0, 1, 0, 1, 0, 1, 0, 1, 0, 1, 0, 1, 0, 1, 0, 1, 0, 1, 0, 1, 0, 1, 0, 1, 0, 1, 0,
   1, 0, 1, 0, 1, 0, 1, 0, 1, 0, 1, 0, 1, 0, 1, 0, 1, 0, 1, 0, 1, 0, 1, 0, 1, 0, 1, 0, 1, 0, 1, 0, 1, 0, 1, 0, 1, 0, 1, 0,
   1, 0, 1, 0, 1, 0, 1, 0, 1, 0, 1, 0, 1, 0, 1, 0, 0, 1, 0, 1, 0, 0, 0, 0, 0, 0, 1, 0, 0, 0, 0, 0, 0, 0, 0, 0, 0, 0, 0, 0,
   0, 0, 0, 0, 0, 0, 0, 0, 0, 0, 0, 0, 0, 0, 0, 0, 0, 0, 0, 0, 0, 0, 0, 0, 0, 0, 0, 0, 0, 0, 0, 0, 0, 1, 0, 0, 1, 1, 1, 0,
   1, 0, 1, 0, 1, 0, 0, 0, 0, 0, 0, 0, 0, 1, 1, 0, 0, 1, 1, 1, 0, 1, 0, 0, 0, 0, 0, 0, 0, 0, 0, 0, 0, 0, 0, 0, 0, 0, 0, 0,
   0, 1, 0, 0, 0, 1, 0, 1, 0, 0, 0, 0, 0, 1, 0, 0, 0, 0, 0, 1, 0, 0, 0, 0, 0, 0, 0, 0, 0, 1, 0, 1, 0, 1, 0, 1, 1, 1]

/-- How far it is to the end of the rule. -/
def lexProdTab : List Nat := [
   4, 3, 0, 3, 0, 3, 0, 3, 0, 3, 0, 3, 0, 3, 0, 3, 0, 3, 0, 3, 0, 3, 0, 3, 0, 3, 0, 3, 0, 3, 0, 4, 0, 3, 0, 8, 0, 4, 0, 6,
   0, 3, 0, 3, 0, 3, 0, 5, 0, 6, 0, 9, 0, 7, 0, 4, 0, 3, 0, 5, 0, 3, 0, 5, 0, 2, 1, 2, 1, 2, 1, 2, 1, 2, 1, 2, 1, 2, 1, 2,
   1, 2, 1, 2, 1, 2, 1, 2, 1, 2, 1, 2, 1, 2, 1, 3, 2, 1, 2, 1, 7, 6, 5, 4, 3, 2, 1, 9, 8, 7, 6, 5, 4, 3, 2, 2, 10, 9, 8, 7,
   6, 5, 4, 3, 2, 2, 10, 9, 8, 7, 6, 5, 4, 3, 2, 2, 5, 4, 3, 2, 2, 5, 4, 3, 2, 8, 7, 6, 5, 4, 3, 2, 3, 1, 4, 5, 3, 2, 1, 2,
   1, 2, 1, 2, 1, 4, 9, 10, 8, 6, 5, 7, 4, 2, 1, 4, 5, 3, 2, 1, 8, 1, 5, 7, 7, 8, 6, 4, 3, 5, 2, 5, 7, 7, 8, 6, 4, 3, 5, 2,
   6, 1, 6, 2, 3, 1, 2, 1, 4, 2, 6, 5, 4, 2, 8, 7, 6, 5, 4, 2, 12, 11, 10, 9, 8, 7, 6, 5, 4, 2, 3, 1, 2, 1, 4, 3, 2, 1]

/-- How deep the calls of rules nest, at most. -/
def lexLvlTab : List Nat := [
   3, 0, 0, 0, 0, 0, 0, 0, 0, 0, 0, 0, 0, 0, 0, 0, 0, 0, 0, 0, 0, 0, 0, 0, 0, 0, 0, 0, 0, 0, 0, 0, 0, 0, 0, 0, 0, 0, 0, 0,
   0, 0, 0, 0, 0, 0, 0, 1, 0, 0, 0, 3, 0, 2, 0, 2, 0, 0, 0, 1, 0, 0, 0, 1, 0, 0, 0, 0, 0, 0, 0, 0, 0, 0, 0, 0, 0, 0, 0, 0,
   0, 0, 0, 0, 0, 0, 0, 0, 0, 0, 0, 0, 0, 0, 0, 0, 0, 0, 0, 0, 0, 0, 0, 0, 0, 0, 0, 0, 0, 0, 0, 0, 0, 0, 0, 0, 0, 0, 0, 0,
   0, 0, 0, 0, 0, 0, 0, 0, 0, 0, 0, 0, 0, 0, 0, 0, 0, 0, 0, 0, 0, 0, 0, 0, 0, 0, 0, 0, 0, 0, 0, 0, 0, 0, 0, 0, 0, 0, 0, 0,
   0, 0, 0, 0, 0, 1, 1, 1, 1, 1, 1, 1, 1, 1, 0, 0, 0, 0, 0, 0, 3, 0, 2, 2, 2, 2, 2, 2, 0, 2, 0, 2, 2, 2, 2, 2, 2, 0, 2, 0,
   2, 0, 2, 0, 2, 0, 0, 0, 1, 0, 1, 1, 1, 0, 1, 1, 1, 1, 1, 0, 1, 1, 1, 1, 1, 1, 1, 1, 1, 0, 1, 0, 0, 0, 1, 0, 0, 0]

def lexRank (s : Nat) : Nat := lexRankTab.getD s 0
def lexEnds (s : Nat) : Nat := lexEndsTab.getD s 0
def lexProd (s : Nat) : Nat := lexProdTab.getD s 0
def lexLvl (s : Nat) : Nat := lexLvlTab.getD s 0

/-- The actions passed in the rule before the state. -/
def lexActsAt (s : Nat) : List Nat := if s = 237 ∨ s = 64 then [0] else []

/-- A step inside a rule. -/
def lexSame (s t : Nat) (acts : List Nat) : Bool :=
  t ≠ 0 && t < 238 && lexLvl t ≤ lexLvl s && lexerAtn.ruleOf t == lexerAtn.ruleOf s && lexActsAt t == lexActsAt s ++ acts

/-- A step inside a rule that consumes nothing. -/
def lexDown (s t : Nat) : Bool := lexRank t < lexRank s && lexEnds t ≤ lexEnds s

def lexTransOk (s : Nat) : Trans → Bool
  | .eps t => lexSame s t [] && lexDown s t
  | .action a t => lexSame s t [a] && lexDown s t
  | .rule b _ e => lexSame s e [] && b ≠ 0 && b < 238 && lexLvl b < lexLvl s && lexRank b < lexRank s && lexEnds b == 0
  | .atom k t => lexSame s t [] && 0 ≤ k
  | .set l t => lexSame s t [] && l.all fun p => 0 ≤ p.1
  | .notSet _ t => lexSame s t []

/-- Some transition comes closer to the end of the rule. -/
def lexNear (s : Nat) : Trans → Bool
  | .eps t => lexProd t < lexProd s
  | .action _ t => lexProd t < lexProd s
  | .rule b _ e => lexProd b < lexProd s && lexProd e < lexProd s
  | .atom k t => lexProd t < lexProd s && 0 ≤ k
  | .set l t => lexProd t < lexProd s && l.any fun p => 0 ≤ p.1 && p.1 ≤ p.2
  | .notSet l t => lexProd t < lexProd s && l.all fun p => 0 < p.1

def lexStateOk (s : Nat) : Bool :=
  (s == 0 || (lexerAtn.out s).all (lexTransOk s)) && lexRank s ≤ 6 && lexLvl s ≤ 3 &&
    (lexerAtn.isStop s || (lexerAtn.out s).any (lexNear s)) && (!lexerAtn.isStop s || lexEnds s == 1) && lexEnds s ≤ 1

set_option maxRecDepth 10000 in
theorem lexStates_ok : (List.range 238).all lexStateOk = true := by decide +kernel

theorem lexStart_ok : (lexerAtn.out 0).all (fun t => match t with
    | .eps t => t ≠ 0 && t < 238 && lexActsAt t == []
    | _ => false) = true := by decide +kernel

theorem lexerAtn_length : lexerAtn.states.length = 238 := by decide +kernel

theorem lexStateOk_of {s : Nat} (hs : s < 238) : lexStateOk s = true :=
  List.all_eq_true.1 lexStates_ok s (List.mem_range.2 hs)

theorem lexTransOk_of {s : Nat} {t : Trans} (h0 : s ≠ 0) (hs : s < 238) (ht : t ∈ lexerAtn.out s) : lexTransOk s t = true := by
  have := lexStateOk_of hs
  unfold lexStateOk at this
  simp only [Bool.and_eq_true, Bool.or_eq_true, beq_iff_eq] at this
  rcases this.1.1.1.1.1 with h | h
  · exact absurd h h0
  · exact List.all_eq_true.1 h t ht

theorem lexRank_le {s : Nat} (hs : s < 238) : lexRank s ≤ 6 := by
  have := lexStateOk_of hs
  unfold lexStateOk at this
  simp only [Bool.and_eq_true, decide_eq_true_eq] at this
  exact this.1.1.1.1.2

theorem lexLvl_le {s : Nat} (hs : s < 238) : lexLvl s ≤ 3 := by
  have := lexStateOk_of hs
  unfold lexStateOk at this
  simp only [Bool.and_eq_true, decide_eq_true_eq] at this
  exact this.1.1.1.2

theorem lexEnds_stop {s : Nat} (hs : s < 238) (h : lexerAtn.isStop s = true) : lexEnds s = 1 := by
  have := lexStateOk_of hs
  unfold lexStateOk at this
  simp only [Bool.and_eq_true, decide_eq_true_eq, h, Bool.not_true, Bool.false_or, beq_iff_eq] at this
  exact this.1.2

/-- From every state the end of the rule can be reached. -/
theorem lex_productive (n : Nat) : ∀ s, lexProd s ≤ n → s < 238 → ∃ w acts, LexWalk lexerAtn s w acts := by
  induction n using Nat.strongRecOn with
  | _ n ih =>
    intro s hn hs
    have hok := lexStateOk_of hs
    unfold lexStateOk at hok
    simp only [Bool.and_eq_true, Bool.or_eq_true] at hok
    obtain ⟨⟨⟨⟨⟨hok1, _⟩, _⟩, hok⟩, _⟩, _⟩ := hok
    rcases hok with hok | hok
    · exact ⟨_, _, .stop hok⟩
    · obtain ⟨t, ht, hx⟩ := List.any_eq_true.1 hok
      have h0 : ∀ b, lexProd b < lexProd s → b < 238 → ∃ w acts, LexWalk lexerAtn b w acts :=
        fun b hb hb' => ih (lexProd b) (by omega) b (Nat.le_refl _) hb'
      have hlt : ∀ t, .eps t ∈ lexerAtn.out s → t < 238 := by
        intro t ht
        by_cases hs0 : s = 0
        · subst hs0
          have := List.all_eq_true.1 lexStart_ok _ ht
          simp only [Bool.and_eq_true, decide_eq_true_eq] at this
          exact this.1.2
        · have := lexTransOk_of hs0 hs ht
          simp only [lexTransOk, lexSame, Bool.and_eq_true, decide_eq_true_eq] at this
          exact this.1.1.1.1.2
      cases t with
      | eps t =>
        simp only [lexNear, decide_eq_true_eq] at hx
        obtain ⟨w, acts, hw⟩ := h0 t hx (hlt t ht)
        exact ⟨w, acts, .eps ht hw⟩
      | _ =>
        have hs0 : s ≠ 0 := by
          rintro rfl
          have := List.all_eq_true.1 lexStart_ok _ ht
          cases this
        have htr := lexTransOk_of hs0 hs ht
        first
        | -- action
          rename_i a t
          simp only [lexNear, lexTransOk, lexSame, Bool.and_eq_true, decide_eq_true_eq] at hx htr
          obtain ⟨w, acts, hw⟩ := h0 t hx htr.1.1.1.1.2
          exact ⟨w, _, .action ht hw⟩
        | -- rule
          rename_i b i e
          simp only [lexNear, lexTransOk, lexSame, Bool.and_eq_true, decide_eq_true_eq] at hx htr
          obtain ⟨w, acts, hw⟩ := h0 b hx.1 htr.1.1.1.2
          obtain ⟨w', acts', hw'⟩ := h0 e hx.2 htr.1.1.1.1.1.1.1.1.2
          exact ⟨_, _, .rule ht hw hw'⟩
        | -- atom
          rename_i k t
          simp only [lexNear, lexTransOk, lexSame, Bool.and_eq_true, decide_eq_true_eq] at hx htr
          obtain ⟨w, acts, hw⟩ := h0 t hx.1 htr.1.1.1.1.2
          obtain ⟨k, rfl⟩ := Int.eq_ofNat_of_zero_le hx.2
          exact ⟨_, _, .atom ht hw⟩
        | -- set
          rename_i l t
          simp only [lexNear, lexTransOk, lexSame, Bool.and_eq_true, decide_eq_true_eq, List.any_eq_true] at hx htr
          obtain ⟨w, acts, hw⟩ := h0 t hx.1 htr.1.1.1.1.2
          obtain ⟨p, hp, h1, h2⟩ := hx.2
          obtain ⟨k, hk⟩ := Int.eq_ofNat_of_zero_le h1
          exact ⟨_, _, .set (c := k) ht ⟨p, hp, by omega, by omega⟩ hw⟩
        | -- negated set
          rename_i l t
          simp only [lexNear, lexTransOk, lexSame, Bool.and_eq_true, decide_eq_true_eq, List.all_eq_true] at hx htr
          obtain ⟨w, acts, hw⟩ := h0 t hx.1 htr.1.1.1.2
          refine ⟨_, _, .notSet (c := 0) ht (by omega) ?_ hw⟩
          rintro ⟨p, hp, h1, h2⟩
          have := hx.2 p hp
          omega

/-! ### The invariant -/

/-- The states on a stack; the calls nest at most three deep. -/
def StackOk : List Nat → Prop
  | [] => True
  | r :: l => r ≠ 0 ∧ r < 238 ∧ lexLvl r + l.length ≤ 3 ∧ StackOk l

/-- The innermost caller that is not called itself. -/
def lexBottom : Nat → List Nat → Nat
  | s, [] => s
  | _, r :: l => lexBottom r l

/-- What holds for every configuration of the alternative that starts in `s0`. -/
structure ConfOk (s0 : Nat) (c : LConf) : Prop where
  stack : StackOk (c.state :: c.ctx)
  rule : lexerAtn.ruleOf (lexBottom c.state c.ctx) = lexerAtn.ruleOf s0
  acts : c.acts = lexActsAt (lexBottom c.state c.ctx)

theorem lexSame_iff {s t : Nat} {acts : List Nat} (h : lexSame s t acts = true) :
    t ≠ 0 ∧ t < 238 ∧ lexLvl t ≤ lexLvl s ∧ lexerAtn.ruleOf t = lexerAtn.ruleOf s ∧ lexActsAt t = lexActsAt s ++ acts := by
  simp only [lexSame, Bool.and_eq_true, decide_eq_true_eq, beq_iff_eq] at h
  exact ⟨h.1.1.1.1, h.1.1.1.2, h.1.1.2, h.1.2, h.2⟩

/-- A step inside a rule keeps the invariant. -/
theorem ConfOk.same {s0 : Nat} {c : LConf} (h : ConfOk s0 c) {t : Nat} {acts : List Nat} (ht : lexSame c.state t acts = true)
    (c' : LConf) (hs : c'.state = t) (hc : c'.ctx = c.ctx) (ha : c'.acts = if c.ctx.isEmpty then c.acts ++ acts else c.acts) :
    ConfOk s0 c' := by
  obtain ⟨h1, h2, h3, h4, h5⟩ := lexSame_iff ht
  obtain ⟨⟨k1, k2, k3, k4⟩, k5, k6⟩ := h
  obtain ⟨s, alt, ctx, a⟩ := c
  obtain ⟨s', alt', ctx', a'⟩ := c'
  simp only at *
  subst hs hc
  refine ⟨⟨h1, h2, by simp only; omega, k4⟩, ?_, ?_⟩
  · cases ctx' with
    | nil => simp only [lexBottom] at *; rw [h4, k5]
    | cons => simpa only [lexBottom] using k5
  · cases ctx' with
    | nil => simp only [lexBottom] at *; simp only [List.isEmpty_nil, if_true] at ha; rw [ha, h5, k6]
    | cons => simp only [lexBottom] at *; simp at ha; rw [ha, k6]

theorem ConfOk.eps {s0 : Nat} {c c' : LConf} (h : ConfOk s0 c) (he : LEps lexerAtn c c') : ConfOk s0 c' := by
  cases he with
  | @step _ t hs ht he =>
    have htr := lexTransOk_of h.stack.1 h.stack.2.1 ht
    cases t with
    | eps t =>
      simp only [Atn.lexEpsTarget, Option.some.injEq] at he
      simp only [lexTransOk, Bool.and_eq_true] at htr
      subst he
      exact h.same htr.1 _ rfl rfl (by simp)
    | action a t =>
      simp only [Atn.lexEpsTarget] at he
      simp only [lexTransOk, Bool.and_eq_true] at htr
      split at he
      · rename_i hc; cases he; exact h.same htr.1 _ rfl rfl (by rw [if_pos hc])
      · rename_i hc; cases he; exact h.same htr.1 _ rfl rfl (by rw [if_neg hc])
    | rule b i e =>
      simp only [Atn.lexEpsTarget, Option.some.injEq] at he
      simp only [lexTransOk, Bool.and_eq_true, decide_eq_true_eq] at htr
      subst he
      obtain ⟨⟨⟨⟨⟨h1, h2⟩, h3⟩, h4⟩, _⟩, _⟩ := htr
      have h5 := h.same h1 { c with state := e } rfl rfl (by simp)
      obtain ⟨k1, k2, k3⟩ := h5
      refine ⟨⟨h2, h3, ?_, k1⟩, k2, k3⟩
      have := h.stack.2.2.1
      simp only [List.length_cons]
      omega
    | _ => simp [Atn.lexEpsTarget] at he
  | @pop r ctx hs hc =>
    obtain ⟨k1, k2, k3⟩ := h
    rw [hc] at k1 k2 k3
    exact ⟨k1.2.2.2, k2, k3⟩

theorem ConfOk.char {s0 : Nat} {k : Int} {c c' : LConf} (h : ConfOk s0 c) (he : LChar lexerAtn k c c') : ConfOk s0 c' := by
  obtain ⟨t, ht, s, hs, rfl⟩ := he
  have htr := lexTransOk_of h.stack.1 h.stack.2.1 ht
  have : lexSame c.state s [] = true := by
    cases t with
    | atom l t =>
      simp only [Atn.charTarget] at hs
      split at hs
      · cases hs; simp only [lexTransOk, Bool.and_eq_true] at htr; exact htr.1
      · cases hs
    | set l t =>
      simp only [Atn.charTarget] at hs
      split at hs
      · cases hs; simp only [lexTransOk, Bool.and_eq_true] at htr; exact htr.1
      · cases hs
    | notSet l t =>
      simp only [Atn.charTarget] at hs
      split at hs
      · cases hs; exact htr
      · cases hs
    | _ => cases hs
  exact h.same this _ rfl rfl (by simp)

theorem ConfOk.run {s0 : Nat} {c x : LConf} {w : PyStr} (h : LRun lexerAtn c w x) (hc : ConfOk s0 c) : ConfOk s0 x := by
  induction h with
  | refl => exact hc
  | eps he _ ih => exact ih (hc.eps he)
  | char he _ ih => exact ih (hc.char he)

theorem confOk_start {i s : Nat} (h : lexerAtn.LexAlt i s) : ConfOk s (lconf0 i s) := by
  rw [lexAlt_iff] at h
  have := List.all_eq_true.1 lexStart_ok _ (List.mem_of_getElem? h)
  simp only [Bool.and_eq_true, decide_eq_true_eq, beq_iff_eq] at this
  obtain ⟨⟨h1, h2⟩, h3⟩ := this
  exact ⟨⟨h1, h2, by simpa [lconf0] using lexLvl_le h2, trivial⟩, rfl, by simp only [lconf0, lexBottom]; rw [h3]⟩

theorem LAfter.ok {u : PyStr} {x : LConf} (h : LAfter lexerAtn u x) :
    ∃ i s, lexerAtn.LexAlt i s ∧ x.alt = i + 1 ∧ ConfOk s x := by
  obtain ⟨i, s, h1, h2, _⟩ := h
  exact ⟨i, s, h1, h2.alt, (confOk_start h1).run h2⟩

/-- Every configuration can go on to a token. -/
theorem LAfter.viable {u : PyStr} {x : LConf} (h : LAfter lexerAtn u x) : ∃ v j, lexerAtn.LexAccepts j (u ++ v) := by
  obtain ⟨i, s, h1, h2, h3⟩ := h
  have hok := (confOk_start h1).run h2
  have : ∀ l, StackOk l → ∃ w, StackWalk lexerAtn l w := by
    intro l
    induction l with
    | nil => intro _; exact ⟨[], .nil⟩
    | cons r l ih =>
      rintro ⟨_, h1, _, h2⟩
      obtain ⟨w, acts, hw⟩ := lex_productive _ r (Nat.le_refl _) h1
      obtain ⟨v, hv⟩ := ih h2
      exact ⟨_, .cons hw hv⟩
  obtain ⟨v, hv⟩ := this _ hok.stack
  obtain ⟨y, a, h4, h5⟩ := hv.run lexerAtn_stops _ _ rfl x.alt x.acts
  refine ⟨v, i, (accepts_after lexerAtn_stops).2 ⟨_, ⟨i, s, h1, h2.trans h5, .inl ⟨h4, rfl⟩⟩, h4, h2.alt⟩⟩

theorem viable_after {u v : PyStr} {j : Nat} (h : lexerAtn.LexAccepts j (u ++ v)) : ∃ x, LAfter lexerAtn u x := by
  obtain ⟨x, ⟨i, s, h1, h2, h3⟩, -⟩ := (accepts_after lexerAtn_stops).1 h
  obtain ⟨y, h4, h5⟩ := h2.mid lexerAtn_stops h3
  exact ⟨y, i, s, h1, h4, h5⟩

/-! ### The recursion of `closure` is bounded -/

/-- How deep `closure` can recurse. -/
def lexCost : Nat → List Nat → Nat
  | s, [] => lexRank s
  | s, r :: l => lexRank s + if lexEnds s = 0 then 0 else 1 + lexCost r l

theorem lexCost_le {s : Nat} {ctx : List Nat} (h : StackOk (s :: ctx)) : lexCost s ctx ≤ 6 + 7 * ctx.length := by
  induction ctx generalizing s with
  | nil => simp only [lexCost]; exact lexRank_le h.2.1
  | cons r l ih =>
    have := ih h.2.2.2
    have := lexRank_le h.2.1
    simp only [lexCost, List.length_cons]
    split <;> omega

theorem lexCost_mono {s t : Nat} {ctx : List Nat} (h : lexRank t < lexRank s) (h' : lexEnds t ≤ lexEnds s) :
    lexCost t ctx < lexCost s ctx := by
  cases ctx with
  | nil => exact h
  | cons r l =>
    simp only [lexCost]
    split
    · split <;> omega
    · rw [if_neg (by omega)]
      omega

theorem foldlM_isSome {α β : Type} {f : β → α → Option β} (l : List α) (hf : ∀ a ∈ l, ∀ b, (f b a).isSome = true) (b : β) :
    (l.foldlM f b).isSome = true := by
  induction l generalizing b with
  | nil => rfl
  | cons a l ih =>
    rw [List.foldlM_cons]
    have := hf a (by simp) b
    cases h : f b a with
    | none => rw [h] at this; cases this
    | some b' => exact ih (fun a ha => hf a (by simp [ha])) b'

theorem lexClosure_isSome {s0 : Nat} (n : Nat) : ∀ {c : LConf} (cs : List LConf), ConfOk s0 c → lexCost c.state c.ctx < n →
    (lexerAtn.lexClosure false n c cs).isSome = true := by
  induction n with
  | zero => intro c cs _ h; omega
  | succ n ih =>
    intro c cs hc hn
    unfold Atn.lexClosure
    split
    · rename_i hs
      split
      · rfl
      · rename_i r ctx hctx
        refine ih cs (hc.eps (.pop hs hctx)) ?_
        simp only
        rw [hctx] at hn
        simp only [lexCost, lexEnds_stop hc.stack.2.1 hs] at hn
        simp at hn
        omega
    · rename_i hs
      have hs' : lexerAtn.isStop c.state = false := by cases h' : lexerAtn.isStop c.state <;> simp_all
      refine foldlM_isSome _ ?_ _
      intro t ht b
      have htr := lexTransOk_of hc.stack.1 hc.stack.2.1 ht
      split
      · rfl
      · rename_i c' he
        refine ih b (hc.eps (.step hs' ht he)) ?_
        have : lexCost c'.state c'.ctx < lexCost c.state c.ctx := by
          cases t with
          | eps t =>
            simp only [Atn.lexEpsTarget, Option.some.injEq] at he
            simp only [lexTransOk, lexDown, Bool.and_eq_true, decide_eq_true_eq] at htr
            subst he
            exact lexCost_mono htr.2.1 htr.2.2
          | action a t =>
            simp only [Atn.lexEpsTarget] at he
            simp only [lexTransOk, lexDown, Bool.and_eq_true, decide_eq_true_eq] at htr
            split at he <;> (cases he; exact lexCost_mono htr.2.1 htr.2.2)
          | rule b i e =>
            simp only [Atn.lexEpsTarget, Option.some.injEq] at he
            simp only [lexTransOk, Bool.and_eq_true, decide_eq_true_eq, beq_iff_eq] at htr
            subst he
            simp only [lexCost, htr.2, if_pos]
            have := htr.1.2
            cases hc : c.ctx with
            | nil => simp only [lexCost]; omega
            | cons r l => simp only [lexCost]; omega
          | _ => simp [Atn.lexEpsTarget] at he
        omega

/-- At most 28 calls of `closure` are open at a time. -/
theorem lexClosure_some {s0 n : Nat} (hn : 28 ≤ n) {c : LConf} (cs : List LConf) (hc : ConfOk s0 c) :
    (lexerAtn.lexClosure false n c cs).isSome = true := by
  refine lexClosure_isSome n cs hc ?_
  have h1 := lexCost_le hc.stack
  have h2 := hc.stack.2.2.1
  omega

end Fcsql
