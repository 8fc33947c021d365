/-
How many calls of rule functions are pending: what statements can call, before and after a token is consumed.

While no token is consumed, the key (the next token, and for `within` whether the token after it excludes an attribute) is the
same; `nowL` says, for every key, which rule functions statements can call, and whether they can go on or raise, before a token is
consumed; `lateL` which ones they can call after that.  A rule function calls functions of lower cost only, except for those that
begin with a certain token, and only after they have consumed it.
-/
import Verif.Proofs.RecoveryCode
import Verif.Proofs.AdaptiveRecovery
import Verif.Model.ErrorStrategy

set_option autoImplicit false
set_option linter.unusedSimpArgs false

namespace Fcsql

/-- The next token; and whether it is `within` with a next token that cannot come after the name of an attribute. -/
abbrev DKey := Option TokType × Bool

/-- The key of a list of tokens. -/
def dkey (ts : List Tok) : DKey :=
  (nextType ts, decide (nextType ts = some .WITHIN) && !(decide (la2 ts = 15) || decide (la2 ts = 16) || decide (la2 ts = 17)))

/-- All keys. -/
def nowKeys : List DKey := (some .WITHIN, true) :: allKeys.map fun k => (k, false)

theorem mem_nowKeys (ts : List Tok) : dkey ts ∈ nowKeys := by
  unfold nowKeys dkey
  cases h : decide (nextType ts = some .WITHIN) && !(decide (la2 ts = 15) || decide (la2 ts = 16) || decide (la2 ts = 17)) with
  | false => exact List.mem_cons_of_mem _ (List.mem_map.2 ⟨_, mem_allKeys _, rfl⟩)
  | true =>
    simp only [Bool.and_eq_true, decide_eq_true_eq] at h
    rw [h.1]
    exact List.mem_cons_self

/-- Alternative `a` of decision `d` may be predicted. -/
def altOpen (d a : Nat) (k : DKey) : Bool := altTable d a k.1 && !(k.2 && [16, 17, 18, 21, 23, 24].contains d)

/-- Some alternative is predicted for sure. -/
def altSure (d : Nat) (k : DKey) : Bool := d == 25 && k == (some .WITHIN, false)

/-- `sync` does nothing. -/
def syncOpen (st : Nat) (k : DKey) : Bool := Atn.hasTok (parserAtn.nextTokens st) (keyNum k.1)

/-- The function consumes a token for sure, or an exception leads to that. -/
def sureNow (r : Rule) (k : DKey) : Bool :=
  (k.1.any fun t => (sureTokens r).contains t || (r == .qualifier && [TokType.WITHIN, .SIMPLE_WITHIN_SCOPE, .REGEXP_FLAGS, .IDENTIFIER].contains t)) &&
    !(k.2 && (r == .expression_basic || r == .attribute_))

section
variable (k : DKey)
mutual
/-- What can happen before a token is consumed. -/
def nowS : Stmt → Zero
  | .sync st => ⟨[], true, !syncOpen st k⟩
  | .matchTok _ j => if k.1.any (fun t => t.num = j) then ⟨[], false, false⟩ else ⟨[], true, true⟩
  | .matchSet _ t => if k.1.any (fun ty => t.eval ty.num) then ⟨[], false, false⟩ else ⟨[], true, true⟩
  | .call _ r => ⟨[r], !sureNow r k, false⟩
  | .predict d bs => ⟨(nowBs d 1 bs).1, true, (nowBs d 1 bs).2 || !altSure d k⟩
  | .switchLA cs => nowCs cs
  | .ifLA t b => if t.eval (keyNum k.1) then nowL b else ⟨[], true, false⟩
  | .whileLA b _ _ => ⟨(nowL b).calls, (nowL b).fin, true⟩
  | .whilePredict b _ _ => ⟨(nowL b).calls, (nowL b).fin, true⟩
  | .loopPredict b _ _ => ⟨(nowL b).calls, true, true⟩
def nowL : List Stmt → Zero
  | [] => ⟨[], true, false⟩
  | c :: ss => (nowS c).andThen (nowL ss)
def nowBs (d : Nat) : Nat → List (List Stmt) → List Rule × Bool
  | _, [] => ([], false)
  | i, b :: bs =>
    if altOpen d i k then ((nowL b).calls ++ (nowBs d (i + 1) bs).1, (nowL b).raise || (nowBs d (i + 1) bs).2) else nowBs d (i + 1) bs
def nowCs : List (List Int × List Stmt) → Zero
  | [] => ⟨[], false, true⟩
  | (ks, b) :: cs => if keyNum k.1 ∈ ks then nowL b else nowCs cs
end
mutual
/-- The functions that can be called after a token has been consumed. -/
def lateS : Stmt → List Rule
  | .sync _ => []
  | .matchTok _ _ => []
  | .matchSet _ _ => []
  | .call _ _ => []
  | .predict _ bs => lateBs bs
  | .switchLA cs => lateCs cs
  | .ifLA _ b => lateL b
  | .whileLA b _ _ => nearL b
  | .whilePredict b _ _ => nearL b
  | .loopPredict b _ _ => nearL b
def lateL : List Stmt → List Rule
  | [] => []
  | c :: ss => lateS c ++ nearL ss
def lateBs : List (List Stmt) → List Rule
  | [] => []
  | b :: bs => lateL b ++ lateBs bs
def lateCs : List (List Int × List Stmt) → List Rule
  | [] => []
  | (_, b) :: cs => lateL b ++ lateCs cs
/-- The functions that can be called at all, when `k` is the key at that moment. -/
def nearS : Stmt → List Rule
  | .sync _ => []
  | .matchTok _ _ => []
  | .matchSet _ _ => []
  | .call _ r => [r]
  | .predict d bs => nearBs d 1 bs
  | .switchLA cs => nearCs cs ++ lateCs cs
  | .ifLA _ b => nearL b
  | .whileLA b _ _ => nearL b
  | .whilePredict b _ _ => nearL b
  | .loopPredict b _ _ => nearL b
def nearL : List Stmt → List Rule
  | [] => []
  | c :: ss => nearS c ++ nearL ss
def nearBs (d : Nat) : Nat → List (List Stmt) → List Rule
  | _, [] => []
  | i, b :: bs => (if altOpen d i k then nearL b else lateL b) ++ nearBs d (i + 1) bs
def nearCs : List (List Int × List Stmt) → List Rule
  | [] => []
  | (ks, b) :: cs => if keyNum k.1 ∈ ks then nearL b else nearCs cs
end
end

/-- A token at which error recovery may stop. -/
def softKey : Option TokType → Bool
  | none => true
  | some t => t = .EOF || (List.range parserAtn.states.length).any fun i => parserAtn.recoveryTok t.num [i]

/-- How many calls one call can lead to, at most, as long as no token counts. -/
def ruleCost : Rule → Nat
  | .query => 12
  | .main_query => 11
  | .query_disjunction => 10
  | .query_sequence => 9
  | .query_group => 8
  | .query_simple => 8
  | .query_segment => 7
  | .expression => 6
  | .expression_or => 5
  | .expression_and => 4
  | .expression_group => 3
  | .expression_not => 3
  | .expression_basic => 3
  | .query_implicit => 3
  | .attribute_ => 2
  | .regexp => 2
  | .within_part => 2
  | _ => 1

/-- What a token counts. -/
def tokCost : Option TokType → Nat
  | some .L_PAREN | some .NOT => 3
  | some .WITHIN | some .SIMPLE_WITHIN_SCOPE | some .REGEXP_FLAGS | some .IDENTIFIER => 2
  | _ => 0

/-- Some functions are only called at certain tokens. -/
def calledAt (r : Rule) (k : Option TokType) : Bool :=
  match r with
  | .query_group | .expression_group => k == some .L_PAREN
  | .expression_not => k == some .NOT
  | .expression_and => tokCost k != 0
  | _ => true

theorem now_sure : (allRules.all fun r => nowKeys.all fun k => !sureNow r k ||
    (!(nowL k (code r)).fin && (!(nowL k (code r)).raise || !softKey k.1))) = true := by decide +kernel

theorem now_calls : (allRules.all fun r => nowKeys.all fun k => !calledAt r k.1 ||
    (nowL k (code r)).calls.all fun r' => calledAt r' k.1 && decide (ruleCost r' + 1 ≤ ruleCost r)) = true := by decide +kernel

theorem late_calls : (allRules.all fun r => allKeys.all fun k => !calledAt r k || nowKeys.all fun k' =>
    (lateL k' (code r)).all fun r' => calledAt r' k'.1 && decide (ruleCost r' + 1 ≤ ruleCost r + tokCost k)) = true := by decide +kernel

theorem cost_pos (r : Rule) : 1 ≤ ruleCost r := by cases r <;> decide

/-! ### Lists of statements -/

theorem nowL_append_fin (k : DKey) (a b : List Stmt) : (nowL k (a ++ b)).fin = ((nowL k a).fin && (nowL k b).fin) := by
  induction a with
  | nil => simp [nowL]
  | cons c a ih => simp [nowL, Zero.andThen_fin, ih, Bool.and_assoc]

theorem nowL_append_raise (k : DKey) (a b : List Stmt) :
    (nowL k (a ++ b)).raise = ((nowL k a).raise || ((nowL k a).fin && (nowL k b).raise)) := by
  induction a with
  | nil => simp [nowL]
  | cons c a ih =>
    simp only [List.cons_append, nowL, Zero.andThen_raise, Zero.andThen_fin, ih]
    cases (nowS k c).raise <;> cases (nowS k c).fin <;> simp

theorem Zero.andThen_calls (a b : Zero) (r : Rule) : r ∈ (a.andThen b).calls ↔ r ∈ a.calls ∨ (a.fin = true ∧ r ∈ b.calls) := by
  unfold Zero.andThen; cases h : a.fin <;> simp [h]

theorem nowL_append_calls (k : DKey) (a b : List Stmt) (r : Rule) :
    r ∈ (nowL k (a ++ b)).calls ↔ r ∈ (nowL k a).calls ∨ ((nowL k a).fin = true ∧ r ∈ (nowL k b).calls) := by
  induction a with
  | nil => simp [nowL]
  | cons c a ih =>
    simp only [List.cons_append, nowL, Zero.andThen_calls, ih, Zero.andThen_fin, Bool.and_eq_true]
    constructor
    · rintro (h | ⟨h, h' | h'⟩)
      · exact .inl (.inl h)
      · exact .inl (.inr ⟨h, h'⟩)
      · exact .inr ⟨⟨h, h'.1⟩, h'.2⟩
    · rintro ((h | h) | h)
      · exact .inl h
      · exact .inr ⟨h.1, .inl h.2⟩
      · exact .inr ⟨h.1.1, .inr ⟨h.1.2, h.2⟩⟩

theorem nearL_append (k : DKey) (a b : List Stmt) : nearL k (a ++ b) = nearL k a ++ nearL k b := by
  induction a with
  | nil => simp [nearL]
  | cons c a ih => simp [nearL, ih]

mutual
theorem lateS_near (k : DKey) : ∀ c : Stmt, ∀ r ∈ lateS k c, r ∈ nearS k c
  | .sync _, r, h => by simp [lateS] at h
  | .matchTok _ _, r, h => by simp [lateS] at h
  | .matchSet _ _, r, h => by simp [lateS] at h
  | .call _ _, r, h => by simp [lateS] at h
  | .predict d bs, r, h => by
    simp only [lateS] at h; simp only [nearS]; exact lateBs_near k d 1 bs r h
  | .switchLA cs, r, h => by
    simp only [lateS] at h; simp only [nearS]; exact List.mem_append_right _ h
  | .ifLA _ b, r, h => by
    simp only [lateS] at h; simp only [nearS]; exact lateL_near k b r h
  | .whileLA b _ _, r, h => by simpa only [lateS, nearS] using h
  | .whilePredict b _ _, r, h => by simpa only [lateS, nearS] using h
  | .loopPredict b _ _, r, h => by simpa only [lateS, nearS] using h
theorem lateL_near (k : DKey) : ∀ ss : List Stmt, ∀ r ∈ lateL k ss, r ∈ nearL k ss
  | [], r, h => by simp [lateL] at h
  | c :: ss, r, h => by
    simp only [lateL, List.mem_append] at h
    simp only [nearL, List.mem_append]
    exact h.imp (lateS_near k c r) id
theorem lateBs_near (k : DKey) (d : Nat) : ∀ (i : Nat) (bs : List (List Stmt)), ∀ r ∈ lateBs k bs, r ∈ nearBs k d i bs
  | _, [], r, h => by simp [lateBs] at h
  | i, b :: bs, r, h => by
    simp only [lateBs, List.mem_append] at h
    simp only [nearBs, List.mem_append]
    refine h.imp (fun h => ?_) (lateBs_near k d (i + 1) bs r)
    split
    · exact lateL_near k b r h
    · exact h
end

mutual
theorem nowS_near (k : DKey) : ∀ c : Stmt, ∀ r ∈ (nowS k c).calls, r ∈ nearS k c
  | .sync _, r, h => by simp [nowS] at h
  | .matchTok _ j, r, h => by simp only [nowS] at h; split at h <;> simp at h
  | .matchSet _ t, r, h => by simp only [nowS] at h; split at h <;> simp at h
  | .call _ _, r, h => by simpa only [nowS, nearS] using h
  | .predict d bs, r, h => by
    simp only [nowS] at h; simp only [nearS]; exact nowBs_near k d 1 bs r h
  | .switchLA cs, r, h => by
    simp only [nowS] at h; simp only [nearS]; exact List.mem_append_left _ (nowCs_near k cs r h)
  | .ifLA t b, r, h => by
    simp only [nowS] at h
    split at h
    · simp only [nearS]; exact nowL_near k b r h
    · simp at h
  | .whileLA b _ _, r, h => by simp only [nowS] at h; simp only [nearS]; exact nowL_near k b r h
  | .whilePredict b _ _, r, h => by simp only [nowS] at h; simp only [nearS]; exact nowL_near k b r h
  | .loopPredict b _ _, r, h => by simp only [nowS] at h; simp only [nearS]; exact nowL_near k b r h
theorem nowL_near (k : DKey) : ∀ ss : List Stmt, ∀ r ∈ (nowL k ss).calls, r ∈ nearL k ss
  | [], r, h => by simp [nowL] at h
  | c :: ss, r, h => by
    rw [nowL, Zero.andThen_calls] at h
    simp only [nearL, List.mem_append]
    exact h.imp (nowS_near k c r) fun h => nowL_near k ss r h.2
theorem nowBs_near (k : DKey) (d : Nat) : ∀ (i : Nat) (bs : List (List Stmt)), ∀ r ∈ (nowBs k d i bs).1, r ∈ nearBs k d i bs
  | _, [], r, h => by simp [nowBs] at h
  | i, b :: bs, r, h => by
    simp only [nowBs] at h
    simp only [nearBs, List.mem_append]
    by_cases ha : altOpen d i k = true
    · rw [if_pos ha] at h ⊢
      exact (List.mem_append.1 h).imp (nowL_near k b r) (nowBs_near k d (i + 1) bs r)
    · rw [if_neg ha] at h
      exact .inr (nowBs_near k d (i + 1) bs r h)
theorem nowCs_near (k : DKey) : ∀ (cs : List (List Int × List Stmt)), ∀ r ∈ (nowCs k cs).calls, r ∈ nearCs k cs
  | [], r, h => by simp [nowCs] at h
  | (ks, b) :: cs, r, h => by
    simp only [nowCs] at h
    simp only [nearCs]
    split at h
    · rename_i hk; rw [if_pos hk]; exact nowL_near k b r h
    · rename_i hk; rw [if_neg hk]; exact nowCs_near k cs r h
end

theorem lateL_append (k : DKey) (a b : List Stmt) (r : Rule) (h : r ∈ lateL k (a ++ b)) : r ∈ lateL k a ∨ r ∈ nearL k b := by
  cases a with
  | nil => exact .inr (lateL_near k b r h)
  | cons c a =>
    rw [List.cons_append, lateL, nearL_append] at h
    rw [lateL]
    simp only [List.mem_append] at h ⊢
    exact (or_assoc.2 h)

/-! ### Branches and cases -/

theorem nowBs_branch {k : DKey} {d : Nat} : ∀ (bs : List (List Stmt)) (i a : Nat), 1 ≤ a → altOpen d (i + a - 1) k = true →
    (∀ r ∈ (nowL k (branch bs a)).calls, r ∈ (nowBs k d i bs).1) ∧ ((nowL k (branch bs a)).raise = true → (nowBs k d i bs).2 = true)
  | [], i, a, ha, h => by
    have : branch [] a = [] := by cases a <;> simp [branch]
    rw [this]; simp [nowL]
  | b :: bs, i, 0, ha, h => by omega
  | b :: bs, i, 1, ha, h => by
    have h : altOpen d i k = true := by simpa using h
    simp only [branch, List.getElem?_cons_zero, nowBs, if_pos h]
    exact ⟨fun r hr => List.mem_append_left _ hr, fun hr => by simp [hr]⟩
  | b :: bs, i, a + 2, ha, h => by
    have e : branch (b :: bs) (a + 2) = branch bs (a + 1) := by simp [branch]
    have h' : altOpen d (i + 1 + (a + 1) - 1) k = true := by
      rwa [show i + 1 + (a + 1) - 1 = i + (a + 2) - 1 by omega]
    obtain ⟨h1, h2⟩ := nowBs_branch bs (i + 1) (a + 1) (by omega) h'
    rw [e]
    simp only [nowBs]
    split
    · exact ⟨fun r hr => List.mem_append_right _ (h1 r hr), fun hr => by simp [h2 hr]⟩
    · exact ⟨h1, h2⟩

theorem lateBs_branch (k : DKey) : ∀ (bs : List (List Stmt)) (a : Nat), ∀ r ∈ lateL k (branch bs a), r ∈ lateBs k bs
  | [], a, r, h => by
    have : branch [] a = [] := by cases a <;> simp [branch]
    rw [this] at h; simp [lateL] at h
  | b :: bs, 0, r, h => by simp [branch, lateL] at h
  | b :: bs, 1, r, h => by
    simp only [branch, List.getElem?_cons_zero] at h
    simp only [lateBs]
    exact List.mem_append_left _ h
  | b :: bs, a + 2, r, h => by
    have e : branch (b :: bs) (a + 2) = branch bs (a + 1) := by simp [branch]
    rw [e] at h
    simp only [lateBs]
    exact List.mem_append_right _ (lateBs_branch k bs (a + 1) r h)

theorem nowCs_case {k : DKey} : ∀ (cs : List (List Int × List Stmt)), nowCs k cs = match switchCase (keyNum k.1) cs with
    | some b => nowL k b
    | none => ⟨[], false, true⟩
  | [] => rfl
  | (ks, b) :: cs => by
    simp only [nowCs, switchCase]
    split
    · rfl
    · exact nowCs_case cs

theorem lateCs_case (k : DKey) {j : Int} : ∀ (cs : List (List Int × List Stmt)) {b : List Stmt}, switchCase j cs = some b →
    ∀ r ∈ lateL k b, r ∈ lateCs k cs
  | [], b, h => by simp [switchCase] at h
  | (ks, b') :: cs, b, h => by
    simp only [switchCase] at h
    simp only [lateCs]
    split at h
    · cases h; exact fun r hr => List.mem_append_left _ hr
    · exact fun r hr => List.mem_append_right _ (lateCs_case k cs h r hr)

/-! ### The prediction -/

/-- On `within` and a token that cannot come after a name nothing is predicted in an expression. -/
theorem within_bad : ([16, 17, 18, 21, 23, 24].all fun d =>
    decide (parserAtn.sllVerdict (parserAtn.reachSet false (parserAtn.startConfigs false d []) 18) = .more) &&
    decide (parserAtn.finishedAlt (parserAtn.reachSet false (parserAtn.startConfigs false d []) 18) = none) &&
    Atn.allTypes.all fun t => t == .OPERATOR_EQ || t == .OPERATOR_NE || t == .COLON ||
      decide (parserAtn.sllVerdict (parserAtn.reachSet false (parserAtn.reachSet false (parserAtn.startConfigs false d []) 18) t.num) = .fail)) = true := by
  decide +kernel

/-- On others something is predicted in an attribute. -/
theorem within_good : (decide (parserAtn.sllVerdict (parserAtn.reachSet false (parserAtn.startConfigs false 25 []) 18) = .more) &&
    [TokType.OPERATOR_EQ, .OPERATOR_NE, .COLON].all fun t =>
      match parserAtn.sllVerdict (parserAtn.reachSet false (parserAtn.reachSet false (parserAtn.startConfigs false 25 []) 18) t.num) with
      | .alt _ => true
      | _ => false) = true := by decide +kernel

end Fcsql
