/-
The tree builder with exceptions from outside: it does what it does without them, or is struck.
-/
import Verif.Model.Faults
import Verif.Proofs.TreeBuilder

set_option autoImplicit false
set_option linter.unusedSimpArgs false

namespace Fcsql

section
variable {ν σ : Type} {B : Nat → Option Strike}

/-- `a`, which may be struck, is, or does what `b` does. -/
def FaultSim (B : Nat → Option Strike) {α : Type} (a : BM ν (σ × Struck) α) (b : BM ν σ α) : Prop :=
  ∀ h n st, (∃ k s, a ⟨(h, ⟨n, none⟩), st⟩ = (.error .other, s) ∧ s.heap.2.what = some k ∧ ∃ i, B i = some k) ∨
    ∃ r h' n' st', a ⟨(h, ⟨n, none⟩), st⟩ = (r, ⟨(h', ⟨n', none⟩), st'⟩) ∧ b ⟨h, st⟩ = (r, ⟨h', st'⟩)

theorem FaultSim.bind {α β : Type} {a : BM ν (σ × Struck) α} {b : BM ν σ α} {f : α → BM ν (σ × Struck) β}
    {g : α → BM ν σ β} (h1 : FaultSim B a b) (h2 : ∀ x, FaultSim B (f x) (g x)) : FaultSim B (a >>= f) (b >>= g) := by
  intro h n st
  rw [bm_bind, bm_bind]
  rcases h1 h n st with ⟨k, s, ea, hs⟩ | ⟨r, h', n', st', ea, eb⟩
  · rw [ea]; exact .inl ⟨k, s, rfl, hs⟩
  · rw [ea, eb]
    cases r with
    | error x => exact .inr ⟨_, _, _, _, rfl, rfl⟩
    | ok x => exact h2 x h' n' st'

theorem FaultSim.lift {α : Type} (x : Except Exc α) : FaultSim B (liftB x : BM ν (σ × Struck) α) (liftB x) :=
  fun h n st => .inr ⟨x, h, n, st, rfl, rfl⟩

theorem FaultSim.pure {α : Type} (x : α) : FaultSim B (Pure.pure x : BM ν (σ × Struck) α) (Pure.pure x) := FaultSim.lift (.ok x)

theorem FaultSim.len : FaultSim B (lenB : BM ν (σ × Struck) Nat) lenB :=
  fun h n st => .inr ⟨.ok st.length, h, n, st, rfl, rfl⟩

theorem FaultSim.push (x : Item ν) : FaultSim B (pushB x : BM ν (σ × Struck) Unit) (pushB x) :=
  fun h n st => .inr ⟨.ok (), h, n, x :: st, rfl, rfl⟩

theorem FaultSim.pop : FaultSim B (popB : BM ν (σ × Struck) (Item ν)) popB := by
  intro h n st
  cases st with
  | nil => exact .inr ⟨.error .other, h, n, [], rfl, rfl⟩
  | cons x st => exact .inr ⟨.ok x, h, n, st, rfl, rfl⟩

theorem FaultSim.itemNode (x : Item ν) : FaultSim B (itemNode x : BM ν (σ × Struck) ν) (itemNode x) := by
  cases x <;> exact FaultSim.lift _

theorem FaultSim.itemNodes : ∀ xs : List (Item ν), FaultSim B (itemNodes xs : BM ν (σ × Struck) (List ν)) (itemNodes xs)
  | [] => FaultSim.lift _
  | x :: xs => (FaultSim.itemNode x).bind fun _ => (FaultSim.itemNodes xs).bind fun _ => FaultSim.lift _

theorem FaultSim.popItems (pos : Nat) : ∀ (fuel : Nat) (items : List (Item ν)),
    FaultSim B (popItems pos fuel items : BM ν (σ × Struck) (List (Item ν))) (popItems pos fuel items)
  | 0, _ => FaultSim.lift _
  | fuel + 1, items => FaultSim.len.bind fun n => by
      by_cases h : n > pos
      · simp only [if_pos h]; exact FaultSim.pop.bind fun x => FaultSim.popItems pos fuel (x :: items)
      · simp only [if_neg h]; exact FaultSim.lift _

theorem FaultSim.appendNode (A : Alloc ν σ) (cfg : Config) (k : Kind) (children : List ν) (ctx : PTree) :
    FaultSim B (appendNode (faultAlloc A) cfg k children ctx) (appendNode A cfg k children ctx) :=
  fun _ n _ => .inr ⟨.ok (), _, n, _, rfl, rfl⟩

/-- Children visited one after the other. -/
inductive FaultSims (B : Nat → Option Strike) : List (CAct Unit (BState ν (σ × Struck)) Exc) → List (CAct Unit (BState ν σ) Exc) → Prop
  | nil : FaultSims B [] []
  | cons {a : CAct Unit (BState ν (σ × Struck)) Exc} {b : CAct Unit (BState ν σ) Exc} {as bs} :
      FaultSim B (α := Option Unit) a b → FaultSims B as bs → FaultSims B (a :: as) (b :: bs)

theorem FaultSim.loop (ctx : PTree) {as : List (CAct Unit (BState ν (σ × Struck)) Exc)} {bs : List (CAct Unit (BState ν σ) Exc)}
    (h : FaultSims B as bs) : ∀ o : Option Unit,
    FaultSim B (α := Option Unit) (CtxVisitor.loop { method := fun _ => none } ctx o as) (CtxVisitor.loop { method := fun _ => none } ctx o bs) := by
  induction h with
  | nil => intro o; exact fun h n st => .inr ⟨.ok o, h, n, st, rfl, rfl⟩
  | @cons a b as bs h1 _ ih =>
    intro o
    have key : FaultSim B (α := Option Unit) ((a : BM ν (σ × Struck) (Option Unit)) >>= fun x => CtxVisitor.loop { method := fun _ => none } ctx x as)
        ((b : BM ν σ (Option Unit)) >>= fun x => CtxVisitor.loop { method := fun _ => none } ctx x bs) := h1.bind ih
    intro h n st
    have := key h n st
    rw [bm_bind, bm_bind] at this
    simp only [CtxVisitor.loop, if_true]
    rcases ha : a ⟨(h, ⟨n, none⟩), st⟩ with ⟨x, s1⟩
    rcases hb : b ⟨h, st⟩ with ⟨y, s2⟩
    rw [ha, hb] at this
    cases x <;> cases y <;> exact this

theorem FaultSim.super (ctx : PTree) {as : List (CAct Unit (BState ν (σ × Struck)) Exc)} {bs : List (CAct Unit (BState ν σ) Exc)}
    (h : FaultSims B as bs) : FaultSim B (superVisit ctx as) (superVisit ctx bs) := FaultSim.loop ctx h none

/-! ### The methods -/

variable {A : Alloc ν σ} {rt : PyRuntime} {cfg : Config} (ctx : PTree)
  {as : List (CAct Unit (BState ν (σ × Struck)) Exc)} {bs : List (CAct Unit (BState ν σ) Exc)}

theorem faultsim_collect (k : Kind) (msg : PyStr) (h : FaultSims B as bs) :
    FaultSim B (collectM (faultAlloc A) cfg k msg ctx as) (collectM A cfg k msg ctx bs) :=
  FaultSim.len.bind fun pos => (FaultSim.super ctx h).bind (fun _ => FaultSim.len.bind fun n => by
    by_cases hp : n > pos
    · simp only [if_pos hp]
      exact (FaultSim.popItems pos n []).bind fun items => (FaultSim.itemNodes items).bind fun cs =>
        (FaultSim.appendNode A cfg k cs ctx).bind fun _ => FaultSim.pure none
    · simp only [if_neg hp]; exact FaultSim.lift _)

theorem faultsim_query (h : FaultSims B as bs) : FaultSim B (visitQueryM (faultAlloc A) cfg ctx as) (visitQueryM A cfg ctx bs) :=
  (FaultSim.super ctx h).bind (fun _ => (FaultSim.lift _).bind fun w => by
    by_cases hp : w.isSome
    · simp only [if_pos hp]
      exact FaultSim.pop.bind fun x => FaultSim.pop.bind fun y => (FaultSim.itemNodes [y, x]).bind fun cs =>
        (FaultSim.appendNode A cfg .withWithin cs ctx).bind fun _ => FaultSim.pure none
    · simp only [if_neg hp]; exact FaultSim.pure none)

theorem faultsim_main (h : FaultSims B as bs) :
    FaultSim B (do let _ ← superVisit ctx as; return none : BM ν (σ × Struck) (Option Unit))
      (do let _ ← superVisit ctx bs; return none : BM ν σ (Option Unit)) :=
  (FaultSim.super ctx h).bind (fun _ => FaultSim.pure none)

theorem faultsim_repeated (k : Int → Int → Kind) (h : FaultSims B as bs) :
    FaultSim B (visitRepeatedM (faultAlloc A) rt cfg k ctx as) (visitRepeatedM A rt cfg k ctx bs) :=
  (FaultSim.super ctx h).bind (fun _ => (FaultSim.lift _).bind fun p => by
    obtain ⟨mn, mx⟩ := p
    exact FaultSim.pop.bind fun x => (FaultSim.itemNodes [x]).bind fun cs =>
      (FaultSim.appendNode A cfg (k mn mx) cs ctx).bind fun _ => FaultSim.pure none)

theorem faultsim_popExpression : FaultSim B (popExpressionM (faultAlloc A) cfg ctx) (popExpressionM A cfg ctx) :=
  FaultSim.pop.bind fun x1 => FaultSim.pop.bind fun x2 => FaultSim.pop.bind fun x3 => FaultSim.pop.bind fun x4 => FaultSim.pop.bind fun x5 => by
    split
    · exact (FaultSim.appendNode A cfg _ [] ctx).bind fun _ => FaultSim.pure none
    · exact FaultSim.lift _

theorem faultsim_implicit (h : FaultSims B as bs) : FaultSim B (visitQueryImplicitM (faultAlloc A) cfg ctx as) (visitQueryImplicitM A cfg ctx bs) :=
  (FaultSim.push _).bind fun _ => (FaultSim.push _).bind fun _ => (FaultSim.push _).bind fun _ =>
    (FaultSim.super ctx h).bind (fun _ => faultsim_popExpression ctx)

theorem faultsim_segment (h : FaultSims B as bs) : FaultSim B (visitQuerySegmentM (faultAlloc A) cfg ctx as) (visitQuerySegmentM A cfg ctx bs) := by
  unfold visitQuerySegmentM
  by_cases hp : (ctxChildren ctx).length = 2
  · simp only [if_pos hp]
    exact (FaultSim.appendNode A cfg .wildcard [] ctx).bind fun _ => FaultSim.pure none
  · simp only [if_neg hp]
    exact (FaultSim.super ctx h).bind (fun _ => FaultSim.pure none)

theorem faultsim_basic (h : FaultSims B as bs) : FaultSim B (visitExpressionBasicM (faultAlloc A) cfg ctx as) (visitExpressionBasicM A cfg ctx bs) := by
  have rest : FaultSim B (do let _ ← superVisit ctx as; popExpressionM (faultAlloc A) cfg ctx)
      (do let _ ← superVisit ctx bs; popExpressionM A cfg ctx) :=
    (FaultSim.super ctx h).bind (fun _ => faultsim_popExpression ctx)
  refine (FaultSim.lift (ctxGet ctx py!"OPERATOR_EQ")).bind fun x => ?_
  by_cases hx : x.isSome
  · simp only [if_pos hx]
    exact (FaultSim.push _).bind fun _ => rest
  · simp only [if_neg hx]
    refine (FaultSim.lift (ctxGet ctx py!"OPERATOR_NE")).bind fun y => ?_
    by_cases hy : y.isSome
    · simp only [if_pos hy]
      exact (FaultSim.push _).bind fun _ => rest
    · simp only [if_neg hy]
      exact (FaultSim.lift _).bind fun _ => rest

theorem faultsim_unary (k : Kind) (h : FaultSims B as bs) : FaultSim B (visitUnaryM (faultAlloc A) cfg k ctx as) (visitUnaryM A cfg k ctx bs) :=
  (FaultSim.super ctx h).bind (fun _ => FaultSim.pop.bind fun x => (FaultSim.itemNodes [x]).bind fun cs =>
    (FaultSim.appendNode A cfg k cs ctx).bind fun _ => FaultSim.pure none)

theorem faultsim_attribute : FaultSim B (visitAttributeM ctx : BM ν (σ × Struck) (Option Unit)) (visitAttributeM ctx) :=
  (FaultSim.lift _).bind fun q => (FaultSim.lift _).bind fun i => by
    cases i with
    | none => exact FaultSim.lift _
    | some i => exact (FaultSim.push _).bind fun _ => (FaultSim.push _).bind fun _ => FaultSim.pure none

theorem faultsim_regexp : FaultSim B (visitRegexpM rt cfg ctx : BM ν (σ × Struck) (Option Unit)) (visitRegexpM rt cfg ctx) :=
  (FaultSim.lift _).bind fun p => by
    cases p with
    | none => exact FaultSim.lift _
    | some p =>
      exact (FaultSim.lift _).bind fun _ => (FaultSim.push _).bind fun _ => (FaultSim.lift _).bind fun f => by
        cases f with
        | none => exact (FaultSim.push _).bind fun _ => FaultSim.pure none
        | some f => exact (FaultSim.lift _).bind fun _ => (FaultSim.push _).bind fun _ => FaultSim.pure none

theorem faultsim_within : FaultSim B (visitWithinPartSimpleM (faultAlloc A) cfg ctx) (visitWithinPartSimpleM A cfg ctx) := by
  unfold visitWithinPartSimpleM
  cases (ctxChildren ctx).head? with
  | none => exact FaultSim.lift _
  | some c => exact (FaultSim.lift _).bind fun _ => (FaultSim.appendNode A cfg _ [] ctx).bind fun _ => FaultSim.pure none

/-! ### The builder -/

theorem faultsim_moment {b : BM ν σ Unit} (hb : ∀ s, b s = (.ok (), s)) : FaultSim B (moment B : BM ν (σ × Struck) Unit) b := by
  intro h n st
  unfold moment
  simp only
  cases hB : B n with
  | some k => exact .inl ⟨k, _, rfl, rfl, n, hB⟩
  | none => exact .inr ⟨.ok (), h, n + 1, st, rfl, hb _⟩

theorem faultsim_exposed {m : PTree → List (CAct Unit (BState ν (σ × Struck)) Exc) → CAct Unit (BState ν (σ × Struck)) Exc}
    {b : BM ν σ (Option Unit)} (h : FaultSim B (α := Option Unit) (m ctx as) b) : FaultSim B (α := Option Unit) (exposed B m ctx as) b := by
  have hp : FaultSim B (moment B : BM ν (σ × Struck) Unit) (Pure.pure () : BM ν σ Unit) := faultsim_moment fun s => rfl
  have h2 : FaultSim B (exposed B m ctx as : BM ν (σ × Struck) (Option Unit))
      ((Pure.pure () : BM ν σ Unit) >>= fun _ => b >>= fun r => (Pure.pure () : BM ν σ Unit) >>= fun _ => (Pure.pure r : BM ν σ (Option Unit))) :=
    hp.bind fun _ => h.bind fun r => hp.bind fun _ => FaultSim.pure r
  simpa using h2

theorem faultsim_rule (r : Rule) (ks : List PTree) (h : FaultSims B as bs) :
    ∃ m m', (faultBuilder A rt cfg B).method (ctxClass r).accept = some m ∧ (treeBuilder A rt cfg).method (ctxClass r).accept = some m' ∧
      FaultSim B (α := Option Unit) (m (.node r ks) as) (m' (.node r ks) bs) := by
  cases r
  case query => exact ⟨_, _, rfl, rfl, faultsim_exposed _ (faultsim_query _ h)⟩
  case main_query => exact ⟨_, _, rfl, rfl, faultsim_exposed (m := fun ctx acc => (do let _ ← superVisit ctx acc; return none : BM ν (σ × Struck) (Option Unit)))
    _ (faultsim_main _ h)⟩
  case query_disjunction => exact ⟨_, _, rfl, rfl, faultsim_exposed _ (faultsim_collect _ _ _ h)⟩
  case query_sequence => exact ⟨_, _, rfl, rfl, faultsim_exposed _ (faultsim_collect _ _ _ h)⟩
  case query_group => exact ⟨_, _, rfl, rfl, faultsim_exposed _ (faultsim_repeated _ _ h)⟩
  case query_simple => exact ⟨_, _, rfl, rfl, faultsim_exposed _ (faultsim_repeated _ _ h)⟩
  case query_implicit => exact ⟨_, _, rfl, rfl, faultsim_exposed _ (faultsim_implicit _ h)⟩
  case query_segment => exact ⟨_, _, rfl, rfl, faultsim_exposed _ (faultsim_segment _ h)⟩
  case expression_or => exact ⟨_, _, rfl, rfl, faultsim_exposed _ (faultsim_collect _ _ _ h)⟩
  case expression_and => exact ⟨_, _, rfl, rfl, faultsim_exposed _ (faultsim_collect _ _ _ h)⟩
  case expression_group => exact ⟨_, _, rfl, rfl, faultsim_exposed _ (faultsim_unary _ _ h)⟩
  case expression_not => exact ⟨_, _, rfl, rfl, faultsim_exposed _ (faultsim_unary _ _ h)⟩
  case expression_basic => exact ⟨_, _, rfl, rfl, faultsim_exposed _ (faultsim_basic _ h)⟩
  case attribute_ => exact ⟨_, _, rfl, rfl, faultsim_exposed (as := as) (m := fun ctx _ => visitAttributeM ctx) _ (faultsim_attribute _)⟩
  case regexp => exact ⟨_, _, rfl, rfl, faultsim_exposed (as := as) (m := fun ctx _ => visitRegexpM rt cfg ctx) _ (faultsim_regexp _)⟩
  case within_part_simple =>
    exact ⟨_, _, rfl, rfl, faultsim_exposed (as := as) (m := fun ctx _ => visitWithinPartSimpleM (faultAlloc A) cfg ctx) _ (faultsim_within _)⟩
  all_goals exact ⟨_, _, rfl, rfl, faultsim_exposed (m := superVisit) _ (FaultSim.super _ h)⟩

/-- The builder does the same, or is struck. -/
theorem faultsim_builder (A : Alloc ν σ) (rt : PyRuntime) (cfg : Config) (t : PTree) :
    FaultSim B (α := Option Unit) (acceptCtx ctxClass (faultBuilder A rt cfg B) t) (acceptCtx ctxClass (treeBuilder A rt cfg) t) := by
  apply PTree.rec (motive_1 := fun t => FaultSim B (α := Option Unit) (acceptCtx ctxClass (faultBuilder A rt cfg B) t)
      (acceptCtx ctxClass (treeBuilder A rt cfg) t))
    (motive_2 := fun ts => FaultSims B (acceptCtxs ctxClass (faultBuilder A rt cfg B) ts) (acceptCtxs ctxClass (treeBuilder A rt cfg) ts))
  · intro x
    rw [acceptCtx, acceptCtx]
    exact FaultSim.pure none
  · intro r ks ih
    obtain ⟨m, m', h1, h2, h3⟩ := faultsim_rule (A := A) (rt := rt) (cfg := cfg) r ks ih
    rw [acceptCtx, acceptCtx, h1, h2]
    exact h3
  · rw [acceptCtxs, acceptCtxs]; exact .nil
  · intro c cs ih1 ih2
    rw [acceptCtxs, acceptCtxs]
    exact .cons ih1 ih2

end

/-- A node, or one of the exceptions, as without exceptions from outside; or struck. -/
def TryOut.plain : Except ParserException Node → TryOut → Prop
  | .ok n, o => o = .node n
  | .error e, o => (∃ msg, o = .builderException msg ∧ e = ⟨msg⟩) ∨ o = .other ∧ e = wrapExc .other

theorem runBuilderF_same (rt : PyRuntime) (cfg : Config) (B : Nat → Option Strike) (t : PTree) :
    (∃ k, runBuilderF rt cfg B t = .strike k ∧ ∃ i, B i = some k) ∨ TryOut.plain (runBuilder rt cfg t) (runBuilderF rt cfg B t) := by
  rcases faultsim_builder (B := B) pureAlloc rt cfg t () 0 [] with ⟨k, s, h1, h2, h3⟩ | ⟨r, h', n', st', h1, h2⟩
  · left
    refine ⟨k, ?_, h3⟩
    unfold runBuilderF
    rw [h1]
    simp only [h2]
  · unfold runBuilderF runBuilder
    rw [h1, h2]
    cases r with
    | error e =>
      right
      cases e with
      | builder msg => exact .inl ⟨msg, rfl, rfl⟩
      | other => exact .inr ⟨rfl, rfl⟩
    | ok x =>
      simp only
      cases hB : B n' with
      | some k => exact .inl ⟨k, rfl, n', hB⟩
      | none =>
        right
        simp only
        split
        · rfl
        · rename_i hno
          refine .inr ⟨?_, rfl⟩
          split
          · exact absurd rfl (hno _ _)
          · rfl

end Fcsql
