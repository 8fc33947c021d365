/-
The tree builder and visitors with the logger at level DEBUG.
-/
import Verif.Spec.Debug
import Verif.Spec.Cst
import Verif.Proofs.TreeBuilder

set_option autoImplicit false
set_option linter.unusedSimpArgs false

namespace Fcsql

section
variable {ν σ : Type}

/-- `a`, which logs, does what `b` does, and logs `ev` (or, if it raises, a first part of it). -/
def LogSim {α : Type} (a : BM ν (σ × List (LogRec ν)) α) (b : BM ν σ α) (ev : List (LogRec Unit)) : Prop :=
  ∀ h l st, ∃ r h' ad st', a ⟨(h, l), st⟩ = (r, ⟨(h', l ++ ad), st'⟩) ∧ b ⟨h, st⟩ = (r, ⟨h', st'⟩) ∧
    match r with
    | .ok _ => ad.map LogRec.bare = ev
    | .error _ => ad.map LogRec.bare <+: ev

theorem LogSim.bind {α β : Type} {a : BM ν (σ × List (LogRec ν)) α} {b : BM ν σ α} {f : α → BM ν (σ × List (LogRec ν)) β}
    {g : α → BM ν σ β} {e1 e2 e : List (LogRec Unit)} (h1 : LogSim a b e1) (h2 : ∀ x, LogSim (f x) (g x) e2) (he : e = e1 ++ e2) :
    LogSim (a >>= f) (b >>= g) e := by
  subst he
  intro h l st
  obtain ⟨r, h', ad, st', ea, eb, hr⟩ := h1 h l st
  rw [bm_bind, bm_bind, ea, eb]
  cases r with
  | error x => exact ⟨_, _, _, _, rfl, rfl, hr.trans (List.prefix_append ..)⟩
  | ok x =>
    obtain ⟨r, h2', ad2, st2, ea2, eb2, hr2⟩ := h2 x h' (l ++ ad) st'
    refine ⟨r, h2', ad ++ ad2, st2, by simpa using ea2, eb2, ?_⟩
    simp only at hr
    subst hr
    cases r with
    | error x => simpa using hr2
    | ok x => simpa using hr2

/-- Without records. -/
theorem LogSim.bind0 {α β : Type} {a : BM ν (σ × List (LogRec ν)) α} {b : BM ν σ α} {f : α → BM ν (σ × List (LogRec ν)) β}
    {g : α → BM ν σ β} {e : List (LogRec Unit)} (h1 : LogSim a b []) (h2 : ∀ x, LogSim (f x) (g x) e) :
    LogSim (a >>= f) (b >>= g) e := h1.bind h2 rfl

theorem LogSim.lift {α : Type} (x : Except Exc α) : LogSim (liftB x : BM ν (σ × List (LogRec ν)) α) (liftB x) [] :=
  fun h l st => ⟨x, h, [], st, by simp [liftB], rfl, by cases x <;> simp⟩

theorem LogSim.pure {α : Type} (x : α) : LogSim (Pure.pure x : BM ν (σ × List (LogRec ν)) α) (Pure.pure x) [] := LogSim.lift (.ok x)

theorem LogSim.len : LogSim (lenB : BM ν (σ × List (LogRec ν)) Nat) lenB [] :=
  fun h l st => ⟨.ok st.length, h, [], st, by simp [lenB], rfl, rfl⟩

theorem LogSim.push (x : Item ν) : LogSim (pushB x : BM ν (σ × List (LogRec ν)) Unit) (pushB x) [] :=
  fun h l st => ⟨.ok (), h, [], x :: st, by simp [pushB], rfl, rfl⟩

theorem LogSim.pop : LogSim (popB : BM ν (σ × List (LogRec ν)) (Item ν)) popB [] := by
  intro h l st
  cases st with
  | nil => exact ⟨.error .other, h, [], [], by simp [popB], rfl, by simp⟩
  | cons x st => exact ⟨.ok x, h, [], st, by simp [popB], rfl, rfl⟩

theorem LogSim.itemNode (x : Item ν) : LogSim (itemNode x : BM ν (σ × List (LogRec ν)) ν) (itemNode x) [] := by
  cases x <;> exact LogSim.lift _

theorem LogSim.itemNodes : ∀ xs : List (Item ν), LogSim (itemNodes xs : BM ν (σ × List (LogRec ν)) (List ν)) (itemNodes xs) []
  | [] => LogSim.lift _
  | x :: xs => (LogSim.itemNode x).bind0 fun _ => (LogSim.itemNodes xs).bind0 fun _ => LogSim.lift _

theorem LogSim.popItems (pos : Nat) : ∀ (fuel : Nat) (items : List (Item ν)),
    LogSim (popItems pos fuel items : BM ν (σ × List (LogRec ν)) (List (Item ν))) (popItems pos fuel items) []
  | 0, _ => LogSim.lift _
  | fuel + 1, items => LogSim.len.bind0 fun n => by
      by_cases h : n > pos
      · simp only [if_pos h]; exact LogSim.pop.bind0 fun x => LogSim.popItems pos fuel (x :: items)
      · simp only [if_neg h]; exact LogSim.lift _

theorem LogSim.appendNode (A : Alloc ν σ) (cfg : Config) (k : Kind) (children : List ν) (ctx : PTree) :
    LogSim (appendNode (logAlloc A) cfg k children ctx) (appendNode A cfg k children ctx) [] :=
  fun h l st => ⟨.ok (), _, [], _, by simp [Fcsql.appendNode, logAlloc], rfl, rfl⟩

/-- Children visited one after the other. -/
inductive LogSims : List (CAct Unit (BState ν (σ × List (LogRec ν))) Exc) → List (CAct Unit (BState ν σ) Exc) → List (LogRec Unit) → Prop
  | nil : LogSims [] [] []
  | cons {a : CAct Unit (BState ν (σ × List (LogRec ν))) Exc} {b : CAct Unit (BState ν σ) Exc} {e as bs es} :
      LogSim (α := Option Unit) a b e → LogSims as bs es → LogSims (a :: as) (b :: bs) (e ++ es)

theorem LogSim.loop (ctx : PTree) {as : List (CAct Unit (BState ν (σ × List (LogRec ν))) Exc)} {bs : List (CAct Unit (BState ν σ) Exc)}
    {ev : List (LogRec Unit)} (h : LogSims as bs ev) : ∀ o : Option Unit,
    LogSim (α := Option Unit) (CtxVisitor.loop { method := fun _ => none } ctx o as) (CtxVisitor.loop { method := fun _ => none } ctx o bs) ev := by
  induction h with
  | nil => intro o; exact fun h l st => ⟨.ok o, h, [], st, by simp [CtxVisitor.loop], rfl, rfl⟩
  | @cons a b e as bs es h1 _ ih =>
    intro o
    have key : LogSim (α := Option Unit) ((a : BM ν (σ × List (LogRec ν)) (Option Unit)) >>= fun x => CtxVisitor.loop { method := fun _ => none } ctx x as)
        ((b : BM ν σ (Option Unit)) >>= fun x => CtxVisitor.loop { method := fun _ => none } ctx x bs) (e ++ es) := h1.bind ih rfl
    intro h l st
    have := key h l st
    rw [bm_bind, bm_bind] at this
    simp only [CtxVisitor.loop, if_true]
    rcases ha : a ⟨(h, l), st⟩ with ⟨x, s1⟩
    rcases hb : b ⟨h, st⟩ with ⟨y, s2⟩
    rw [ha, hb] at this
    cases x <;> cases y <;> exact this

theorem LogSim.super (ctx : PTree) {as : List (CAct Unit (BState ν (σ × List (LogRec ν))) Exc)} {bs : List (CAct Unit (BState ν σ) Exc)}
    {ev : List (LogRec Unit)} (h : LogSims as bs ev) : LogSim (superVisit ctx as) (superVisit ctx bs) ev := LogSim.loop ctx h none

/-! ### The methods -/

variable {A : Alloc ν σ} {rt : PyRuntime} {cfg : Config} (ctx : PTree)
  {as : List (CAct Unit (BState ν (σ × List (LogRec ν))) Exc)} {bs : List (CAct Unit (BState ν σ) Exc)} {ev : List (LogRec Unit)}

theorem logsim_collect (k : Kind) (msg : PyStr) (h : LogSims as bs ev) :
    LogSim (collectM (logAlloc A) cfg k msg ctx as) (collectM A cfg k msg ctx bs) ev :=
  LogSim.len.bind0 fun pos => (LogSim.super ctx h).bind (fun _ => LogSim.len.bind0 fun n => by
    by_cases hp : n > pos
    · simp only [if_pos hp]
      exact (LogSim.popItems pos n []).bind0 fun items => (LogSim.itemNodes items).bind0 fun cs =>
        (LogSim.appendNode A cfg k cs ctx).bind0 fun _ => LogSim.pure none
    · simp only [if_neg hp]; exact LogSim.lift _) (by simp)

theorem logsim_query (h : LogSims as bs ev) : LogSim (visitQueryM (logAlloc A) cfg ctx as) (visitQueryM A cfg ctx bs) ev :=
  (LogSim.super ctx h).bind (fun _ => (LogSim.lift _).bind0 fun w => by
    by_cases hp : w.isSome
    · simp only [if_pos hp]
      exact LogSim.pop.bind0 fun x => LogSim.pop.bind0 fun y => (LogSim.itemNodes [y, x]).bind0 fun cs =>
        (LogSim.appendNode A cfg .withWithin cs ctx).bind0 fun _ => LogSim.pure none
    · simp only [if_neg hp]; exact LogSim.pure none) (by simp)

theorem logsim_main (h : LogSims as bs ev) :
    LogSim (do let _ ← superVisit ctx as; return none : BM ν (σ × List (LogRec ν)) (Option Unit))
      (do let _ ← superVisit ctx bs; return none : BM ν σ (Option Unit)) ev :=
  (LogSim.super ctx h).bind (fun _ => LogSim.pure none) (by simp)

theorem logsim_repeated (k : Int → Int → Kind) (h : LogSims as bs ev) :
    LogSim (visitRepeatedM (logAlloc A) rt cfg k ctx as) (visitRepeatedM A rt cfg k ctx bs) ev :=
  (LogSim.super ctx h).bind (fun _ => (LogSim.lift _).bind0 fun p => by
    obtain ⟨mn, mx⟩ := p
    exact LogSim.pop.bind0 fun x => (LogSim.itemNodes [x]).bind0 fun cs =>
      (LogSim.appendNode A cfg (k mn mx) cs ctx).bind0 fun _ => LogSim.pure none) (by simp)

theorem logsim_popExpression : LogSim (popExpressionM (logAlloc A) cfg ctx) (popExpressionM A cfg ctx) [] :=
  LogSim.pop.bind0 fun x1 => LogSim.pop.bind0 fun x2 => LogSim.pop.bind0 fun x3 => LogSim.pop.bind0 fun x4 => LogSim.pop.bind0 fun x5 => by
    split
    · exact (LogSim.appendNode A cfg _ [] ctx).bind0 fun _ => LogSim.pure none
    · exact LogSim.lift _

theorem logsim_implicit (h : LogSims as bs ev) : LogSim (visitQueryImplicitM (logAlloc A) cfg ctx as) (visitQueryImplicitM A cfg ctx bs) ev :=
  (LogSim.push _).bind0 fun _ => (LogSim.push _).bind0 fun _ => (LogSim.push _).bind0 fun _ =>
    (LogSim.super ctx h).bind (fun _ => logsim_popExpression ctx) (by simp)

theorem logsim_segment (h : LogSims as bs ev) : LogSim (visitQuerySegmentM (logAlloc A) cfg ctx as) (visitQuerySegmentM A cfg ctx bs)
    (if (ctxChildren ctx).length = 2 then [] else ev) := by
  unfold visitQuerySegmentM
  by_cases hp : (ctxChildren ctx).length = 2
  · simp only [if_pos hp]
    exact (LogSim.appendNode A cfg .wildcard [] ctx).bind0 fun _ => LogSim.pure none
  · simp only [if_neg hp]
    exact (LogSim.super ctx h).bind (fun _ => LogSim.pure none) (by simp)

theorem logsim_basic (h : LogSims as bs ev) : LogSim (visitExpressionBasicM (logAlloc A) cfg ctx as) (visitExpressionBasicM A cfg ctx bs) ev := by
  have rest : LogSim (do let _ ← superVisit ctx as; popExpressionM (logAlloc A) cfg ctx)
      (do let _ ← superVisit ctx bs; popExpressionM A cfg ctx) ev :=
    (LogSim.super ctx h).bind (fun _ => logsim_popExpression ctx) (by simp)
  refine (LogSim.lift (ctxGet ctx py!"OPERATOR_EQ")).bind0 fun x => ?_
  by_cases hx : x.isSome
  · simp only [if_pos hx]
    exact (LogSim.push _).bind0 fun _ => rest
  · simp only [if_neg hx]
    refine (LogSim.lift (ctxGet ctx py!"OPERATOR_NE")).bind0 fun y => ?_
    by_cases hy : y.isSome
    · simp only [if_pos hy]
      exact (LogSim.push _).bind0 fun _ => rest
    · simp only [if_neg hy]
      exact (LogSim.lift _).bind0 fun _ => rest

theorem logsim_unary (k : Kind) (h : LogSims as bs ev) : LogSim (visitUnaryM (logAlloc A) cfg k ctx as) (visitUnaryM A cfg k ctx bs) ev :=
  (LogSim.super ctx h).bind (fun _ => LogSim.pop.bind0 fun x => (LogSim.itemNodes [x]).bind0 fun cs =>
    (LogSim.appendNode A cfg k cs ctx).bind0 fun _ => LogSim.pure none) (by simp)

theorem logsim_attribute : LogSim (visitAttributeM ctx : BM ν (σ × List (LogRec ν)) (Option Unit)) (visitAttributeM ctx) [] :=
  (LogSim.lift _).bind0 fun q => (LogSim.lift _).bind0 fun i => by
    cases i with
    | none => exact LogSim.lift _
    | some i => exact (LogSim.push _).bind0 fun _ => (LogSim.push _).bind0 fun _ => LogSim.pure none

theorem logsim_regexp : LogSim (visitRegexpM rt cfg ctx : BM ν (σ × List (LogRec ν)) (Option Unit)) (visitRegexpM rt cfg ctx) [] :=
  (LogSim.lift _).bind0 fun p => by
    cases p with
    | none => exact LogSim.lift _
    | some p =>
      exact (LogSim.lift _).bind0 fun _ => (LogSim.push _).bind0 fun _ => (LogSim.lift _).bind0 fun f => by
        cases f with
        | none => exact (LogSim.push _).bind0 fun _ => LogSim.pure none
        | some f => exact (LogSim.lift _).bind0 fun _ => (LogSim.push _).bind0 fun _ => LogSim.pure none

theorem logsim_within : LogSim (visitWithinPartSimpleM (logAlloc A) cfg ctx) (visitWithinPartSimpleM A cfg ctx) [] := by
  unfold visitWithinPartSimpleM
  cases (ctxChildren ctx).head? with
  | none => exact LogSim.lift _
  | some c => exact (LogSim.lift _).bind0 fun _ => (LogSim.appendNode A cfg _ [] ctx).bind0 fun _ => LogSim.pure none

/-! ### The builder -/

/-- The contexts whose children the builder visits. -/
def Rule.descends (ks : List PTree) : Rule → Bool
  | .attribute_ | .regexp | .within_part_simple => false
  | .query_segment => ks.length ≠ 2
  | _ => true

theorem logsim_debugged (name : PyStr) {m : PTree → List (CAct Unit (BState ν (σ × List (LogRec ν))) Exc) → CAct Unit (BState ν (σ × List (LogRec ν))) Exc}
    {b : BM ν σ (Option Unit)} (h : LogSim (m ctx as) b ev) :
    LogSim (debugged name m ctx as) b (.enter name (ctxChildren ctx).length ctx.getText :: (ev ++ [.exit name []])) := by
  intro hp l st
  obtain ⟨r, h', ad, st', ea, eb, hr⟩ := h hp (l ++ [.enter name (ctxChildren ctx).length ctx.getText]) st
  have e : debugged name m ctx as ⟨(hp, l), st⟩ = match (r, (⟨(h', l ++ [.enter name (ctxChildren ctx).length ctx.getText] ++ ad), st'⟩ :
      BState ν (σ × List (LogRec ν)))) with
    | (.ok r, s) => (.ok r, writeLog (.exit name s.stack) s)
    | (.error e, s) => (.error e, s) := by
    rw [← ea]; rfl
  rw [e]
  cases r with
  | error x =>
    refine ⟨.error x, h', .enter name (ctxChildren ctx).length ctx.getText :: ad, st', by simp, eb, ?_⟩
    simp only [List.map_cons, LogRec.bare]
    exact List.cons_prefix_cons.2 ⟨rfl, (show ad.map LogRec.bare <+: ev from hr).trans (List.prefix_append ..)⟩
  | ok x =>
    refine ⟨.ok x, h', .enter name (ctxChildren ctx).length ctx.getText :: (ad ++ [.exit name st']), st', by simp [writeLog], eb, ?_⟩
    simp only at hr
    simp [LogRec.bare, hr]

/-- What the builder logs in a context whose children are visited with the records `kids`. -/
def ruleTrace (r : Rule) (ks : List PTree) (kids : List (LogRec Unit)) : List (LogRec Unit) :=
  let inner := if r.descends ks then kids else []
  if r.silent then inner
  else .enter (py!"visit" ++ capitalized r.text) ks.length (PTree.node r ks).getText ::
    (inner ++ [.exit (py!"visit" ++ capitalized r.text) []])

theorem logsim_rule (r : Rule) (ks : List PTree) (h : LogSims as bs ev) :
    ∃ m m', (debugBuilder A rt cfg).method (ctxClass r).accept = some m ∧ (treeBuilder A rt cfg).method (ctxClass r).accept = some m' ∧
      LogSim (α := Option Unit) (m (.node r ks) as) (m' (.node r ks) bs) (ruleTrace r ks ev) := by
  cases r
  case query => exact ⟨_, _, rfl, rfl, logsim_debugged _ _ (logsim_query _ h)⟩
  case main_query => exact ⟨_, _, rfl, rfl, logsim_debugged (m := fun ctx acc => (do let _ ← superVisit ctx acc; return none : BM ν (σ × List (LogRec ν)) (Option Unit)))
    _ _ (logsim_main _ h)⟩
  case query_disjunction => exact ⟨_, _, rfl, rfl, logsim_debugged _ _ (logsim_collect _ _ _ h)⟩
  case query_sequence => exact ⟨_, _, rfl, rfl, logsim_debugged _ _ (logsim_collect _ _ _ h)⟩
  case query_group => exact ⟨_, _, rfl, rfl, logsim_debugged _ _ (logsim_repeated _ _ h)⟩
  case query_simple => exact ⟨_, _, rfl, rfl, logsim_debugged _ _ (logsim_repeated _ _ h)⟩
  case query_implicit => exact ⟨_, _, rfl, rfl, logsim_debugged _ _ (logsim_implicit _ h)⟩
  case query_segment =>
    refine ⟨_, _, rfl, rfl, ?_⟩
    have := logsim_debugged (PTree.node .query_segment ks) py!"visitQuery_segment" (m := visitQuerySegmentM (logAlloc A) cfg)
      (logsim_segment (A := A) (cfg := cfg) (PTree.node .query_segment ks) h)
    have e : ruleTrace .query_segment ks ev = .enter py!"visitQuery_segment" (ctxChildren (.node .query_segment ks)).length
        (PTree.node .query_segment ks).getText ::
        ((if (ctxChildren (.node .query_segment ks)).length = 2 then [] else ev) ++ [.exit py!"visitQuery_segment" []]) := by
      by_cases h2 : ks.length = 2 <;> simp [ruleTrace, Rule.descends, Rule.silent, ctxChildren, h2, Rule.text, capitalized] <;> decide
    rw [e]
    exact this
  case expression_or => exact ⟨_, _, rfl, rfl, logsim_debugged _ _ (logsim_collect _ _ _ h)⟩
  case expression_and => exact ⟨_, _, rfl, rfl, logsim_debugged _ _ (logsim_collect _ _ _ h)⟩
  case expression_group => exact ⟨_, _, rfl, rfl, logsim_debugged _ _ (logsim_unary _ _ h)⟩
  case expression_not => exact ⟨_, _, rfl, rfl, logsim_debugged _ _ (logsim_unary _ _ h)⟩
  case expression_basic => exact ⟨_, _, rfl, rfl, logsim_debugged _ _ (logsim_basic _ h)⟩
  case attribute_ => exact ⟨_, _, rfl, rfl, logsim_debugged (as := as) (m := fun ctx _ => visitAttributeM ctx) _ _ (logsim_attribute _)⟩
  case regexp => exact ⟨_, _, rfl, rfl, logsim_debugged (as := as) (m := fun ctx _ => visitRegexpM rt cfg ctx) _ _ (logsim_regexp _)⟩
  case within_part_simple =>
    exact ⟨_, _, rfl, rfl, logsim_debugged (as := as) (m := fun ctx _ => visitWithinPartSimpleM (logAlloc A) cfg ctx) _ _ (logsim_within _)⟩
  all_goals exact ⟨_, _, rfl, rfl, LogSim.super _ h⟩

mutual
/-- What the builder logs on any tree. -/
def walked : PTree → List (LogRec Unit)
  | .leaf _ => []
  | .node r ks => ruleTrace r ks (walkedL ks)
/-- On trees. -/
def walkedL : List PTree → List (LogRec Unit)
  | [] => []
  | c :: cs => walked c ++ walkedL cs
end

/-- The builder does the same with DEBUG enabled, and logs `walked`. -/
theorem logsim_builder (A : Alloc ν σ) (rt : PyRuntime) (cfg : Config) (t : PTree) :
    LogSim (α := Option Unit) (acceptCtx ctxClass (debugBuilder A rt cfg) t) (acceptCtx ctxClass (treeBuilder A rt cfg) t) (walked t) := by
  apply PTree.rec (motive_1 := fun t => LogSim (α := Option Unit) (acceptCtx ctxClass (debugBuilder A rt cfg) t)
      (acceptCtx ctxClass (treeBuilder A rt cfg) t) (walked t))
    (motive_2 := fun ts => LogSims (acceptCtxs ctxClass (debugBuilder A rt cfg) ts) (acceptCtxs ctxClass (treeBuilder A rt cfg) ts) (walkedL ts))
  · intro x
    rw [acceptCtx, acceptCtx, walked]
    exact LogSim.pure none
  · intro r ks ih
    obtain ⟨m, m', h1, h2, h3⟩ := logsim_rule (A := A) (rt := rt) (cfg := cfg) r ks ih
    rw [acceptCtx, acceptCtx, h1, h2, walked]
    exact h3
  · rw [acceptCtxs, acceptCtxs, walkedL]; exact .nil
  · intro c cs ih1 ih2
    rw [acceptCtxs, acceptCtxs, walkedL]
    exact .cons ih1 ih2

end

/-! ### Trees of queries -/

theorem walkedL_append (xs ys : List PTree) : walkedL (xs ++ ys) = walkedL xs ++ walkedL ys := by
  induction xs with
  | nil => simp [walkedL]
  | cons x xs ih => simp [walkedL, ih]

theorem traceL_append (xs ys : List PTree) : PTree.traceL (xs ++ ys) = PTree.traceL xs ++ PTree.traceL ys := by
  induction xs with
  | nil => simp [PTree.traceL]
  | cons x xs ih => simp [PTree.traceL, ih]

theorem walked_node {r : Rule} {ks : List PTree} (h : walkedL ks = PTree.traceL ks) (h2 : r.descends ks = true ∨ PTree.traceL ks = []) :
    walked (.node r ks) = (PTree.node r ks).trace := by
  have : (if r.descends ks then walkedL ks else []) = PTree.traceL ks := by
    rcases h2 with h2 | h2
    · rw [if_pos h2, h]
    · rw [h, h2]; simp
  simp only [walked, ruleTrace, PTree.trace, this]

theorem walked_regexp (r : CRegexp) : walked r.toTree = r.toTree.trace := by
  obtain ⟨p, f⟩ := r
  rcases f with _ | ⟨s, f⟩ <;> exact walked_node rfl (.inr rfl)

theorem walked_attr (a : CAttr) : walked a.toTree = a.toTree.trace := by
  obtain ⟨q, i⟩ := a
  rcases q with _ | ⟨q, c⟩ <;> exact walked_node rfl (.inr rfl)

theorem walked_quant (q : Option CQuant) : walkedL (optQuant q) = PTree.traceL (optQuant q) := by
  cases q with
  | none => rfl
  | some q =>
    simp only [optQuant, walkedL, PTree.traceL, List.append_nil]
    refine walked_node ?_ (.inl rfl)
    cases q with
    | sym t => rfl
    | exactly a b c => rfl
    | range a n c m b => cases n <;> cases m <;> rfl

theorem walked_expr (e : CExpr) : walked e.toTree = e.toTree.trace := by
  refine CExpr.rec (motive_1 := fun e => walked e.toTree = e.toTree.trace)
    (motive_2 := fun l => walkedL l.forest = PTree.traceL l.forest) ?_ ?_ ?_ ?_ ?_ ?_ ?_ e
  · intro a op r
    simp only [CExpr.toTree]
    exact walked_node (by simp only [walkedL, PTree.traceL, walked_attr, walked_regexp, walked, PTree.trace]) (.inl rfl)
  · intro lp e rp ih
    simp only [CExpr.toTree]
    exact walked_node (by simp only [walkedL, PTree.traceL, ih, walked, PTree.trace]) (.inl rfl)
  · intro f rest ih1 ih2
    simp only [CExpr.toTree]
    exact walked_node (by simp only [walkedL, PTree.traceL, ih1, ih2]) (.inl rfl)
  · intro f rest ih1 ih2
    simp only [CExpr.toTree]
    exact walked_node (by simp only [walkedL, PTree.traceL, ih1, ih2]) (.inl rfl)
  · intro b e ih
    simp only [CExpr.toTree]
    exact walked_node (by simp only [walkedL, PTree.traceL, ih, walked, PTree.trace]) (.inl rfl)
  · rfl
  · intro op e rest ih1 ih2
    simp only [CTail.forest, walkedL, PTree.traceL, ih1, ih2, walked, PTree.trace]

theorem walked_cq (c : CQ) : walked c.toTree = c.toTree.trace := by
  refine CQ.rec (motive_1 := fun c => walked c.toTree = c.toTree.trace)
    (motive_2 := fun l => walkedL l.forest = PTree.traceL l.forest) ?_ ?_ ?_ ?_ ?_ ?_ ?_ c
  · intro r q
    simp only [CQ.toTree]
    refine walked_node ?_ (.inl rfl)
    simp only [walkedL, PTree.traceL, walked_quant]
    rw [walked_node (by simp only [walkedL, PTree.traceL, walked_regexp]) (.inl rfl)]
  · intro lb e rb q
    simp only [CQ.toTree]
    refine walked_node ?_ (.inl rfl)
    simp only [walkedL, PTree.traceL, walked_quant]
    congr 1
    cases e with
    | none => exact walked_node rfl (.inr rfl)
    | some e =>
      refine walked_node ?_ (.inl (by simp [Rule.descends, optExpr]))
      have := walked_node (r := .expression) (ks := [e.toTree]) (by simp only [walkedL, PTree.traceL, walked_expr]) (.inl rfl)
      show walked (.leaf lb) ++ (walked (.node .expression [e.toTree]) ++ (walked (.leaf rb) ++ [])) = _
      rw [this]
      rfl
  · intro lp c rp q ih
    simp only [CQ.toTree]
    exact walked_node (by simp only [walkedL, PTree.traceL, ih, walked_quant, walked, PTree.trace]) (.inl rfl)
  · intro f rest ih1 ih2
    simp only [CQ.toTree]
    exact walked_node (by simp only [walkedL, PTree.traceL, ih1, ih2]) (.inl rfl)
  · intro f rest ih1 ih2
    simp only [CQ.toTree]
    exact walked_node (by simp only [walkedL, PTree.traceL, ih1, ih2]) (.inl rfl)
  · rfl
  · intro sep c rest ih1 ih2
    simp only [CQTail.forest]
    rw [walkedL_append, traceL_append]
    simp only [walkedL, PTree.traceL, ih1, ih2]
    cases sep <;> rfl

/-- The builder logs the trace of the tree of a query. -/
theorem walked_query (c : CQuery) : walked c.toTree = c.toTree.trace := by
  simp only [CQuery.toTree]
  refine walked_node ?_ (.inl rfl)
  simp only [walkedL, PTree.traceL]
  rw [walkedL_append, traceL_append, walked_node (by simp only [walkedL, PTree.traceL, walked_cq]) (.inl rfl)]
  rcases c.within with _ | ⟨w, s⟩ <;> rfl

/-! ### Visitors -/

section
variable {R σ ε : Type}

theorem same_loop {v : Debugged R σ ε} {same : σ → σ → Prop} (hv : v.Blind same) (node : Node) {as bs : List (Act R σ ε)}
    (h : SameActs same as bs) : ∀ r, SameAct same (visitLoop v.toVisitorBase node r as) (visitLoop v.toVisitorBase node r bs) := by
  induction h with
  | nil => intro r s t hst; exact ⟨rfl, hst⟩
  | @cons a b as bs h1 _ ih =>
    intro r s t hst
    simp only [visitLoop]
    obtain ⟨e1, e2⟩ := hv.shouldVisit node r s t hst
    rcases hs : v.shouldVisit node r s with ⟨x, s'⟩
    rcases ht : v.shouldVisit node r t with ⟨y, t'⟩
    rw [hs, ht] at e1 e2
    simp only at e1 e2
    subst e1
    rcases x with x | _ | _
    · exact ⟨rfl, e2⟩
    · exact ⟨rfl, e2⟩
    · obtain ⟨e3, e4⟩ := h1 s' t' e2
      rcases hs2 : a s' with ⟨x, s2⟩
      rcases ht2 : b t' with ⟨y, t2⟩
      rw [hs2, ht2] at e3 e4
      simp only at e3 e4
      subst e3
      cases x with
      | error x => simp only [hs2, ht2]; exact ⟨trivial, e4⟩
      | ok x =>
        simp only [hs2, ht2]
        obtain ⟨e5, e6⟩ := hv.aggregate r x s2 t2 e4
        rcases hs3 : v.aggregate r x s2 with ⟨z, s3⟩
        rcases ht3 : v.aggregate r x t2 with ⟨z', t3⟩
        rw [hs3, ht3] at e5 e6
        simp only at e5 e6
        subst e5
        cases z with
        | error z => exact ⟨rfl, e6⟩
        | ok z => exact ih z s3 t3 e6

theorem same_children {v : Debugged R σ ε} {same : σ → σ → Prop} (hv : v.Blind same) (node : Node) {as bs : List (Act R σ ε)}
    (h : SameActs same as bs) : SameAct same (visitChildrenLoop v.toVisitorBase node as) (visitChildrenLoop v.toVisitorBase node bs) := by
  intro s t hst
  simp only [visitChildrenLoop]
  obtain ⟨e1, e2⟩ := hv.defaultResult s t hst
  rcases hs : v.defaultResult s with ⟨x, s'⟩
  rcases ht : v.defaultResult t with ⟨y, t'⟩
  rw [hs, ht] at e1 e2
  simp only at e1 e2
  subst e1
  cases x with
  | error x => exact ⟨rfl, e2⟩
  | ok x => exact same_loop hv node h x s' t' e2

theorem same_visit {v : Debugged R σ ε} {same : σ → σ → Prop} (hv : v.Blind same)
    (hn : ∀ name m, v.method name = some m → (v.pyName name).isSome) (n : Node) : SameAct same (visitNodeD v n) (visitNode v.toVisitor n) := by
  refine Node.rec (motive_1 := fun n => SameAct same (visitNodeD v n) (visitNode v.toVisitor n))
    (motive_2 := fun ns => SameActs same (acceptAllD v ns) (acceptAll v.toVisitor ns)) ?_ ?_ ?_ n
  · intro k cs l ih s t hst
    rw [visitNodeD, visitNode]
    simp only [dispatchD, dispatch]
    cases hm : v.method (methodName (.mk k cs l)) with
    | none => exact same_children hv _ ih _ _ (hv.write _ _ s t hst)
    | some m =>
      obtain ⟨x, hx⟩ := Option.isSome_iff_exists.1 (hn _ _ hm)
      simp only [hx]
      exact hv.method _ m hm _ _ _ ih _ _ (hv.write _ _ s t hst)
  · rw [acceptAllD, acceptAll]; exact .nil
  · intro c cs ih1 ih2
    rw [acceptAllD, acceptAll]
    exact .cons ih1 ih2

end

end Fcsql
