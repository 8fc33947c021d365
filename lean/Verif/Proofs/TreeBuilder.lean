/-
The builder object (`Model/TreeBuilder.lean`) computes the function of `Model/Builder.lean`.
-/
import Verif.Model.TreeBuilder

set_option autoImplicit false
set_option linter.unusedSimpArgs false

namespace Fcsql

section
variable {ν σ : Type}

/-- What a call amounts to for the caller that gives up on exceptions. -/
def outcome {α : Type} (x : Except Exc α × BState ν σ) : Except Exc (BState ν σ) := x.1.map fun _ => x.2

theorem outcome_cases {α : Type} {x : Except Exc α × BState ν σ} {r : Except Exc (BState ν σ)} (h : outcome x = r) :
    (∃ a s, x = (.ok a, s) ∧ r = .ok s) ∨ (∃ e s, x = (.error e, s) ∧ r = .error e) := by
  obtain ⟨y, s⟩ := x
  cases y with
  | ok a => exact .inl ⟨a, s, rfl, h.symm⟩
  | error e => exact .inr ⟨e, s, rfl, h.symm⟩

theorem bm_bind {α β : Type} (a : BM ν σ α) (f : α → BM ν σ β) (s : BState ν σ) :
    (a >>= f : BM ν σ β) s = match a s with
      | (.ok x, s') => f x s'
      | (.error e, s') => (.error e, s') := by
  show (ExceptT.bind a f) s = _
  unfold ExceptT.bind ExceptT.mk
  show (StateT.bind a (ExceptT.bindCont f)) s = _
  unfold StateT.bind
  show (match a s with | (x, s') => ExceptT.bindCont f x s') = _
  rcases a s with ⟨_ | _, s'⟩ <;> rfl

theorem bm_pure {α : Type} (x : α) (s : BState ν σ) : (pure x : BM ν σ α) s = (.ok x, s) := rfl

theorem liftB_apply {α : Type} (e : Except Exc α) (s : BState ν σ) : (liftB e : BM ν σ α) s = (e, s) := rfl

theorem nthSelected_zero_rule (r : Rule) (ks : List PTree) : nthSelected (.rule r) 0 ks = ruleChild r ks := by
  induction ks with
  | nil => rfl
  | cons c cs ih =>
    simp only [nthSelected, ruleChild, List.find?_cons]
    cases c with
    | leaf x => simpa [Sym.selects, PTree.isRule, ruleChild] using ih
    | node r' ks' =>
      by_cases h : r' = r
      · simp [Sym.selects, PTree.isRule, h]
      · simpa [Sym.selects, PTree.isRule, h, ruleChild] using ih

theorem nthSelected_zero_tok (t : TokType) (ks : List PTree) : (nthSelected (.tok t) 0 ks).isSome = hasTokChild t ks := by
  induction ks with
  | nil => rfl
  | cons c cs ih =>
    simp only [nthSelected, hasTokChild, List.any_cons]
    cases c with
    | node r' ks' => simpa [Sym.selects, PTree.isTok, hasTokChild] using ih
    | leaf x =>
      by_cases h : x.type = t
      · simp [Sym.selects, PTree.isTok, h]
      · simpa [Sym.selects, PTree.isTok, h, hasTokChild] using ih

theorem ctxGet_rule {r r' : Rule} {name : PyStr} (ks : List PTree)
    (h : (ctxClass r).accessors.find? (fun a => a.name = name) = some ⟨name, .rule r', false⟩) :
    ctxGet (.node r ks) name = .ok (ruleChild r' ks) := by
  simp [ctxGet, h, Accessor.get, nthSelected_zero_rule]

theorem ctxGet_tok {r : Rule} {t : TokType} {name : PyStr} (ks : List PTree)
    (h : (ctxClass r).accessors.find? (fun a => a.name = name) = some ⟨name, .tok t, false⟩) :
    ∃ o, ctxGet (.node r ks) name = .ok o ∧ o.isSome = hasTokChild t ks := by
  refine ⟨_, ?_, nthSelected_zero_tok t ks⟩
  simp [ctxGet, h, Accessor.get]

theorem ruleChild_node {r : Rule} {ks : List PTree} {t : PTree} (h : ruleChild r ks = some t) : ∃ cs, t = .node r cs := by
  have := List.find?_some h
  cases t with
  | leaf x => simp [PTree.isRule] at this
  | node r' cs => simp [PTree.isRule] at this; exact ⟨cs, by rw [this]⟩

theorem repetitionM_eq (rt : PyRuntime) (r : Rule) (ks : List PTree) (hr : r = .query_group ∨ r = .query_simple) :
    repetitionM rt (.node r ks) = repetitionOf rt ks := by
  have h1 : ctxGet (.node r ks) py!"quantifier" = .ok (ruleChild .quantifier ks) := by
    rcases hr with rfl | rfl <;> exact ctxGet_rule ks rfl
  unfold repetitionM repetitionOf
  rw [h1]
  cases hq : ruleChild .quantifier ks with
  | none => rfl
  | some q =>
    obtain ⟨cs, rfl⟩ := ruleChild_node hq
    obtain ⟨o1, e1, i1⟩ := ctxGet_tok (r := .quantifier) (t := .Q_ZERO_OR_MORE) (name := py!"Q_ZERO_OR_MORE") cs rfl
    obtain ⟨o2, e2, i2⟩ := ctxGet_tok (r := .quantifier) (t := .Q_ONE_OR_MORE) (name := py!"Q_ONE_OR_MORE") cs rfl
    obtain ⟨o3, e3, i3⟩ := ctxGet_tok (r := .quantifier) (t := .Q_ZERO_OR_ONE) (name := py!"Q_ZERO_OR_ONE") cs rfl
    obtain ⟨o4, e4, i4⟩ := ctxGet_tok (r := .quantifier) (t := .L_CURLY_BRACKET) (name := py!"L_CURLY_BRACKET") cs rfl
    simp only [e1, e2, e3, e4, processRepetition, ctxChildren, ← i1, ← i2, ← i3, ← i4, bind, Except.bind, pure, Except.pure]
    try (cases o1.isSome <;> cases o2.isSome <;> cases o3.isSome <;> cases o4.isSome <;> rfl)

/-- The nodes in a list of items, if all are nodes. -/
def nodesOf : List (Item ν) → Option (List ν)
  | [] => some []
  | .node n :: xs => (nodesOf xs).map (n :: ·)
  | _ :: _ => none

theorem nodesOf_append (xs : List (Item ν)) (ys : List (Item ν)) :
    nodesOf (xs ++ ys) = match nodesOf xs with
      | none => none
      | some a => (nodesOf ys).map (a ++ ·) := by
  induction xs with
  | nil => simp only [List.nil_append, nodesOf]; cases nodesOf ys <;> simp
  | cons x xs ih =>
    cases x with
    | node n =>
      simp only [List.cons_append, nodesOf, ih]
      cases nodesOf xs with
      | none => rfl
      | some a => cases nodesOf ys <;> simp
    | str _ => rfl
    | op _ => rfl
    | flags _ => rfl

theorem itemNodes_eq (xs : List (Item ν)) (s : BState ν σ) :
    itemNodes xs s = (match nodesOf xs with | some ns => .ok ns | none => .error .other, s) := by
  induction xs with
  | nil => rfl
  | cons x xs ih =>
    cases x with
    | node n =>
      simp only [itemNodes, bm_bind, itemNode, liftB_apply, ih, nodesOf]
      cases nodesOf xs <;> rfl
    | str _ => simp [itemNodes, bm_bind, itemNode, liftB_apply, nodesOf]
    | op _ => simp [itemNodes, bm_bind, itemNode, liftB_apply, nodesOf]
    | flags _ => simp [itemNodes, bm_bind, itemNode, liftB_apply, nodesOf]

theorem popItems_eq (pos : Nat) : ∀ (fuel : Nat) (acc : List (Item ν)) (s : BState ν σ),
    popItems pos fuel acc s = (.ok ((s.stack.take (min fuel (s.stack.length - pos))).reverse ++ acc),
      { s with stack := s.stack.drop (min fuel (s.stack.length - pos)) })
  | 0, acc, s => by simp [popItems, liftB_apply]
  | fuel + 1, acc, s => by
    simp only [popItems, bm_bind, lenB]
    obtain ⟨h, st⟩ := s
    cases st with
    | nil => simp [liftB_apply]
    | cons x st =>
      by_cases hp : (x :: st).length > pos
      · rw [if_pos hp]
        simp only [bm_bind, popB]
        rw [popItems_eq pos fuel]
        have e : min (fuel + 1) ((x :: st).length - pos) = min fuel (st.length - pos) + 1 := by
          simp only [List.length_cons] at hp ⊢; omega
        simp only [e, List.take_succ_cons, List.drop_succ_cons, List.reverse_cons, List.append_assoc, List.singleton_append]
      · have e : (x :: st).length - pos = 0 := by simp only [List.length_cons] at hp ⊢; omega
        simp only [if_neg hp, liftB_apply, e, Nat.min_zero, List.take_zero, List.drop_zero, List.reverse_nil, List.nil_append]

theorem popDownTo_eq (pos : Nat) : ∀ (fuel : Nat) (acc : List ν) (s : BState ν σ),
    popDownTo pos fuel acc s = match nodesOf (s.stack.take (min fuel (s.stack.length - pos))).reverse with
      | some ns => .ok (ns ++ acc, { s with stack := s.stack.drop (min fuel (s.stack.length - pos)) })
      | none => .error .other
  | 0, acc, s => by simp [popDownTo, nodesOf]
  | fuel + 1, acc, s => by
    simp only [popDownTo]
    obtain ⟨h, st⟩ := s
    cases st with
    | nil => simp [nodesOf]
    | cons x st =>
      by_cases hp : (x :: st).length > pos
      · rw [if_pos hp]
        have e : min (fuel + 1) ((x :: st).length - pos) = min fuel (st.length - pos) + 1 := by
          simp only [List.length_cons] at hp ⊢; omega
        simp only [e, List.take_succ_cons, List.drop_succ_cons, List.reverse_cons, nodesOf_append]
        cases x with
        | node n =>
          simp only [popNode, pop, bind, Except.bind, nodesOf, Option.map_some]
          rw [popDownTo_eq pos fuel]
          simp only
          cases nodesOf (List.take (min fuel (st.length - pos)) st).reverse <;> simp
        | str _ =>
          simp only [popNode, pop, bind, Except.bind, nodesOf, Option.map_none]
          cases nodesOf (List.take (min fuel (st.length - pos)) st).reverse <;> rfl
        | op _ =>
          simp only [popNode, pop, bind, Except.bind, nodesOf, Option.map_none]
          cases nodesOf (List.take (min fuel (st.length - pos)) st).reverse <;> rfl
        | flags _ =>
          simp only [popNode, pop, bind, Except.bind, nodesOf, Option.map_none]
          cases nodesOf (List.take (min fuel (st.length - pos)) st).reverse <;> rfl
      · have e : (x :: st).length - pos = 0 := by simp only [List.length_cons] at hp ⊢; omega
        simp only [if_neg hp, e, Nat.min_zero, List.take_zero, List.drop_zero, List.reverse_nil, List.nil_append, nodesOf]

variable {A : Alloc ν σ} {rt : PyRuntime} {cfg : Config}

theorem collectM_eq (k : Kind) (msg : PyStr) (r : Rule) (cs : List PTree) (acc : List (CAct Unit (BState ν σ) Exc))
    (sub : BState ν σ → Except Exc (BState ν σ)) (hs : ∀ s, outcome (superVisit (.node r cs) acc s) = sub s)
    (s : BState ν σ) : outcome (collectM A cfg k msg (.node r cs) acc s) = collect A cfg k msg cs sub s := by
  simp only [collectM, collect, bm_bind, lenB]
  rcases outcome_cases (hs s) with ⟨a, s', e1, e2⟩ | ⟨e, s', e1, e2⟩
  · rw [e1, e2]
    simp only [bind, Except.bind]
    by_cases hp : s'.stack.length > s.stack.length
    · simp only [if_pos hp]
      show outcome ((popItems s.stack.length s'.stack.length [] >>= _ : BM ν σ (Option Unit)) s') = _
      rw [bm_bind, popItems_eq, popDownTo_eq]
      simp only [List.append_nil]
      show outcome ((itemNodes _ >>= (fun children => (appendNode A cfg k children (.node r cs) >>= fun _ => pure none)) : BM ν σ (Option Unit)) _) = _
      rw [bm_bind, itemNodes_eq]
      cases nodesOf (List.take (min s'.stack.length (s'.stack.length - s.stack.length)) s'.stack).reverse <;> rfl
    · simp only [if_neg hp]; rfl
  · rw [e1, e2]; rfl

theorem visitQueryM_eq (cs : List PTree) (acc : List (CAct Unit (BState ν σ) Exc))
    (sub : BState ν σ → Except Exc (BState ν σ)) (hs : ∀ s, outcome (superVisit (.node .query cs) acc s) = sub s)
    (s : BState ν σ) : outcome (visitQueryM A cfg (.node .query cs) acc s) = visitQuery A cfg cs sub s := by
  have h1 : ctxGet (.node .query cs) py!"within_part" = .ok (ruleChild .within_part cs) := ctxGet_rule cs rfl
  simp only [visitQueryM, visitQuery, bm_bind, liftB_apply, h1]
  rcases outcome_cases (hs s) with ⟨a, s', e1, e2⟩ | ⟨e, s', e1, e2⟩
  · rw [e1, e2]
    simp only [bind, Except.bind]
    cases ruleChild .within_part cs with
    | none => rfl
    | some w =>
      obtain ⟨h, st⟩ := s'
      simp only [Option.isSome_some, if_true]
      show outcome (((do let within ← popB
                         let query ← popB
                         let children ← itemNodes [query, within]
                         appendNode A cfg .withWithin children (.node .query cs)
                         return none) : BM ν σ (Option Unit)) ⟨h, st⟩) = _
      rcases st with _ | ⟨x, _ | ⟨y, st⟩⟩
      · rfl
      · cases x <;> rfl
      · cases x <;> cases y <;> rfl
  · rw [e1, e2]; rfl

theorem visitRepeatedM_eq (k : Int → Int → Kind) (r : Rule) (hr : r = .query_group ∨ r = .query_simple) (cs : List PTree)
    (acc : List (CAct Unit (BState ν σ) Exc)) (sub : BState ν σ → Except Exc (BState ν σ))
    (hs : ∀ s, outcome (superVisit (.node r cs) acc s) = sub s) (s : BState ν σ) :
    outcome (visitRepeatedM A rt cfg k (.node r cs) acc s) = (do
      let s ← sub s
      let (mn, mx) ← repetitionOf rt cs
      let (content, s) ← popNode s
      .ok (pushNew A (k mn mx) [content] (locOf cfg cs) s)) := by
  simp only [visitRepeatedM, bm_bind, liftB_apply, repetitionM_eq rt r cs hr]
  rcases outcome_cases (hs s) with ⟨a, s', e1, e2⟩ | ⟨e, s', e1, e2⟩
  · rw [e1, e2]
    simp only [bind, Except.bind]
    rcases repetitionOf rt cs with e | ⟨mn, mx⟩
    · rfl
    · obtain ⟨h, st⟩ := s'
      rcases st with _ | ⟨x, st⟩
      · rfl
      · cases x <;> rfl
  · rw [e1, e2]; rfl

theorem popExpressionM_eq (r : Rule) (cs : List PTree) (s : BState ν σ) :
    outcome (popExpressionM A cfg (.node r cs) s) = popExpression A cfg cs s := by
  obtain ⟨h, st⟩ := s
  rcases st with _ | ⟨x1, _ | ⟨x2, _ | ⟨x3, _ | ⟨x4, _ | ⟨x5, st⟩⟩⟩⟩⟩
  · rfl
  · cases x1 <;> rfl
  · cases x1 <;> cases x2 <;> rfl
  · cases x1 <;> cases x2 <;> cases x3 <;> rfl
  · cases x1 <;> cases x2 <;> cases x3 <;> cases x4 <;> rfl
  · cases x1 <;> cases x2 <;> cases x3 <;> cases x4 <;> cases x5 <;> rfl

theorem visitQueryImplicitM_eq (cs : List PTree) (acc : List (CAct Unit (BState ν σ) Exc))
    (sub : BState ν σ → Except Exc (BState ν σ)) (hs : ∀ s, outcome (superVisit (.node .query_implicit cs) acc s) = sub s)
    (s : BState ν σ) : outcome (visitQueryImplicitM A cfg (.node .query_implicit cs) acc s) = visitQueryImplicit A cfg cs sub s := by
  simp only [visitQueryImplicitM, visitQueryImplicit, bm_bind, pushB, push]
  rcases outcome_cases (hs { heap := s.heap, stack := .str [] :: .str cfg.defaultIdentifier :: .op cfg.defaultOperator :: s.stack })
    with ⟨a, s', e1, e2⟩ | ⟨e, s', e1, e2⟩
  · rw [e1, e2]
    exact popExpressionM_eq _ cs s'
  · rw [e1, e2]; rfl

theorem visitQuerySegmentM_eq (cs : List PTree) (acc : List (CAct Unit (BState ν σ) Exc))
    (sub : BState ν σ → Except Exc (BState ν σ)) (hs : ∀ s, outcome (superVisit (.node .query_segment cs) acc s) = sub s)
    (s : BState ν σ) : outcome (visitQuerySegmentM A cfg (.node .query_segment cs) acc s) = visitQuerySegment A cfg cs sub s := by
  unfold visitQuerySegmentM visitQuerySegment
  by_cases h : cs.length = 2
  · rw [if_pos (show (ctxChildren (.node .query_segment cs)).length = 2 from h), if_pos h]; rfl
  · rw [if_neg (show ¬ (ctxChildren (.node .query_segment cs)).length = 2 from h), if_neg h, bm_bind, ← hs s]
    rcases superVisit (.node .query_segment cs) acc s with ⟨_ | _, s'⟩ <;> rfl

theorem visitExpressionBasicM_eq (cs : List PTree) (acc : List (CAct Unit (BState ν σ) Exc))
    (sub : BState ν σ → Except Exc (BState ν σ)) (hs : ∀ s, outcome (superVisit (.node .expression_basic cs) acc s) = sub s)
    (s : BState ν σ) :
    outcome (visitExpressionBasicM A cfg (.node .expression_basic cs) acc s) = visitExpressionBasic A cfg cs sub s := by
  obtain ⟨o1, e1, i1⟩ := ctxGet_tok (r := .expression_basic) (t := .OPERATOR_EQ) (name := py!"OPERATOR_EQ") cs rfl
  obtain ⟨o2, e2, i2⟩ := ctxGet_tok (r := .expression_basic) (t := .OPERATOR_NE) (name := py!"OPERATOR_NE") cs rfl
  simp only [visitExpressionBasicM, visitExpressionBasic, ← i1, ← i2, e1, e2, bm_bind, liftB_apply]
  have key : ∀ o : Operator, outcome ((do let _ ← superVisit (.node .expression_basic cs) acc
                                          popExpressionM A cfg (.node .expression_basic cs) : BM ν σ (Option Unit))
        { s with stack := .op o :: s.stack }) = (sub (push (.op o) s) >>= fun s => popExpression A cfg cs s) := by
    intro o
    rw [bm_bind]
    rcases outcome_cases (hs { s with stack := .op o :: s.stack }) with ⟨a, s', e1, e2⟩ | ⟨e, s', e1, e2⟩
    · rw [e1]
      show _ = (sub { s with stack := .op o :: s.stack } >>= fun s => popExpression A cfg cs s)
      rw [e2]
      exact popExpressionM_eq _ cs s'
    · rw [e1]
      show _ = (sub { s with stack := .op o :: s.stack } >>= fun s => popExpression A cfg cs s)
      rw [e2]; rfl
  cases o1
  · cases o2
    · rfl
    · exact key .NOT_EQUALS
  · exact key .EQUALS

theorem visitUnaryM_eq (k : Kind) (r : Rule) (cs : List PTree) (acc : List (CAct Unit (BState ν σ) Exc))
    (sub : BState ν σ → Except Exc (BState ν σ)) (hs : ∀ s, outcome (superVisit (.node r cs) acc s) = sub s)
    (s : BState ν σ) : outcome (visitUnaryM A cfg k (.node r cs) acc s) = visitUnary A cfg k cs sub s := by
  simp only [visitUnaryM, visitUnary, bm_bind]
  rcases outcome_cases (hs s) with ⟨a, s', e1, e2⟩ | ⟨e, s', e1, e2⟩
  · rw [e1, e2]
    obtain ⟨h, st⟩ := s'
    rcases st with _ | ⟨x, st⟩
    · rfl
    · cases x <;> rfl
  · rw [e1, e2]; rfl

theorem visitAttributeM_eq (cs : List PTree) (s : BState ν σ) :
    outcome (visitAttributeM (.node .attribute_ cs) s) = visitAttribute cs s := by
  have h1 : ctxGet (.node .attribute_ cs) py!"qualifier" = .ok (ruleChild .qualifier cs) := ctxGet_rule cs rfl
  have h2 : ctxGet (.node .attribute_ cs) py!"identifier" = .ok (ruleChild .identifier cs) := ctxGet_rule cs rfl
  simp only [visitAttributeM, visitAttribute, bm_bind, liftB_apply, h1, h2]
  cases ruleChild .identifier cs <;> cases ruleChild .qualifier cs <;> rfl

theorem visitRegexpM_eq (cs : List PTree) (s : BState ν σ) :
    outcome (visitRegexpM rt cfg (.node .regexp cs) s) = visitRegexp rt cfg cs s := by
  have h1 : ctxGet (.node .regexp cs) py!"regexp_pattern" = .ok (ruleChild .regexp_pattern cs) := ctxGet_rule cs rfl
  have h2 : ctxGet (.node .regexp cs) py!"regexp_flag" = .ok (ruleChild .regexp_flag cs) := ctxGet_rule cs rfl
  simp only [visitRegexpM, visitRegexp, bm_bind, liftB_apply, h1]
  cases ruleChild .regexp_pattern cs with
  | none => rfl
  | some p =>
    simp only [bm_bind, liftB_apply, pushB, h2]
    rcases regexValue rt cfg p.getText with e | v
    · rfl
    · simp only [bind, Except.bind]
      cases ruleChild .regexp_flag cs with
      | none => rfl
      | some f =>
        simp only
        show outcome ((liftB (regexFlags f.getText) >>= _ : BM ν σ (Option Unit)) _) = _
        rw [bm_bind, liftB_apply]
        rcases regexFlags f.getText with e | v <;> rfl

theorem visitWithinPartSimpleM_eq (r : Rule) (cs : List PTree) (s : BState ν σ) :
    outcome (visitWithinPartSimpleM A cfg (.node r cs) s) = visitWithinPartSimple A cfg cs s := by
  cases cs with
  | nil => rfl
  | cons c cs =>
    simp only [visitWithinPartSimpleM, visitWithinPartSimple, ctxChildren, List.head?_cons, bm_bind, liftB_apply]
    rcases scopeOf c.getText with e | v <;> rfl

theorem treeBuilder_rule (r : Rule) (cs : List PTree) (acc : List (CAct Unit (BState ν σ) Exc))
    (sub : BState ν σ → Except Exc (BState ν σ)) (hs : ∀ s, outcome (superVisit (.node r cs) acc s) = sub s) :
    ∃ m, (treeBuilder A rt cfg).method (ctxClass r).accept = some m ∧
      ∀ s, outcome (m (.node r cs) acc s) = visitRule A rt cfg r cs sub s := by
  cases r
  case query => exact ⟨_, rfl, visitQueryM_eq cs acc sub hs⟩
  case main_query =>
    refine ⟨_, rfl, fun s => ?_⟩
    show outcome ((superVisit (.node .main_query cs) acc >>= fun _ => pure none : BM ν σ (Option Unit)) s) = sub s
    rw [bm_bind, ← hs s]
    rcases superVisit (.node .main_query cs) acc s with ⟨_ | _, s'⟩ <;> rfl
  case query_disjunction => exact ⟨_, rfl, collectM_eq _ _ _ cs acc sub hs⟩
  case query_sequence => exact ⟨_, rfl, collectM_eq _ _ _ cs acc sub hs⟩
  case query_group => exact ⟨_, rfl, visitRepeatedM_eq _ _ (.inl rfl) cs acc sub hs⟩
  case query_simple => exact ⟨_, rfl, visitRepeatedM_eq _ _ (.inr rfl) cs acc sub hs⟩
  case query_implicit => exact ⟨_, rfl, visitQueryImplicitM_eq cs acc sub hs⟩
  case query_segment => exact ⟨_, rfl, visitQuerySegmentM_eq cs acc sub hs⟩
  case expression_or => exact ⟨_, rfl, collectM_eq _ _ _ cs acc sub hs⟩
  case expression_and => exact ⟨_, rfl, collectM_eq _ _ _ cs acc sub hs⟩
  case expression_group => exact ⟨_, rfl, visitUnaryM_eq _ _ cs acc sub hs⟩
  case expression_not => exact ⟨_, rfl, visitUnaryM_eq _ _ cs acc sub hs⟩
  case expression_basic => exact ⟨_, rfl, visitExpressionBasicM_eq cs acc sub hs⟩
  case attribute_ => exact ⟨_, rfl, visitAttributeM_eq cs⟩
  case regexp => exact ⟨_, rfl, visitRegexpM_eq cs⟩
  case within_part_simple => exact ⟨_, rfl, visitWithinPartSimpleM_eq _ cs⟩
  all_goals exact ⟨_, rfl, hs⟩

theorem treeBuilder_visit (A : Alloc ν σ) (rt : PyRuntime) (cfg : Config) (t : PTree) :
    ∀ s, outcome (acceptCtx ctxClass (treeBuilder A rt cfg) t s) = visit A rt cfg t s := by
  apply PTree.rec (motive_1 := fun t => ∀ s, outcome (acceptCtx ctxClass (treeBuilder A rt cfg) t s) = visit A rt cfg t s)
    (motive_2 := fun ts => ∀ (ctx : PTree) (o : Option Unit) (s : BState ν σ),
      outcome (CtxVisitor.loop ({ method := fun _ => none } : CtxVisitor Unit (BState ν σ) Exc) ctx o
        (acceptCtxs ctxClass (treeBuilder A rt cfg) ts) s) = visitChildren A rt cfg ts s)
  · intro x s
    rw [acceptCtx, visit]; rfl
  · intro r cs ih s
    obtain ⟨m, hm, h⟩ := treeBuilder_rule (A := A) (rt := rt) (cfg := cfg) r cs
      (acceptCtxs ctxClass (treeBuilder A rt cfg) cs) (fun s => visitChildren A rt cfg cs s)
      (fun s => ih (.node r cs) none s)
    rw [acceptCtx, hm, visit]
    exact h s
  · intro ctx o s
    rw [acceptCtxs, visitChildren]; rfl
  · intro c cs ih1 ih2 ctx o s
    rw [acceptCtxs, visitChildren]
    simp only [CtxVisitor.loop, if_true]
    rcases outcome_cases (ih1 s) with ⟨a, s', e1, e2⟩ | ⟨e, s', e1, e2⟩
    · rw [e1, e2]
      exact ih2 ctx _ s'
    · rw [e1, e2]; rfl

end
end Fcsql
