/-
The tree builder on the parse trees of concrete syntax trees: its stack discipline is eliminated, what
remains is a compositional computation (`mean`).
-/
import Verif.Spec.Cst

set_option autoImplicit false
set_option linter.unusedSimpArgs false

namespace Fcsql

variable {ν σ : Type}

/-- Value and flags of a `regexp`. -/
def regexpMean (rt : PyRuntime) (cfg : Config) (r : CRegexp) : Except Exc (PyStr × FlagSet) :=
  match regexValue rt cfg r.pat.text with
  | .error e => .error e
  | .ok v =>
    match r.flags with
    | none => .ok (v, FlagSet.empty)
    | some (_, f) =>
      match regexFlags f.text with
      | .error e => .error e
      | .ok fl => .ok (v, fl)

/-- Bounds of an optional quantifier. -/
def quantMean (rt : PyRuntime) : Option CQuant → Except Exc (Int × Int)
  | none => .ok (1, 1)
  | some q => processRepetition rt q.forest

/-- The qualifier text of an attribute, empty if there is none. -/
def CAttr.qualText (a : CAttr) : PyStr :=
  match a.qual with
  | some (q, _) => q.text
  | none => []

/-- The operator of a token. -/
def opOf (t : Tok) : Operator := if t.type = .OPERATOR_EQ then .EQUALS else .NOT_EQUALS

mutual
/-- Node of an expression. -/
def CExpr.mean (A : Alloc ν σ) (rt : PyRuntime) (cfg : Config) : CExpr → σ → Except Exc (ν × σ)
  | .basic a op r, h =>
    match regexpMean rt cfg r with
    | .error e => .error e
    | .ok (v, fl) =>
      .ok (A.new (mkExpressionKind (some a.qualText) a.ident.text (opOf op) v (some fl)) []
        (locOf cfg [a.toTree, .leaf op, r.toTree]) h)
  | .group lp e rp, h =>
    match e.mean A rt cfg h with
    | .error e => .error e
    | .ok (n, h) => .ok (A.new .group [n] (locOf cfg [.leaf lp, e.toTree, .leaf rp]) h)
  | .or f rest, h =>
    match f.mean A rt cfg h with
    | .error e => .error e
    | .ok (n, h) =>
      match rest.mean A rt cfg h with
      | .error e => .error e
      | .ok (ns, h) => .ok (A.new .or (n :: ns) (locOf cfg (f.toTree :: rest.forest)) h)
  | .and f rest, h =>
    match f.mean A rt cfg h with
    | .error e => .error e
    | .ok (n, h) =>
      match rest.mean A rt cfg h with
      | .error e => .error e
      | .ok (ns, h) => .ok (A.new .and (n :: ns) (locOf cfg (f.toTree :: rest.forest)) h)
  | .not b e, h =>
    match e.mean A rt cfg h with
    | .error e => .error e
    | .ok (n, h) => .ok (A.new .not [n] (locOf cfg [.leaf b, e.toTree]) h)
/-- Nodes of the operands after the first one. -/
def CTail.mean (A : Alloc ν σ) (rt : PyRuntime) (cfg : Config) : CTail → σ → Except Exc (List ν × σ)
  | .nil, h => .ok ([], h)
  | .cons _ e rest, h =>
    match e.mean A rt cfg h with
    | .error e => .error e
    | .ok (n, h) =>
      match rest.mean A rt cfg h with
      | .error e => .error e
      | .ok (ns, h) => .ok (n :: ns, h)
end

/-- Node of the bracket part of a segment. -/
def segMean (A : Alloc ν σ) (rt : PyRuntime) (cfg : Config) (lb rb : Tok) :
    Option CExpr → σ → Except Exc (ν × σ)
  | none, h => .ok (A.new .wildcard [] (locOf cfg [.leaf lb, .leaf rb]) h)
  | some e, h => e.mean A rt cfg h

mutual
/-- Node of a query. -/
def CQ.mean (A : Alloc ν σ) (rt : PyRuntime) (cfg : Config) : CQ → σ → Except Exc (ν × σ)
  | .implicit r q, h =>
    match regexpMean rt cfg r with
    | .error e => .error e
    | .ok (v, fl) =>
      let (n, h) := A.new (mkExpressionKind (some []) cfg.defaultIdentifier cfg.defaultOperator v
        (some fl)) [] (locOf cfg [r.toTree]) h
      match quantMean rt q with
      | .error e => .error e
      | .ok (mn, mx) =>
        .ok (A.new (.segment mn mx) [n]
          (locOf cfg (.node .query_implicit [r.toTree] :: optQuant q)) h)
  | .segment lb e rb q, h =>
    match segMean A rt cfg lb rb e h with
    | .error e => .error e
    | .ok (n, h) =>
      match quantMean rt q with
      | .error e => .error e
      | .ok (mn, mx) =>
        .ok (A.new (.segment mn mx) [n]
          (locOf cfg (.node .query_segment (.leaf lb :: (optExpr e ++ [.leaf rb])) :: optQuant q)) h)
  | .group lp c rp q, h =>
    match c.mean A rt cfg h with
    | .error e => .error e
    | .ok (n, h) =>
      match quantMean rt q with
      | .error e => .error e
      | .ok (mn, mx) =>
        .ok (A.new (.qgroup mn mx) [n] (locOf cfg (.leaf lp :: c.toTree :: .leaf rp :: optQuant q)) h)
  | .seq f rest, h =>
    match f.mean A rt cfg h with
    | .error e => .error e
    | .ok (n, h) =>
      match rest.mean A rt cfg h with
      | .error e => .error e
      | .ok (ns, h) => .ok (A.new .sequence (n :: ns) (locOf cfg (f.toTree :: rest.forest)) h)
  | .disj f rest, h =>
    match f.mean A rt cfg h with
    | .error e => .error e
    | .ok (n, h) =>
      match rest.mean A rt cfg h with
      | .error e => .error e
      | .ok (ns, h) => .ok (A.new .disjunction (n :: ns) (locOf cfg (f.toTree :: rest.forest)) h)
/-- Nodes of the items after the first one. -/
def CQTail.mean (A : Alloc ν σ) (rt : PyRuntime) (cfg : Config) : CQTail → σ → Except Exc (List ν × σ)
  | .nil, h => .ok ([], h)
  | .cons _ q rest, h =>
    match q.mean A rt cfg h with
    | .error e => .error e
    | .ok (n, h) =>
      match rest.mean A rt cfg h with
      | .error e => .error e
      | .ok (ns, h) => .ok (n :: ns, h)
end

/-- Node of a whole query. -/
def CQuery.mean (A : Alloc ν σ) (rt : PyRuntime) (cfg : Config) (q : CQuery) (h : σ) :
    Except Exc (ν × σ) :=
  match q.main.mean A rt cfg h with
  | .error e => .error e
  | .ok (n, h) =>
    match q.within with
    | none => .ok (n, h)
    | some (w, s) =>
      match scopeOf s.text with
      | .error e => .error e
      | .ok sc =>
        let (m, h) := A.new (.within sc) [] (locOf cfg [.leaf s]) h
        .ok (A.new .withWithin [n, m]
          (locOf cfg (.node .main_query [q.main.toTree] :: (optWithin (some (w, s)) ++ [.leaf q.eof]))) h)

/-- The state after pushing the result of a computation. -/
def pushedR (s : BState ν σ) : Except Exc (ν × σ) → Except Exc (BState ν σ)
  | .error e => .error e
  | .ok (n, h) => .ok { heap := h, stack := .node n :: s.stack }

/-- The state after pushing the results of a computation (the last one on top). -/
def pushedL (s : BState ν σ) : Except Exc (List ν × σ) → Except Exc (BState ν σ)
  | .error e => .error e
  | .ok (ns, h) => .ok { heap := h, stack := (ns.map Item.node).reverse ++ s.stack }

theorem popDownTo_nodes (pos : Nat) (base : List (Item ν)) (hb : base.length = pos) (h : σ) :
    ∀ (fuel : Nat) (ns items : List ν), ns.length ≤ fuel →
      popDownTo pos fuel items { heap := h, stack := ns.map Item.node ++ base }
        = .ok (ns.reverse ++ items, { heap := h, stack := base })
  | 0, [], items, _ => by simp [popDownTo]
  | fuel + 1, [], items, _ => by simp [popDownTo, hb]
  | fuel + 1, n :: ns, items, hl => by
    have hl' : ns.length ≤ fuel := by simpa using hl
    have hpos : ¬ (ns.length + base.length + 1 ≤ pos) := by omega
    have := popDownTo_nodes pos base hb h fuel ns (n :: items) hl'
    simp [popDownTo, popNode, pop, Bind.bind, Except.bind, this]
    omega

section
variable (A : Alloc ν σ) (rt : PyRuntime) (cfg : Config)

theorem getText_leaf (t : Tok) : (PTree.leaf t).getText = t.text := by
  simp [PTree.getText, PTree.leaves]

theorem getText_node_leaf (r : Rule) (t : Tok) : (PTree.node r [.leaf t]).getText = t.text := by
  simp [PTree.getText, PTree.leaves, PTree.leavesL]

theorem visit_regexp (r : CRegexp) (s : BState ν σ) :
    visit A rt cfg r.toTree s =
      match regexpMean rt cfg r with
      | .error e => .error e
      | .ok (v, fl) => .ok (push (.flags fl) (push (.str v) s)) := by
  obtain ⟨pat, fl⟩ := r
  rcases fl with _ | ⟨sl, f⟩
  · simp [CRegexp.toTree, visit, visitRule, visitRegexp, ruleChild, PTree.isRule, getText_node_leaf,
      regexpMean, Bind.bind, Except.bind]
    cases regexValue rt cfg pat.text <;> rfl
  · simp [CRegexp.toTree, visit, visitRule, visitRegexp, ruleChild, PTree.isRule, getText_node_leaf,
      regexpMean, Bind.bind, Except.bind]
    cases regexValue rt cfg pat.text with
    | error e => rfl
    | ok v => cases h : regexFlags f.text <;> simp

theorem visit_attr (a : CAttr) (s : BState ν σ) :
    visit A rt cfg a.toTree s = .ok (push (.str a.qualText) (push (.str a.ident.text) s)) := by
  obtain ⟨ql, i⟩ := a
  rcases ql with _ | ⟨q, c⟩ <;>
    simp [CAttr.toTree, visit, visitRule, visitAttribute, ruleChild, PTree.isRule, getText_node_leaf,
      CAttr.qualText]

theorem popExpression_eq (cs : List PTree) (h : σ) (fl : FlagSet) (v q i : PyStr) (o : Operator)
    (st : List (Item ν)) :
    popExpression A cfg cs { heap := h, stack := .flags fl :: .str v :: .str q :: .str i :: .op o :: st }
      = .ok (pushNew A (mkExpressionKind (some q) i o v (some fl)) [] (locOf cfg cs)
          { heap := h, stack := st }) := by
  simp [popExpression, popFlags, popStr, popOp, pop, Bind.bind, Except.bind]

theorem visit_quant (q : CQuant) (s : BState ν σ) :
    visit A rt cfg (.node .quantifier q.forest) s = .ok s := by
  rcases q with t | ⟨lb, n, rb⟩ | ⟨lb, n, c, m, rb⟩
  · simp [visit, visitRule, CQuant.forest, visitChildren, Bind.bind, Except.bind]
  · simp [visit, visitRule, CQuant.forest, visitChildren, Bind.bind, Except.bind]
  · cases n <;> cases m <;>
      simp [visit, visitRule, CQuant.forest, visitChildren, Bind.bind, Except.bind, optLeaf]

theorem visitChildren_optQuant (q : Option CQuant) (s : BState ν σ) :
    visitChildren A rt cfg (optQuant q) s = .ok s := by
  cases q <;> simp [optQuant, visitChildren, visit_quant, Bind.bind, Except.bind]

/-- Allocate a node with the computed children. -/
def newR (k : Kind) (loc : Option Loc) : Except Exc (List ν × σ) → Except Exc (ν × σ)
  | .error e => .error e
  | .ok (ns, h) => .ok (A.new k ns loc h)

theorem collect_eq (k : Kind) (msg : PyStr) (cs : List PTree)
    (sub : BState ν σ → Except Exc (BState ν σ)) (s : BState ν σ) (r : Except Exc (List ν × σ))
    (hsub : sub s = pushedL s r) (hne : ∀ ns h, r = .ok (ns, h) → ns ≠ []) :
    collect A cfg k msg cs sub s =
      pushedR s (newR A k (locOf cfg cs) r) := by
  rcases r with e | ⟨ns, h⟩
  · simp [collect, hsub, pushedL, pushedR, newR, Bind.bind, Except.bind]
  · have hn := hne ns h rfl
    have hl : 0 < ns.length := List.length_pos_iff.2 hn
    have := popDownTo_nodes s.stack.length s.stack rfl h (ns.length + s.stack.length) ns.reverse []
      (by simp)
    simp only [List.map_reverse, List.reverse_reverse, List.append_nil] at this
    simp [collect, hsub, pushedL, pushedR, newR, Bind.bind, Except.bind, hl, this, pushNew]

mutual
theorem visit_expr : ∀ (e : CExpr), e.WF → ∀ s : BState ν σ,
    visit A rt cfg e.toTree s = pushedR s (e.mean A rt cfg s.heap)
  | .basic a op r, hwf, s => by
    simp only [CExpr.WF] at hwf
    obtain ⟨-, hop, -⟩ := hwf
    have h1 : hasTokChild .OPERATOR_EQ [a.toTree, .leaf op, r.toTree] = decide (op.type = .OPERATOR_EQ) := by
      simp [hasTokChild, PTree.isTok, CAttr.toTree, CRegexp.toTree]
    have h2 : hasTokChild .OPERATOR_NE [a.toTree, .leaf op, r.toTree] = decide (op.type = .OPERATOR_NE) := by
      simp [hasTokChild, PTree.isTok, CAttr.toTree, CRegexp.toTree]
    rcases hop with hop | hop
    · simp only [CExpr.toTree, visit, visitRule, visitExpressionBasic, h1, h2,
        hop, Bind.bind, Except.bind, visitChildren, visit_attr, visit_regexp,
        CExpr.mean, opOf]
      rcases regexpMean rt cfg r with e | ⟨v, fl⟩
      · simp [pushedR]
      · simp [push, popExpression_eq, pushedR, pushNew]
    · simp only [CExpr.toTree, visit, visitRule, visitExpressionBasic, h1, h2,
        hop, Bind.bind, Except.bind, visitChildren, visit_attr, visit_regexp,
        CExpr.mean, opOf]
      rcases regexpMean rt cfg r with e | ⟨v, fl⟩
      · simp [pushedR]
      · simp [push, popExpression_eq, pushedR, pushNew]
  | .group lp e rp, hwf, s => by
    simp only [CExpr.WF] at hwf
    have ih := visit_expr e hwf.2.1 s
    simp only [CExpr.toTree, visit, visitRule, visitUnary, visitChildren, Bind.bind, Except.bind, ih,
      CExpr.mean]
    rcases e.mean A rt cfg s.heap with e | ⟨n, h⟩ <;> simp [pushedR, popNode, pop, pushNew, Bind.bind, Except.bind]
  | .or f rest, hwf, s => by
    simp only [CExpr.WF] at hwf
    have ih := visit_expr f hwf.1 s
    have ihr := visit_tail rest .OR .expression_or hwf.2.2.2
    simp only [CExpr.toTree, visit, visitRule]
    rw [collect_eq A cfg _ _ _ _ s
      (match f.mean A rt cfg s.heap with
        | .error e => .error e
        | .ok (n, h) => match rest.mean A rt cfg h with
          | .error e => .error e
          | .ok (ns, h) => .ok (n :: ns, h))]
    · simp only [CExpr.mean]
      rcases f.mean A rt cfg s.heap with e | ⟨n, h⟩
      · rfl
      · rcases hm : rest.mean A rt cfg h with e | ⟨ns, h'⟩ <;> simp [newR, hm]
    · simp only [visitChildren, Bind.bind, Except.bind, ih]
      rcases f.mean A rt cfg s.heap with e | ⟨n, h⟩
      · simp [pushedR, pushedL]
      · simp only [pushedR, ihr]
        rcases rest.mean A rt cfg h with e | ⟨ns, h'⟩ <;> simp [pushedL]
    · intro ns h
      rcases f.mean A rt cfg s.heap with e | ⟨n, h'⟩
      · simp
      · rcases hm : rest.mean A rt cfg h' with e | ⟨ns', h''⟩ <;> simp [hm] <;> intros <;> subst_vars <;> simp
  | .and f rest, hwf, s => by
    simp only [CExpr.WF] at hwf
    have ih := visit_expr f hwf.1 s
    have ihr := visit_tail rest .AND .expression_and hwf.2.2.2.2
    simp only [CExpr.toTree, visit, visitRule]
    rw [collect_eq A cfg _ _ _ _ s
      (match f.mean A rt cfg s.heap with
        | .error e => .error e
        | .ok (n, h) => match rest.mean A rt cfg h with
          | .error e => .error e
          | .ok (ns, h) => .ok (n :: ns, h))]
    · simp only [CExpr.mean]
      rcases f.mean A rt cfg s.heap with e | ⟨n, h⟩
      · rfl
      · rcases hm : rest.mean A rt cfg h with e | ⟨ns, h'⟩ <;> simp [newR, hm]
    · simp only [visitChildren, Bind.bind, Except.bind, ih]
      rcases f.mean A rt cfg s.heap with e | ⟨n, h⟩
      · simp [pushedR, pushedL]
      · simp only [pushedR, ihr]
        rcases rest.mean A rt cfg h with e | ⟨ns, h'⟩ <;> simp [pushedL]
    · intro ns h
      rcases f.mean A rt cfg s.heap with e | ⟨n, h'⟩
      · simp
      · rcases hm : rest.mean A rt cfg h' with e | ⟨ns', h''⟩ <;> simp [hm] <;> intros <;> subst_vars <;> simp
  | .not b e, hwf, s => by
    simp only [CExpr.WF] at hwf
    have ih := visit_expr e hwf.2 s
    simp only [CExpr.toTree, visit, visitRule, visitUnary, visitChildren, Bind.bind, Except.bind, ih,
      CExpr.mean]
    rcases e.mean A rt cfg s.heap with e | ⟨n, h⟩ <;> simp [pushedR, popNode, pop, pushNew, Bind.bind, Except.bind]
theorem visit_tail : ∀ (t : CTail) (op : TokType) (no : Rule), t.WF op no → ∀ s : BState ν σ,
    visitChildren A rt cfg t.forest s = pushedL s (t.mean A rt cfg s.heap)
  | .nil, _, _, _, s => by simp [CTail.forest, visitChildren, CTail.mean, pushedL]
  | .cons o e rest, op, no, hwf, s => by
    simp only [CTail.WF] at hwf
    have ih := visit_expr e hwf.2.1 s
    have ihr := visit_tail rest op no hwf.2.2.2
    simp only [CTail.forest, visitChildren, visit, Bind.bind, Except.bind, ih, CTail.mean]
    rcases e.mean A rt cfg s.heap with e | ⟨n, h⟩
    · simp [pushedR, pushedL]
    · simp only [pushedR, ihr]
      rcases rest.mean A rt cfg h with e | ⟨ns, h'⟩ <;> simp [pushedL]
end

theorem ruleChild_optQuant_none {f : List PTree} (hf : ∀ t ∈ f, t.isRule .quantifier = false) :
    repetitionOf rt (f ++ optQuant none) = .ok (1, 1) := by
  have : ruleChild .quantifier (f ++ optQuant none) = none := by
    simp [ruleChild, optQuant]; intro x hx; exact hf x hx
  simp [repetitionOf, this]

theorem repetitionOf_eq {f : List PTree} (hf : ∀ t ∈ f, t.isRule .quantifier = false) (q : Option CQuant) :
    repetitionOf rt (f ++ optQuant q) = quantMean rt q := by
  cases q with
  | none => exact ruleChild_optQuant_none rt hf
  | some q =>
    have : f.find? (PTree.isRule .quantifier) = none := by simpa using hf
    simp [repetitionOf, ruleChild, optQuant, List.find?_append, this, PTree.isRule, quantMean]

theorem repetitionOf_simple (r : Rule) (hr : r ≠ .quantifier) (cs : List PTree) (q : Option CQuant) :
    repetitionOf rt (.node r cs :: optQuant q) = quantMean rt q :=
  repetitionOf_eq rt (f := [.node r cs]) (by simp [PTree.isRule, hr]) q

theorem CQ.toTree_eq (c : CQ) : ∃ cs, c.toTree = .node c.rule cs := by
  cases c <;> exact ⟨_, rfl⟩

theorem CQ.rule_ne (c : CQ) : c.rule ≠ .quantifier := by cases c <;> simp [CQ.rule]

theorem repetitionOf_group (lp : Tok) (c : CQ) (rp : Tok) (q : Option CQuant) :
    repetitionOf rt (.leaf lp :: c.toTree :: .leaf rp :: optQuant q) = quantMean rt q := by
  obtain ⟨cs, hc⟩ := c.toTree_eq
  refine repetitionOf_eq rt (f := [.leaf lp, c.toTree, .leaf rp]) ?_ q
  have := c.rule_ne
  simp [hc, PTree.isRule, this]

theorem visit_segment (lb rb : Tok) (e : Option CExpr) (he : ∀ x, e = some x → x.WF) (s : BState ν σ) :
    visit A rt cfg (.node .query_segment (.leaf lb :: (optExpr e ++ [.leaf rb]))) s
      = pushedR s (segMean A rt cfg lb rb e s.heap) := by
  cases e with
  | none => simp [visit, visitRule, visitQuerySegment, optExpr, segMean, pushedR, pushNew]
  | some e =>
    simp only [visit, visitRule, visitQuerySegment, optExpr, segMean, visitChildren, Bind.bind, Except.bind,
      visit_expr A rt cfg e (he e rfl), List.cons_append, List.nil_append]
    rcases e.mean A rt cfg s.heap with e | ⟨n, h⟩ <;> simp [pushedR]

mutual
theorem visit_q : ∀ (c : CQ), c.WF → ∀ s : BState ν σ,
    visit A rt cfg c.toTree s = pushedR s (c.mean A rt cfg s.heap)
  | .implicit r q, hwf, s => by
    have hrep := repetitionOf_simple rt .query_implicit (by simp) [r.toTree] q
    simp only [CQ.toTree, visit, visitRule, visitQuerySimple, visitChildren, Bind.bind, Except.bind,
      visitQueryImplicit, visit_regexp, hrep, CQ.mean]
    rcases regexpMean rt cfg r with e | ⟨v, fl⟩
    · simp [pushedR]
    · simp only [push, popExpression_eq, visitChildren_optQuant]
      rcases quantMean rt q with e | ⟨mn, mx⟩ <;> simp [pushedR, popNode, pop, pushNew, Bind.bind, Except.bind]
  | .segment lb e rb q, hwf, s => by
    simp only [CQ.WF] at hwf
    have hrep := repetitionOf_simple rt .query_segment (by simp) (.leaf lb :: (optExpr e ++ [.leaf rb])) q
    have hseg := visit_segment A rt cfg lb rb e hwf.2.1 s
    rw [CQ.toTree, visit]
    simp only [visitRule, visitQuerySimple, Bind.bind, Except.bind, visitChildren,
      hseg, hrep, CQ.mean]
    rcases segMean A rt cfg lb rb e s.heap with e | ⟨n, h⟩
    · simp [pushedR]
    · simp only [pushedR, visitChildren_optQuant]
      rcases quantMean rt q with e | ⟨mn, mx⟩ <;> simp [pushedR, popNode, pop, pushNew, Bind.bind, Except.bind]
  | .group lp c rp q, hwf, s => by
    simp only [CQ.WF] at hwf
    have hrep := repetitionOf_group rt lp c rp q
    have ih := visit_q c hwf.2.1 s
    rw [CQ.toTree, visit]
    simp only [visitRule, visitQueryGroup, Bind.bind, Except.bind, visitChildren,
      ih, hrep, CQ.mean, visit]
    rcases c.mean A rt cfg s.heap with e | ⟨n, h⟩
    · simp [pushedR]
    · simp only [pushedR, visitChildren_optQuant]
      rcases quantMean rt q with e | ⟨mn, mx⟩ <;> simp [pushedR, popNode, pop, pushNew, Bind.bind, Except.bind]
  | .seq f rest, hwf, s => by
    simp only [CQ.WF] at hwf
    have ih := visit_q f hwf.1 s
    have ihr := visit_qtail rest (.inl hwf.2.2)
    simp only [CQ.toTree, visit, visitRule]
    rw [collect_eq A cfg _ _ _ _ s
      (match f.mean A rt cfg s.heap with
        | .error e => .error e
        | .ok (n, h) => match rest.mean A rt cfg h with
          | .error e => .error e
          | .ok (ns, h) => .ok (n :: ns, h))]
    · simp only [CQ.mean]
      rcases f.mean A rt cfg s.heap with e | ⟨n, h⟩
      · rfl
      · rcases hm : rest.mean A rt cfg h with e | ⟨ns, h'⟩ <;> simp [newR, hm]
    · simp only [visitChildren, Bind.bind, Except.bind, ih]
      rcases f.mean A rt cfg s.heap with e | ⟨n, h⟩
      · simp [pushedR, pushedL]
      · simp only [pushedR, ihr]
        rcases rest.mean A rt cfg h with e | ⟨ns, h'⟩ <;> simp [pushedL]
    · intro ns h
      rcases f.mean A rt cfg s.heap with e | ⟨n, h'⟩
      · simp
      · rcases hm : rest.mean A rt cfg h' with e | ⟨ns', h''⟩ <;> simp [hm] <;> intros <;> subst_vars <;> simp
  | .disj f rest, hwf, s => by
    simp only [CQ.WF] at hwf
    have ih := visit_q f hwf.1 s
    have ihr := visit_qtail rest (.inr hwf.2.2.2)
    simp only [CQ.toTree, visit, visitRule]
    rw [collect_eq A cfg _ _ _ _ s
      (match f.mean A rt cfg s.heap with
        | .error e => .error e
        | .ok (n, h) => match rest.mean A rt cfg h with
          | .error e => .error e
          | .ok (ns, h) => .ok (n :: ns, h))]
    · simp only [CQ.mean]
      rcases f.mean A rt cfg s.heap with e | ⟨n, h⟩
      · rfl
      · rcases hm : rest.mean A rt cfg h with e | ⟨ns, h'⟩ <;> simp [newR, hm]
    · simp only [visitChildren, Bind.bind, Except.bind, ih]
      rcases f.mean A rt cfg s.heap with e | ⟨n, h⟩
      · simp [pushedR, pushedL]
      · simp only [pushedR, ihr]
        rcases rest.mean A rt cfg h with e | ⟨ns, h'⟩ <;> simp [pushedL]
    · intro ns h
      rcases f.mean A rt cfg s.heap with e | ⟨n, h'⟩
      · simp
      · rcases hm : rest.mean A rt cfg h' with e | ⟨ns', h''⟩ <;> simp [hm] <;> intros <;> subst_vars <;> simp
theorem visit_qtail : ∀ (t : CQTail), t.WFseq ∨ t.WFdisj → ∀ s : BState ν σ,
    visitChildren A rt cfg t.forest s = pushedL s (t.mean A rt cfg s.heap)
  | .nil, _, s => by simp [CQTail.forest, visitChildren, CQTail.mean, pushedL]
  | .cons o e rest, hwf, s => by
    simp only [CQTail.WFseq, CQTail.WFdisj] at hwf
    have ih := visit_q e (hwf.elim (·.2.1) (·.2.1)) s
    have ihr := visit_qtail rest (hwf.imp (·.2.2.2) (·.2.2.2))
    have ho : ∀ f : List PTree, visitChildren A rt cfg (optLeaf o ++ f) s = visitChildren A rt cfg f s := by
      intro f; cases o <;> simp [optLeaf, visitChildren, visit, Bind.bind, Except.bind]
    simp only [CQTail.forest, ho, visitChildren, Bind.bind, Except.bind, ih, CQTail.mean]
    rcases e.mean A rt cfg s.heap with e | ⟨n, h⟩
    · simp [pushedR, pushedL]
    · simp only [pushedR, ihr]
      rcases rest.mean A rt cfg h with e | ⟨ns, h'⟩ <;> simp [pushedL]
end

theorem visit_query (q : CQuery) (hwf : q.WF) (s : BState ν σ) :
    visit A rt cfg q.toTree s = pushedR s (q.mean A rt cfg s.heap) := by
  obtain ⟨main, w, eof⟩ := q
  have ih := visit_q A rt cfg main hwf.1 s
  rw [CQuery.toTree, visit]
  simp only [visitRule, visitQuery, Bind.bind, Except.bind, visitChildren, visit, ih, CQuery.mean]
  rcases main.mean A rt cfg s.heap with e | ⟨n, h⟩
  · simp [pushedR]
  · rcases w with _ | ⟨w, sc⟩
    · simp [pushedR, optWithin, visitChildren, visit, Bind.bind, Except.bind, ruleChild, PTree.isRule]
    · simp only [pushedR, optWithin, List.cons_append, List.nil_append, visitChildren, visit, Bind.bind,
        Except.bind, visitRule, visitWithinPartSimple, getText_leaf, ruleChild, List.find?, PTree.isRule]
      rcases scopeOf sc.text with e | k <;> simp [pushedR, popNode, pop, pushNew, Bind.bind, Except.bind]

/-- The builder computes the meaning of the concrete syntax tree. -/
theorem buildWith_eq (q : CQuery) (hwf : q.WF) (h : σ) :
    buildWith A rt cfg h q.toTree = q.mean A rt cfg h := by
  simp only [buildWith, visit_query A rt cfg q hwf, Bind.bind, Except.bind]
  rcases q.mean A rt cfg h with e | ⟨n, h⟩ <;> simp [pushedR, popNode, pop, Bind.bind, Except.bind]

end

end Fcsql
