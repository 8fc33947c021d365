/-
Specification of the tree a query stands for: each construct's node is made from the nodes of its parts.
-/
import Verif.Spec.Cst
import Verif.Spec.Literal

set_option autoImplicit false

namespace Fcsql

/-- Location of a construct: from its first to its last token; none if locations are not enabled. -/
def Config.span (cfg : Config) (ts : List Tok) : Option Loc :=
  if cfg.enableSourceLocations then
    match ts.head?, ts.getLast? with
    | some a, some b => some ⟨a.start, b.stop + 1⟩
    | _, _ => none
  else none

/-- The bounds a quantifier stands for. -/
def CQuant.Bounds (rt : PyRuntime) : CQuant → Int → Int → Prop
  | .sym t, mn, mx =>
    (t.type = .Q_ZERO_OR_MORE ∧ mn = 0 ∧ mx = -1) ∨ (t.type = .Q_ONE_OR_MORE ∧ mn = 1 ∧ mx = -1) ∨
    (t.type = .Q_ZERO_OR_ONE ∧ mn = 0 ∧ mx = 1)
  | .exactly _ n _, mn, mx => IntText rt n.text mn ∧ mx = mn
  | .range _ none _ none _, _, _ => False
  | .range _ (some n) _ none _, mn, mx => IntText rt n.text mn ∧ mx = -1
  | .range _ none _ (some m) _, mn, mx => mn = 0 ∧ IntText rt m.text mx
  | .range _ (some n) _ (some m) _, mn, mx => IntText rt n.text mn ∧ IntText rt m.text mx ∧ mn ≤ mx

/-- The bounds of an optional quantifier. -/
def optBounds (rt : PyRuntime) : Option CQuant → Int → Int → Prop
  | none, mn, mx => mn = 1 ∧ mx = 1
  | some q, mn, mx => q.Bounds rt mn mx

/-- Value and flags of a `regexp`. -/
def CRegexp.Denotes (rt : PyRuntime) (cfg : Config) (r : CRegexp) (v : PyStr) (fl : Option FlagSet) : Prop :=
  (∃ raw, LitValue r.pat.text raw ∧ v = cfg.norm rt raw) ∧
  match r.flags with
  | none => fl = none
  | some (_, f) => ∃ fs, FlagsNamed f.text fs ∧ fs.Legal ∧ fl = some fs

/-- The operator token. -/
def opSpec (t : Tok) (o : Operator) : Prop :=
  (t.type = .OPERATOR_EQ ∧ o = .EQUALS) ∨ (t.type = .OPERATOR_NE ∧ o = .NOT_EQUALS)

mutual
/-- The node of an expression. -/
def CExpr.Denotes (rt : PyRuntime) (cfg : Config) : CExpr → Node → Prop
  | .basic a op r, n => ∃ o v fl, opSpec op o ∧ r.Denotes rt cfg v fl ∧
      n = .mk (.expression (a.qual.map fun p => p.1.text) a.ident.text o v fl) []
        (cfg.span (CExpr.basic a op r).toTree.leaves)
  | .group lp e rp, n => ∃ m, e.Denotes rt cfg m ∧
      n = .mk .group [m] (cfg.span (CExpr.group lp e rp).toTree.leaves)
  | .or f rest, n => ∃ m ms, f.Denotes rt cfg m ∧ rest.Denotes rt cfg ms ∧
      n = .mk .or (m :: ms) (cfg.span (CExpr.or f rest).toTree.leaves)
  | .and f rest, n => ∃ m ms, f.Denotes rt cfg m ∧ rest.Denotes rt cfg ms ∧
      n = .mk .and (m :: ms) (cfg.span (CExpr.and f rest).toTree.leaves)
  | .not b e, n => ∃ m, e.Denotes rt cfg m ∧
      n = .mk .not [m] (cfg.span (CExpr.not b e).toTree.leaves)
/-- The nodes of the operands after the first one. -/
def CTail.Denotes (rt : PyRuntime) (cfg : Config) : CTail → List Node → Prop
  | .nil, ns => ns = []
  | .cons _ e rest, ns => ∃ m ms, e.Denotes rt cfg m ∧ rest.Denotes rt cfg ms ∧ ns = m :: ms
end

/-- The node of the bracket part of a segment. -/
def optDenotes (rt : PyRuntime) (cfg : Config) (lb rb : Tok) : Option CExpr → Node → Prop
  | none, n => n = .mk .wildcard [] (cfg.span [lb, rb])
  | some e, n => e.Denotes rt cfg n

mutual
/-- The node of a query. -/
def CQ.Denotes (rt : PyRuntime) (cfg : Config) : CQ → Node → Prop
  | .implicit r q, n => ∃ v fl mn mx, r.Denotes rt cfg v fl ∧ optBounds rt q mn mx ∧
      n = .mk (.segment mn mx)
        [.mk (.expression none cfg.defaultIdentifier cfg.defaultOperator v fl) [] (cfg.span r.toTree.leaves)]
        (cfg.span (CQ.implicit r q).toTree.leaves)
  | .segment lb e rb q, n => ∃ m mn mx, optDenotes rt cfg lb rb e m ∧ optBounds rt q mn mx ∧
      n = .mk (.segment mn mx) [m] (cfg.span (CQ.segment lb e rb q).toTree.leaves)
  | .group lp c rp q, n => ∃ m mn mx, c.Denotes rt cfg m ∧ optBounds rt q mn mx ∧
      n = .mk (.qgroup mn mx) [m] (cfg.span (CQ.group lp c rp q).toTree.leaves)
  | .seq f rest, n => ∃ m ms, f.Denotes rt cfg m ∧ rest.Denotes rt cfg ms ∧
      n = .mk .sequence (m :: ms) (cfg.span (CQ.seq f rest).toTree.leaves)
  | .disj f rest, n => ∃ m ms, f.Denotes rt cfg m ∧ rest.Denotes rt cfg ms ∧
      n = .mk .disjunction (m :: ms) (cfg.span (CQ.disj f rest).toTree.leaves)
/-- The nodes of the items after the first one. -/
def CQTail.Denotes (rt : PyRuntime) (cfg : Config) : CQTail → List Node → Prop
  | .nil, ns => ns = []
  | .cons _ c rest, ns => ∃ m ms, c.Denotes rt cfg m ∧ rest.Denotes rt cfg ms ∧ ns = m :: ms
end

/-- The node of a whole query. -/
def CQuery.Denotes (rt : PyRuntime) (cfg : Config) (q : CQuery) (n : Node) : Prop :=
  match q.within with
  | none => q.main.Denotes rt cfg n
  | some (w, s) => ∃ m sc, q.main.Denotes rt cfg m ∧ (s.text, sc) ∈ scopeWords ∧
      n = .mk .withWithin [m, .mk (.within sc) [] (cfg.span [s])] (cfg.span (q.main.toTree.leaves ++ [w, s]))

/-- The messages with which the tree builder can reject a grammatical query. -/
def BuilderMsg (m : PyStr) : Prop := py!"invalid " <+: m ∨ py!"bad qualifier: " <+: m

/-- All tokens of a query tree have texts of their rules. -/
def PTree.Lexed (t : PTree) : Prop := ∀ x ∈ t.leaves, x.Lexed

end Fcsql
