/-
Specification of how a query tree lies over the tokens of its query.
-/
import Verif.Spec.Denote

set_option autoImplicit false

namespace Fcsql

/-- Where the attributes of a node come from, for a node made of the tokens `u`. -/
def KindFrom (rt : PyRuntime) (cfg : Config) (u : List Tok) : Kind → Prop
  | .expression q i o v fl =>
    -- value and flags: a literal, possibly with flags
    ∃ r : CRegexp, r.WF ∧ r.Denotes rt cfg v fl ∧
    -- layer and operator: the defaults, or as written
    ((q = none ∧ i = cfg.defaultIdentifier ∧ o = cfg.defaultOperator ∧ u = r.toTree.leaves) ∨
     ∃ a op, CAttr.WF a ∧ opSpec op o ∧ u = a.toTree.leaves ++ op :: r.toTree.leaves ∧ i = a.ident.text ∧
       q = a.qual.map fun p => p.1.text)
  | .segment mn mx => ∃ oq w, optQuantWF oq ∧ optBounds rt oq mn mx ∧ u = w ++ PTree.leavesL (optQuant oq) ∧
      ∀ t, w.getLast? = some t → t.type = .R_SQUARE_BRACKET ∨ t.type = .REGEXP ∨ t.type = .REGEXP_FLAGS
  | .qgroup mn mx => ∃ oq w, optQuantWF oq ∧ optBounds rt oq mn mx ∧ u = w ++ PTree.leavesL (optQuant oq) ∧
      (∀ t, w.getLast? = some t → t.type = .R_PAREN) ∧ ∃ lp w', w = lp :: w' ∧ lp.type = .L_PAREN
  | .within sc => ∃ s, u = [s] ∧ s.type = .SIMPLE_WITHIN_SCOPE ∧ (s.text, sc) ∈ scopeWords
  | .wildcard => ∃ lb rb, u = [lb, rb] ∧ lb.type = .L_SQUARE_BRACKET ∧ rb.type = .R_SQUARE_BRACKET
  | .group => ∃ lp w rp, u = lp :: w ++ [rp] ∧ lp.type = .L_PAREN ∧ rp.type = .R_PAREN
  | .not => ∃ b w, u = b :: w ∧ b.type = .NOT
  | .and => ∃ t ∈ u, t.type = .AND
  | .or => ∃ t ∈ u, t.type = .OR
  | .disjunction => ∃ t ∈ u, t.type = .OR
  | .sequence => True
  | .withWithin => ∃ w k s, u = w ++ [k, s] ∧ k.type = .WITHIN ∧ s.type = .SIMPLE_WITHIN_SCOPE

mutual
/-- The node is made of the tokens `u`: its location is that of `u`, its attributes come from `u`, and its
children are made of disjoint parts of `u`, in order. -/
def Covers (rt : PyRuntime) (cfg : Config) : Node → List Tok → Prop
  | .mk k cs l, u => u ≠ [] ∧ l = cfg.span u ∧ KindFrom rt cfg u k ∧ CoversL rt cfg cs u
/-- The nodes are made of disjoint parts of `u`, in order. -/
def CoversL (rt : PyRuntime) (cfg : Config) : List Node → List Tok → Prop
  | [], _ => True
  | c :: cs, u => ∃ gap v w, u = gap ++ (v ++ w) ∧ Covers rt cfg c v ∧ CoversL rt cfg cs w
end

end Fcsql
