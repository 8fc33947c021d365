/-
Specification: two trees of the same form, with related attributes and related locations.
-/
import Verif.Model.Node

set_option autoImplicit false

namespace Fcsql

mutual
/-- Same form; attributes related by `K`, locations by `L`, node by node. -/
def NodeRel (K : Kind → Kind → Prop) (L : Option Loc → Option Loc → Prop) : Node → Node → Prop
  | .mk k cs l, n => ∃ k' cs' l', n = .mk k' cs' l' ∧ K k k' ∧ L l l' ∧ NodeRelL K L cs cs'
/-- Node by node. -/
def NodeRelL (K : Kind → Kind → Prop) (L : Option Loc → Option Loc → Prop) : List Node → List Node → Prop
  | [], ns => ns = []
  | c :: cs, ns => ∃ c' cs', ns = c' :: cs' ∧ NodeRel K L c c' ∧ NodeRelL K L cs cs'
end

mutual
/-- The tree without its locations. -/
def Node.unlocated : Node → Node
  | .mk k cs _ => .mk k (Node.unlocatedL cs) none
/-- The trees without their locations. -/
def Node.unlocatedL : List Node → List Node
  | [] => []
  | c :: cs => c.unlocated :: Node.unlocatedL cs
end

end Fcsql
