/-
Trees at another place of the text.
-/
import Verif.Model.Node

set_option autoImplicit false

namespace Fcsql

/-- A range moved by `k` characters. -/
def Loc.shift (k : Int) (l : Loc) : Loc := ⟨l.start + k, l.stop + k⟩

mutual
/-- The same tree with all locations moved by `k` characters. -/
def Node.shift (k : Int) : Node → Node
  | .mk kind cs loc => .mk kind (Node.shiftL k cs) (loc.map (Loc.shift k))
/-- The same for a list of trees. -/
def Node.shiftL (k : Int) : List Node → List Node
  | [] => []
  | n :: ns => n.shift k :: Node.shiftL k ns
end

/-- Kinds of nodes that stand for queries (as opposed to expressions inside a segment). -/
def Kind.isQ : Kind → Prop
  | .segment _ _ | .qgroup _ _ | .sequence | .disjunction => True
  | _ => False

/-- A sequence of one item is just the item when it stands alone. -/
def Node.alone : Node → Node
  | .mk .sequence [m] _ => m
  | n => n

end Fcsql
