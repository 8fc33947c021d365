/-
Specification of the object graph `parse` returns.
-/
import Verif.Model.Heap

set_option autoImplicit false

namespace Fcsql

mutual
/-- The object at address `a` of the heap is (the root of) the tree: same class, attributes and location, and the
objects in its `children` are the children of the tree, in order. -/
def Represents (h : Heap) : Node → Nat → Prop
  | .mk k cs l, a => ∃ o : Obj, h[a]? = some o ∧ o.kind = k ∧ o.loc = l ∧ RepresentsL h cs o.children
/-- The objects at these addresses are these trees. -/
def RepresentsL (h : Heap) : List Node → List Nat → Prop
  | [], as => as = []
  | c :: cs, as => ∃ a as', as = a :: as' ∧ Represents h c a ∧ RepresentsL h cs as'
end

/-- The parent links of the objects of a heap fit the `children` lists, for the given root. -/
structure ParentLinks (h : Heap) (root : Nat) : Prop where
  /-- the root has no parent -/
  rootless : ∃ o : Obj, h[root]? = some o ∧ o.parent = none
  /-- every child has the object it is a child of as its parent -/
  child : ∀ (a : Nat) (o : Obj), h[a]? = some o → ∀ c ∈ o.children, ∃ oc : Obj, h[c]? = some oc ∧ oc.parent = some a
  /-- no object is listed twice among the children of an object -/
  nodup : ∀ (a : Nat) (o : Obj), h[a]? = some o → o.children.Nodup
  /-- every object but the root is a child of some object -/
  reached : ∀ (c : Nat) (oc : Obj), h[c]? = some oc → c ≠ root → ∃ (a : Nat) (o : Obj), h[a]? = some o ∧ c ∈ o.children
  /-- the parent of an object lists it as child -/
  parent : ∀ (c : Nat) (oc : Obj) (a : Nat), h[c]? = some oc → oc.parent = some a → ∃ o : Obj, h[a]? = some o ∧ c ∈ o.children

end Fcsql
