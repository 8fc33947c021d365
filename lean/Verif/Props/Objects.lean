/-
C27: parent links in the object graph that `parse` returns.
-/
import Verif.Proofs.Objects
import Verif.Props.Examples

set_option autoImplicit false
set_option linter.unusedSimpArgs false

namespace Fcsql

attribute [local irreducible] parseQuery

/-- **C27.** The objects that `parse` creates form the tree that it returns (`Represents`), every object is in it
exactly once, and the parent links are exactly the inverse of the `children` lists (`ParentLinks`). -/
theorem C27_parent_links (rt : Runtime) (cfg : Config) (q : PyStr) (n : Node) (h : (parseQuery rt cfg q).1 = .ok n) :
    ∃ root heap, parseObjects rt cfg q = .ok (root, heap) ∧ Represents heap n root ∧ ParentLinks heap root := by
  have := parseObjects_spec rt cfg q
  rw [h] at this
  obtain ⟨a, hp, h1, h2, h3⟩ := this
  exact ⟨a, hp, h1, h3.represents, h3.parentLinks h2⟩

/-- **C27.** Creating objects raises exactly when building the tree does. -/
theorem C27_same_exception (rt : Runtime) (cfg : Config) (q : PyStr) (e : ParserException) :
    parseObjects rt cfg q = .error e ↔ (parseQuery rt cfg q).1 = .error e := by
  have := parseObjects_spec rt cfg q
  cases h : (parseQuery rt cfg q).1 with
  | error e' => rw [h] at this; rw [this]; simp
  | ok n =>
    rw [h] at this
    obtain ⟨a, hp, h1, -⟩ := this
    rw [h1]; simp

/-- Two parents cannot share a child: a consequence of `ParentLinks`, spelled out. -/
theorem C27_one_parent {heap : Heap} {root : Nat} (h : ParentLinks heap root) {a b : Nat} {oa ob : Obj}
    (ha : heap[a]? = some oa) (hb : heap[b]? = some ob) {c : Nat} (h1 : c ∈ oa.children) (h2 : c ∈ ob.children) :
    a = b := by
  obtain ⟨o, e, p⟩ := h.child a oa ha c h1
  obtain ⟨o', e', p'⟩ := h.child b ob hb c h2
  rw [e] at e'; cases e'
  rw [p] at p'; exact Option.some.inj p'

deriving instance DecidableEq for Obj

-- `'a' | [b='c']`: two expressions, two segments, the disjunction
example : parseObjects rt0 defaultConfig py!"'a' | [b='c']" = .ok (4,
    [⟨.expression none py!"text" .EQUALS py!"a" none, [], some 1, none⟩, ⟨.segment 1 1, [0], some 4, none⟩,
     ⟨.expression none py!"b" .EQUALS py!"c" none, [], some 3, none⟩, ⟨.segment 1 1, [2], some 4, none⟩,
     ⟨.disjunction, [1, 3], none, none⟩]) := by decide +kernel

end Fcsql
