/-
What is said in C108: the contexts of a parse tree look as their grammar rules say.
-/
import Verif.Spec.ErrorTree
import Verif.Model.Grammar

set_option autoImplicit false

namespace Fcsql

/-- Error nodes for tokens of the text: tokens that were deleted or skipped. -/
def ETree.isError : ETree → Bool
  | .error _ => true
  | _ => false

/-- Children that are what an expression of the grammar (FCSParser.g4) says: a token of the type, or one made up of the type; a
context of the rule, whatever it holds. A group of alternative tokens may be missing: the parser makes up one of them, but adds
no node for it. -/
inductive Shaped : G → List ETree → Prop
  | eps : Shaped .eps []
  | tok (x : Tok) : Shaped (.tok x.type) [.leaf x]
  | made (k : TokType) : Shaped (.tok k) [.missing k.num]
  | rule (r : Rule) (failed : Bool) (cs : List ETree) : Shaped (.rule r) [.node r failed cs]
  | seq {a b : G} {f f' : List ETree} : Shaped a f → Shaped b f' → Shaped (.seq a b) (f ++ f')
  | altL {a b : G} {f : List ETree} : Shaped a f → Shaped (.alt a b) f
  | altR {a b : G} {f : List ETree} : Shaped b f → Shaped (.alt a b) f
  | starNil {a : G} : Shaped (.star a) []
  | starCons {a : G} {f f' : List ETree} : Shaped a f → Shaped (.star a) f' → Shaped (.star a) (f ++ f')
  | gap {ks : List TokType} : 2 ≤ ks.length → Shaped (G.alts (ks.map .tok)) []

/-- Without the error nodes. -/
def kept (cs : List ETree) : List ETree := cs.filter fun t => !t.isError

/-- All contexts of a tree look as their rules say, error nodes aside: a context without an exception has what its rule asks for
(FCSParser.g4, `body`), one with an exception the beginning of that. -/
inductive ETree.Conforms : ETree → Prop
  | leaf (t : Tok) : ETree.Conforms (.leaf t)
  | error (t : Tok) : ETree.Conforms (.error t)
  | missing (k : Int) : ETree.Conforms (.missing k)
  | whole {r : Rule} {cs : List ETree} : Shaped (body r) (kept cs) → (∀ t ∈ cs, t.Conforms) → ETree.Conforms (.node r false cs)
  | broken {r : Rule} {cs more : List ETree} : Shaped (body r) (kept cs ++ more) → (∀ t ∈ cs, t.Conforms) →
      ETree.Conforms (.node r true cs)

/-- `u.In t`: `u` is `t`, or somewhere in it. -/
inductive ETree.In (u : ETree) : ETree → Prop
  | here : ETree.In u u
  | child {r : Rule} {failed : Bool} {cs : List ETree} {c : ETree} : c ∈ cs → ETree.In u c → ETree.In u (.node r failed cs)

end Fcsql
