/-
Specification of parsing: derivations of the grammar, and which one is chosen when there are several.
-/
import Verif.Model.Grammar

set_option autoImplicit false

namespace Fcsql

/-- `D g ts f c`: the grammar expression `g` derives the token list `ts`, with parse trees `f`, taking
the decisions `c` (one per alternative/loop decision, left to right; `false` = the earlier alternative,
and for loops = one more iteration). -/
inductive D : G → List Tok → List PTree → List Bool → Prop
  | eps : D .eps [] [] []
  | tok {t : TokType} {x : Tok} : x.type = t → D (.tok t) [x] [.leaf x] []
  | rule {r : Rule} {ts : List Tok} {f : List PTree} {c : List Bool} :
      D (body r) ts f c → D (.rule r) ts [.node r f] c
  | seq {a b : G} {ts ts' : List Tok} {f f' : List PTree} {c c' : List Bool} :
      D a ts f c → D b ts' f' c' → D (.seq a b) (ts ++ ts') (f ++ f') (c ++ c')
  | altL {a b : G} {ts : List Tok} {f : List PTree} {c : List Bool} :
      D a ts f c → D (.alt a b) ts f (false :: c)
  | altR {a b : G} {ts : List Tok} {f : List PTree} {c : List Bool} :
      D b ts f c → D (.alt a b) ts f (true :: c)
  | starNil {a : G} : D (.star a) [] [] [true]
  | starCons {a : G} {ts ts' : List Tok} {f f' : List PTree} {c c' : List Bool} :
      D a ts f c → D (.star a) ts' f' c' →
      D (.star a) (ts ++ ts') (f ++ f') (false :: (c ++ c'))

/-- The decisions `c` take the earlier alternative at the first decision where they differ from `c'`. -/
def Before (c c' : List Bool) : Prop := ∃ p a b, c = p ++ false :: a ∧ c' = p ++ true :: b

/-- Among all derivations of `ts` from `g`, the one with trees `f` and decisions `c` takes the earlier
alternative wherever another derivation first differs. -/
structure Chosen (g : G) (ts : List Tok) (f : List PTree) (c : List Bool) : Prop where
  derives : D g ts f c
  first : ∀ f' c', D g ts f' c' → (f' = f ∧ c' = c) ∨ Before c c'

/-- `Fits g f`: the children `f` are as the grammar expression `g` prescribes, and so are, recursively, the children of
every rule node in `f`.  A tree `t` is a derivation tree of rule `r` if `Fits (.rule r) [t]`. -/
inductive Fits : G → List PTree → Prop
  | eps : Fits .eps []
  | tok {t : TokType} {x : Tok} : x.type = t → Fits (.tok t) [.leaf x]
  | rule {r : Rule} {ks : List PTree} : Fits (body r) ks → Fits (.rule r) [.node r ks]
  | seq {a b : G} {f f' : List PTree} : Fits a f → Fits b f' → Fits (.seq a b) (f ++ f')
  | altL {a b : G} {f : List PTree} : Fits a f → Fits (.alt a b) f
  | altR {a b : G} {f : List PTree} : Fits b f → Fits (.alt a b) f
  | starNil {a : G} : Fits (.star a) []
  | starCons {a : G} {f f' : List PTree} : Fits a f → Fits (.star a) f' → Fits (.star a) (f ++ f')

/-- A token list (ending with `EOF`) is grammatical. -/
def Grammatical (ts : List Tok) : Prop := ∃ f c, D (.rule .query) ts f c

end Fcsql
