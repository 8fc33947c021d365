/-
Specification of the attributes of nodes in terms of the texts of the tokens the node is made of.
-/
import Verif.Spec.Denote

set_option autoImplicit false

namespace Fcsql

/-- A decimal number the interpreter can convert, and its value. -/
def IsInt (rt : PyRuntime) (text : PyStr) (n : Int) : Prop :=
  text ≠ [] ∧ text.all isDigit = true ∧ IntText rt text n

/-- The bounds expressed by the end of a list of token texts. -/
inductive Quantified (rt : PyRuntime) : List PyStr → Int → Int → Prop
  | none {ts : List PyStr} : (∀ t, ts.getLast? = some t → t ∉ [py!"*", py!"+", py!"?", py!"}"]) →
      Quantified rt ts 1 1
  | star {ts : List PyStr} : Quantified rt (ts ++ [py!"*"]) 0 (-1)
  | plus {ts : List PyStr} : Quantified rt (ts ++ [py!"+"]) 1 (-1)
  | opt {ts : List PyStr} : Quantified rt (ts ++ [py!"?"]) 0 1
  | exactly {ts : List PyStr} {x : PyStr} {n : Int} : IsInt rt x n →
      Quantified rt (ts ++ [py!"{", x, py!"}"]) n n
  | atLeast {ts : List PyStr} {x : PyStr} {n : Int} : IsInt rt x n →
      Quantified rt (ts ++ [py!"{", x, py!",", py!"}"]) n (-1)
  | atMost {ts : List PyStr} {y : PyStr} {m : Int} : IsInt rt y m →
      Quantified rt (ts ++ [py!"{", py!",", y, py!"}"]) 0 m
  | between {ts : List PyStr} {x y : PyStr} {n m : Int} : IsInt rt x n → IsInt rt y m → n ≤ m →
      Quantified rt (ts ++ [py!"{", x, py!",", y, py!"}"]) n m

/-- A literal, possibly followed by `/` and flags, with its decoded value and flags. -/
inductive ValueWritten : List PyStr → PyStr → Option FlagSet → Prop
  | plain {lit v : PyStr} : LitValue lit v → ValueWritten [lit] v none
  | flags {lit v f : PyStr} {fs : FlagSet} : LitValue lit v → f ≠ [] → (∀ c ∈ f, c ∈ py!"iIcCld") →
      FlagsNamed f fs → fs.Legal → ValueWritten [lit, py!"/", f] v (some fs)

/-- The attributes of an `Expression`, from the token texts it is made of. -/
inductive ExpressionWritten (rt : PyRuntime) (cfg : Config) :
    List PyStr → Option PyStr → PyStr → Operator → PyStr → Option FlagSet → Prop
  /-- a bare literal: the defaults, no qualifier -/
  | implicit {val : List PyStr} {v : PyStr} {fl : Option FlagSet} : ValueWritten val v fl →
      ExpressionWritten rt cfg val none cfg.defaultIdentifier cfg.defaultOperator (cfg.norm rt v) fl
  | plain {i op v : PyStr} {o : Operator} {val : List PyStr} {fl : Option FlagSet} : IsName i →
      (op, o) ∈ [(py!"=", Operator.EQUALS), (py!"!=", .NOT_EQUALS)] → ValueWritten val v fl →
      ExpressionWritten rt cfg (i :: op :: val) none i o (cfg.norm rt v) fl
  | qualified {ql i op v : PyStr} {o : Operator} {val : List PyStr} {fl : Option FlagSet} : IsName ql → IsName i →
      (op, o) ∈ [(py!"=", Operator.EQUALS), (py!"!=", .NOT_EQUALS)] → ValueWritten val v fl →
      ExpressionWritten rt cfg (ql :: py!":" :: i :: op :: val) (some ql) i o (cfg.norm rt v) fl

/-- The token texts `ts` are what is written for a node of class and attributes `k` (layout of attributes
only; what is inside belongs to the children). -/
def Written (rt : PyRuntime) (cfg : Config) (ts : List PyStr) : Kind → Prop
  | .expression q i o v fl => ExpressionWritten rt cfg ts q i o v fl
  | .wildcard => ts = [py!"[", py!"]"]
  | .group => ∃ w, ts = py!"(" :: w ++ [py!")"]
  | .not => ∃ w, ts = py!"!" :: w
  | .and => py!"&" ∈ ts
  | .or => py!"|" ∈ ts
  | .disjunction => py!"|" ∈ ts
  | .sequence => True
  | .withWithin => ∃ w s, ts = w ++ [py!"within", s]
  | .segment mn mx => Quantified rt ts mn mx
  | .qgroup mn mx => (∃ w, ts = py!"(" :: w) ∧ Quantified rt ts mn mx
  | .within sc => ∃ s, ts = [s] ∧ (s, sc) ∈ scopeWords

end Fcsql
