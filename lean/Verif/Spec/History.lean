/-
Specification of histories of calls.
-/
import Verif.Model.History

set_option autoImplicit false

namespace Fcsql

/-- The constructor calls only use objects that exist at that time. -/
def Existing (calls : List NewCall) : Prop :=
  ∀ (i : Nat) (c : NewCall), calls[i]? = some c → ∀ x ∈ c.children, x < i

/-- Call `a` is the last one that was given object `c` as a child. -/
def LastGiven (calls : List NewCall) (c a : Nat) : Prop :=
  (∃ call, calls[a]? = some call ∧ c ∈ call.children) ∧
  ∀ (b : Nat) (call : NewCall), a < b → calls[b]? = some call → c ∉ call.children

/-- Number of parser objects created. -/
def created : List ParserOp → Nat
  | [] => 0
  | .new _ :: ops => created ops + 1
  | .configure .. :: ops => created ops
  | .parse .. :: ops => created ops

/-- `SettingsAfter ops i cfg`: after these operations, parser object `i` exists and its settings are those it was
created with or last assigned. -/
inductive SettingsAfter : List ParserOp → Nat → Config → Prop
  | created {ops : List ParserOp} {cfg : Config} : SettingsAfter (ops ++ [.new cfg]) (created ops) cfg
  | assigned {ops : List ParserOp} {i : Nat} {old cfg : Config} :
      SettingsAfter ops i old → SettingsAfter (ops ++ [.configure i cfg]) i cfg
  | unchanged {ops : List ParserOp} {i : Nat} {cfg : Config} {op : ParserOp} :
      SettingsAfter ops i cfg → (∀ c, op ≠ .configure i c) → SettingsAfter (ops ++ [op]) i cfg

/-- The last `parse` call on object `i` was for query `q`, at a time when its settings were `cfg`. -/
def LastParsed (ops : List ParserOp) (i : Nat) (q : PyStr) (cfg : Config) : Prop :=
  ∃ before after, ops = before ++ [.parse i q] ++ after ∧ SettingsAfter before i cfg ∧
    ∀ op ∈ after, ∀ q', op ≠ .parse i q'

end Fcsql
