/-
Concrete data for the examples beside the theorems: an environment, and executable equality.
-/
import Verif.Model.Validation
import Verif.Model.Heap

set_option autoImplicit false

namespace Fcsql

/-- A concrete environment (Python 3.12: digit limit 4300, `chr` overflow is `OverflowError`). -/
def rt0 : Runtime where
  normalize := fun _ s => s
  intMaxStrDigits := 4300
  chrOverflowIsValueError := false
  unicodeDecimal := fun _ => none
  strRepr := fun s => [39] ++ s ++ [39]
  syntaxErrors := fun q => (.parser (eofTok q) py!"mismatched input", [])

/-- The default settings, with source locations. -/
def locConfig : Config := { defaultConfig with enableSourceLocations := true }

mutual
/-- Executable equality of query trees. -/
def Node.beq : Node → Node → Bool
  | .mk k cs l, .mk k' cs' l' => decide (k = k') && decide (l = l') && Node.beqL cs cs'
def Node.beqL : List Node → List Node → Bool
  | [], [] => true
  | c :: cs, c' :: cs' => Node.beq c c' && Node.beqL cs cs'
  | _, _ => false
end

mutual
theorem Node.beq_iff : ∀ a b : Node, Node.beq a b = true ↔ a = b
  | .mk k cs l, .mk k' cs' l' => by
    simp only [Node.beq, Bool.and_eq_true, decide_eq_true_eq, Node.mk.injEq, Node.beqL_iff cs cs']
    exact ⟨fun ⟨⟨a, b⟩, c⟩ => ⟨a, c, b⟩, fun ⟨a, c, b⟩ => ⟨⟨a, b⟩, c⟩⟩
theorem Node.beqL_iff : ∀ a b : List Node, Node.beqL a b = true ↔ a = b
  | [], [] => by simp [Node.beqL]
  | [], _ :: _ => by simp [Node.beqL]
  | _ :: _, [] => by simp [Node.beqL]
  | c :: cs, c' :: cs' => by
    simp only [Node.beqL, Bool.and_eq_true, Node.beq_iff c c', Node.beqL_iff cs cs', List.cons.injEq]
end

instance : DecidableEq Node := fun a b => decidable_of_iff _ (Node.beq_iff a b)

deriving instance DecidableEq for Except

/-- The string of the tree `fcsql.parse` returns. -/
def showParse (q : PyStr) : Option PyStr :=
  match fcsqlParse rt0 q false with
  | .ok n => some n.str
  | .error _ => none

example : showParse py!"[word = 'a' & (pos != \"N.*\"/i | x:y='z')]{1,2} | 'b' within s" =
    some (py!"(QueryWithWithin (QueryDisjunction (QuerySegment @max=2 (And (Expression word Eq \"a\") " ++
      py!"(Group (Or (Expression pos Ne \"N.*\"/i) (Expression x:y Eq \"z\"))))) " ++
      py!"(QuerySegment (Expression text Eq \"b\"))) (SimpleWithin Sentence))") := by decide +kernel

end Fcsql
