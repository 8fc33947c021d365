/-
`examples/run_parse.py`: the listener of `parse_raw`.
-/
import Verif.Model.Marked

set_option autoImplicit false

namespace Fcsql

/-- What one `print` of the listener shows: `getSourceInterval()`, the spaces, `getText()`. -/
structure RunLine where
  interval : Int × Int
  spaces : PyStr
  text : PyStr
  deriving DecidableEq, Repr

/-- `" " * n`. -/
def spaces (n : Nat) : PyStr := List.replicate n 32

/-- The `enter...` method for a context (examples/run_parse.py:20-51); `none`: `IndexError`.  Methods that are not
overridden do nothing. -/
def runEnter (c : CTree) : Option (List RunLine) :=
  match c with
  | .leaf _ _ => some []
  | .node r _ _ _ ks =>
    match r with
    | .query | .main_query | .expression | .attribute_ | .regexp =>
      some [⟨c.sourceInterval, spaces c.depth, c.text⟩]
    | .expression_basic =>
      match ks[0]? with
      | none => none
      | some k0 =>
        match ks[1]? with
        | none => none
        | some k1 =>
          match ks[2]? with
          | none => none
          | some k2 =>
            some [⟨c.sourceInterval, spaces c.depth, c.text⟩, ⟨c.sourceInterval, spaces (c.depth + 1), k0.text⟩,
              ⟨c.sourceInterval, spaces (c.depth + 1), k1.text⟩, ⟨c.sourceInterval, spaces (c.depth + 1), k2.text⟩]
    | _ => some []

mutual
/-- `walker.walk(listener, tree)` (examples/run_parse.py:53-55; runtime library). -/
def runWalk : CTree → Option (List RunLine)
  | .leaf x i => runEnter (.leaf x i)
  | .node r ch a b ks =>
    match runEnter (.node r ch a b ks) with
    | none => none
    | some l =>
      match runWalks ks with
      | none => none
      | some l' => some (l ++ l')
/-- The children in order. -/
def runWalks : List CTree → Option (List RunLine)
  | [] => some []
  | c :: cs =>
    match runWalk c with
    | none => none
    | some l =>
      match runWalks cs with
      | none => none
      | some l' => some (l ++ l')
end

end Fcsql
