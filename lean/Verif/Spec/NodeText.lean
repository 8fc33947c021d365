/-
How a node is shown: words separated by one space, in parentheses; the first word names the class, then come the attributes,
then the children.
-/
import Verif.Model.Node

set_option autoImplicit false

namespace Fcsql

/-- The first word.  (`QueryGroup` is shown as a segment: C55.) -/
def classWord : Kind → PyStr
  | .expression .. => py!"Expression"
  | .wildcard => py!"Wildcard"
  | .group => py!"Group"
  | .not => py!"Not"
  | .and => py!"And"
  | .or => py!"Or"
  | .segment .. => py!"QuerySegment"
  | .qgroup .. => py!"QuerySegment"
  | .sequence => py!"QuerySequence"
  | .disjunction => py!"QueryDisjunction"
  | .within _ => py!"SimpleWithin"
  | .withWithin => py!"QueryWithWithin"

/-- A bound of the number of occurrences: not shown if it is 1, `*` if there is none. -/
def boundWord (label : PyStr) (n : Int) : List PyStr :=
  if n = 1 then [] else if n = -1 then [label ++ py!"*"] else [label ++ intStr n]

/-- A character of a literal value. -/
def valueChar (c : Nat) : PyStr :=
  if c = 10 then py!"\\n" else if c = 13 then py!"\\r" else if c = 9 then py!"\\t" else [c]

/-- The flags, after a slash. -/
def flagWord : Option FlagSet → PyStr
  | some ⟨false, false, false, false⟩ => []
  | some ⟨i, I, l, d⟩ => py!"/" ++ (if i then py!"i" else []) ++ (if I then py!"I" else []) ++ (if l then py!"l" else []) ++
      (if d then py!"d" else [])
  | none => []

/-- The words of the attributes. -/
def attrWords : Kind → List PyStr
  | .expression ql i o v fl =>
    [(match ql with | some (c :: q) => c :: q ++ py!":" | _ => []) ++ i, (match o with | .EQUALS => py!"Eq" | .NOT_EQUALS => py!"Ne"),
      py!"\"" ++ (v.map valueChar).flatten ++ py!"\"" ++ flagWord fl]
  | .segment mn mx => boundWord py!"@min=" mn ++ boundWord py!"@max=" mx
  | .qgroup mn mx => boundWord py!"@min=" mn ++ boundWord py!"@max=" mx
  | .within s => [match s with
    | .SENTENCE => py!"Sentence" | .UTTERANCE => py!"Utterance" | .PARAGRAPH => py!"Paragraph" | .TURN => py!"Turn" | .TEXT => py!"Text"
    | .SESSION => py!"Session"]
  | _ => []

/-- The location, after the closing parenthesis. -/
def locationWord : Option Loc → PyStr
  | none => []
  | some ⟨a, b⟩ => py!"@" ++ intStr a ++ py!":" ++ intStr b

/-- A node with these children, which are shown as given. -/
def shownNode (k : Kind) (children : List PyStr) (l : Option Loc) : PyStr :=
  py!"(" ++ ((classWord k :: attrWords k ++ children).intersperse py!" ").flatten ++ py!")" ++ locationWord l

end Fcsql
