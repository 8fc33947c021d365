/-
Specification of validators written by users of the library: subclasses of `Validator` whose handlers report
issues.
-/
import Verif.Spec.Validation
import Verif.Spec.Parents

set_option autoImplicit false

namespace Fcsql

/-- The method that is called for a node of this class, if the visitor has the methods of `QueryVisitorAdapter`
(and of `Validator`) and no others: for the expression classes other than `Expression` there is none (the names
looked up are `visit_Wildcard`, `visit_Group`, ...), and a `QueryGroup` is handled as a `QuerySegment`. -/
def handlerFor : Clazz → Option PyStr
  | .Expression => some py!"visit_Expression"
  | .QueryDisjunction => some py!"visit_QueryDisjunction"
  | .QuerySequence => some py!"visit_QuerySequence"
  | .QueryWithWithin => some py!"visit_QueryWithWithin"
  | .QuerySegment => some py!"visit_QuerySegment"
  | .QueryGroup => some py!"visit_QuerySegment"
  | .SimpleWithin => some py!"visit_SimpleWithin"
  | _ => none

/-- The statements of a handler that reports these issues one after the other, through `validation_error` and
`validation_warning`. -/
def reportEach {X : Type} : List Issue → VAct X Unit
  | [] => VAct.skip
  | x :: xs => (if x.isError then validationError x.node x.msg else validationWarning x.node x.msg).andThen
      fun _ => reportEach xs

/-- A subclass of `Validator` whose handlers report the issues that `issues` gives for the name of the method,
the node and `self.parent_node`, and then call the super method. -/
def reporter {X : Type} (issues : PyStr → Node → Option Node → List Issue) : Visitor Unit (VState X) SpecError :=
  subValidator fun name n s => reportEach (issues name n s.parentNode) s

/-- The issues of one node, given what its handler sees as its parent: none if there is no handler for its class. -/
def handlerIssues (issues : PyStr → Node → Option Node → List Issue) (mp : Node × Option Node) : List Issue :=
  match handlerFor mp.1.kind.clazz with
  | some name => issues name mp.1 mp.2
  | none => []

/-- The issues of a tree for such a validator: those of the nodes for whose class there is a handler, in document
order, each handler seeing the nearest such ancestor as the parent; `p` is what the root sees. -/
def foundIssues (issues : PyStr → Node → Option Node → List Issue) (p : Option Node) (n : Node) : List Issue :=
  (trackedParents p n).flatMap (handlerIssues issues)

end Fcsql
