/-
What the log of a parser run tells.
-/
import Verif.Model.Debug
import Verif.Spec.Contexts
import Verif.Spec.Messages
import Verif.Spec.CustomValidators

set_option autoImplicit false

namespace Fcsql

/-- A record without the stack it shows. -/
def LogRec.bare {ν : Type} : LogRec ν → LogRec Unit
  | .query l => .query l
  | .caret l => .caret l
  | .symbol a b => .symbol a b
  | .recognizer => .recognizer
  | .tree t => .tree t
  | .enter m k t => .enter m k t
  | .exit m _ => .exit m []
  | .error e => .error e

/-- The contexts the log does not mention. -/
def Rule.silent : Rule → Bool
  | .quantifier | .within_part | .expression | .qualifier | .identifier | .regexp_pattern | .regexp_flag => true
  | _ => false

mutual
/-- A tree from left to right, contexts entered and left. -/
def PTree.trace : PTree → List (LogRec Unit)
  | .leaf _ => []
  | .node r ks =>
    if r.silent then PTree.traceL ks
    else .enter (py!"visit" ++ capitalized r.text) ks.length (PTree.node r ks).getText ::
      (PTree.traceL ks ++ [.exit (py!"visit" ++ capitalized r.text) []])
/-- Trees from left to right. -/
def PTree.traceL : List PTree → List (LogRec Unit)
  | [] => []
  | c :: cs => c.trace ++ PTree.traceL cs
end

/-- What the log calls the token the parser complains about: for tokens with a fixed text that text in quotes; for the end of
the query, wrongly, the last name in the table of such names. -/
def loggedLiteral : TokType → Option PyStr
  | .SIMPLE_WITHIN_SCOPE | .REGEXP_FLAGS | .IDENTIFIER | .INTEGER | .REGEXP | .QUOTED_STRING | .Space => none
  | .EOF => some py!"'within'"
  | t => some (symbol t)

/-- And its name in the grammar; for the end of the query, wrongly, the last name in the table. -/
def loggedSymbol : TokType → Option PyStr
  | .EOF => some py!"Space"
  | t => some t.text

/-- The lines about an error. -/
def RawErr.lines {ν : Type} (q : PyStr) : RawErr → List (LogRec ν)
  | .lexer _ => []
  | .parser t msg =>
    [.query (py!"query: " ++ q), .caret (List.replicate (7 + t.start.toNat) 32 ++ py!"^- " ++ msg),
     .symbol (loggedLiteral t.type) (loggedSymbol t.type), .recognizer]

/-- The method the log says a visitor with the methods of `QueryVisitorAdapter` is in at a node. -/
def loggedMethod (n : Node) : PyStr := (handlerFor n.kind.clazz).getD py!"visitChildren"

/-- A state of the visitor's world and one that differs only in what has been logged: whatever is done in both of them has
the same result, and leads to such states again. -/
def SameAct {R σ ε : Type} (same : σ → σ → Prop) (a b : σ → Except ε R × σ) : Prop :=
  ∀ s t, same s t → (a s).1 = (b t).1 ∧ same (a s).2 (b t).2

/-- The same, one by one. -/
inductive SameActs {R σ ε : Type} (same : σ → σ → Prop) : List (σ → Except ε R × σ) → List (σ → Except ε R × σ) → Prop
  | nil : SameActs same [] []
  | cons {a b as bs} : SameAct same a b → SameActs same as bs → SameActs same (a :: as) (b :: bs)

/-- A visitor that does not read the log: it does the same in worlds that differ only in what has been logged. -/
structure Debugged.Blind {R σ ε : Type} (v : Debugged R σ ε) (same : σ → σ → Prop) : Prop where
  write : ∀ name node s t, same s t → same (v.write name node s) t
  method : ∀ name m, v.method name = some m → ∀ node as bs, SameActs same as bs → SameAct same (m node as) (m node bs)
  defaultResult : SameAct same v.defaultResult v.defaultResult
  aggregate : ∀ x y, SameAct same (v.aggregate x y) (v.aggregate x y)
  shouldVisit : ∀ node r, SameAct same (v.shouldVisit node r) (v.shouldVisit node r)

end Fcsql
