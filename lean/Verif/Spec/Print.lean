/-
Writing queries: the text of a query tree, and the trees that are meant to be written.
-/
import Verif.Spec.Precedence

set_option autoImplicit false

namespace Fcsql

/-! ### Texts -/

/-- The string `s` as a literal with quotes `q`: backslashes and quotes are preceded by a backslash, nothing else is changed. -/
def quoteStr (q : Nat) (s : PyStr) : PyStr := q :: ((s.flatMap fun c => if c = 92 ∨ c = q then [92, c] else [c]) ++ [q])

/-- A letter for every flag of the set. -/
def flagsText (fs : FlagSet) : PyStr :=
  (if fs.has .CASE_INSENSITIVE then py!"i" else []) ++ (if fs.has .CASE_SENSITIVE then py!"I" else []) ++
  (if fs.has .LITERAL_MATCHING then py!"l" else []) ++ (if fs.has .IGNORE_DIACRITICS then py!"d" else [])

/-- `"value"` or `"value"/flags`. -/
def regexText (v : PyStr) : Option FlagSet → PyStr
  | none => quoteStr 34 v
  | some fs => quoteStr 34 v ++ py!"/" ++ flagsText fs

/-- `=` or `!=`. -/
def operatorText : Operator → PyStr
  | .EQUALS => py!"="
  | .NOT_EQUALS => py!"!="

/-- `qualifier:` or nothing. -/
def qualifierText : Option PyStr → PyStr
  | none => []
  | some q => q ++ py!":"

/-- The word of a scope. -/
def scopeText : Scope → PyStr
  | .SENTENCE => py!"sentence"
  | .UTTERANCE => py!"utterance"
  | .PARAGRAPH => py!"paragraph"
  | .TURN => py!"turn"
  | .TEXT => py!"text"
  | .SESSION => py!"session"

/-- Nothing, `*`, `+`, `?`, `{n,}` or `{n,m}`. -/
def boundsText (mn mx : Int) : PyStr :=
  if mn = 1 ∧ mx = 1 then []
  else if mn = 0 ∧ mx = -1 then py!"*"
  else if mn = 1 ∧ mx = -1 then py!"+"
  else if mn = 0 ∧ mx = 1 then py!"?"
  else if mx = -1 then py!"{" ++ intStr mn ++ py!",}"
  else py!"{" ++ intStr mn ++ py!"," ++ intStr mx ++ py!"}"

mutual
/-- The text of an expression (what stands in the brackets). -/
def Node.exprText : Node → PyStr
  | .mk (.expression ql i o v fl) _ _ => qualifierText ql ++ i ++ operatorText o ++ regexText v fl
  | .mk .group cs _ => py!"(" ++ joinWith [] (Node.exprTexts cs) ++ py!")"
  | .mk .not cs _ => py!"!" ++ joinWith [] (Node.exprTexts cs)
  | .mk .and cs _ => joinWith py!"&" (Node.exprTexts cs)
  | .mk .or cs _ => joinWith py!"|" (Node.exprTexts cs)
  | _ => []
/-- The texts of several expressions. -/
def Node.exprTexts : List Node → List PyStr
  | [] => []
  | n :: ns => n.exprText :: Node.exprTexts ns
end

/-- The text of the content of a segment: a bare literal if the attribute and the operator are those of the settings. -/
def contentText (cfg : Config) : List Node → PyStr
  | [.mk .wildcard _ _] => py!"[]"
  | [.mk (.expression ql i o v fl) cs l] =>
    if ql = none ∧ i = cfg.defaultIdentifier ∧ o = cfg.defaultOperator then regexText v fl
    else py!"[" ++ (Node.mk (.expression ql i o v fl) cs l).exprText ++ py!"]"
  | [e] => py!"[" ++ e.exprText ++ py!"]"
  | _ => []

mutual
/-- The text of a query. -/
def Node.queryText (cfg : Config) : Node → PyStr
  | .mk (.segment mn mx) cs _ => contentText cfg cs ++ boundsText mn mx
  | .mk (.qgroup mn mx) cs _ => py!"(" ++ joinWith py!" " (Node.queryTexts cfg cs) ++ py!")" ++ boundsText mn mx
  | .mk .sequence cs _ => joinWith py!" " (Node.queryTexts cfg cs)
  | .mk .disjunction cs _ => joinWith py!" | " (Node.queryTexts cfg cs)
  | .mk .withWithin cs _ => joinWith py!" within " (Node.queryTexts cfg cs)
  | .mk (.within sc) _ _ => scopeText sc
  | _ => []
/-- The texts of several queries. -/
def Node.queryTexts (cfg : Config) : List Node → List PyStr
  | [] => []
  | n :: ns => n.queryText cfg :: Node.queryTexts cfg ns
end

/-! ### Trees

Trees without source locations. -/

/-- A value that is a string of code points and already normalised. -/
def GoodValue (rt : PyRuntime) (cfg : Config) (v : PyStr) : Prop := ValidStr v ∧ cfg.norm rt v = v

/-- No flags, or a non-empty legal set. -/
def GoodFlags (fl : Option FlagSet) : Prop := ∀ fs, fl = some fs → fs.Legal ∧ fs.isEmpty = false

/-- The number can be written in the digits the interpreter converts. -/
def Writable (rt : PyRuntime) (n : Int) : Prop := 0 ≤ n ∧ (rt.intMaxStrDigits = 0 ∨ (intStr n).length ≤ rt.intMaxStrDigits)

/-- Bounds: at most `mx` (`-1`: any number of) and at least `mn`. -/
def GoodBounds (rt : PyRuntime) (mn mx : Int) : Prop :=
  (mn, mx) ∈ [(1, 1), (0, -1), (1, -1), (0, 1)] ∨ (Writable rt mn ∧ mx = -1) ∨ (Writable rt mn ∧ Writable rt mx ∧ mn ≤ mx)

mutual
/-- Comparisons and parenthesised expressions. -/
inductive GoodAtom (rt : PyRuntime) (cfg : Config) : Node → Prop
  | comparison {ql : Option PyStr} {i v : PyStr} {o : Operator} {fl : Option FlagSet} : (∀ q, ql = some q → IsName q) → IsName i →
      GoodValue rt cfg v → GoodFlags fl → GoodAtom rt cfg (.mk (.expression ql i o v fl) [] none)
  | group {e : Node} : GoodExpr rt cfg e → GoodAtom rt cfg (.mk .group [e] none)
/-- `|` of `&` of negated atoms, with calm negations (so that it can be written without further parentheses). -/
inductive GoodExpr (rt : PyRuntime) (cfg : Config) : Node → Prop
  | chunks {Cs : List (List (Nat × Node))} : Cs ≠ [] → (∀ C ∈ Cs, C ≠ []) → (∀ C ∈ Cs, ∀ u ∈ C, GoodAtom rt cfg u.2) → Calm Cs →
      GoodExpr rt cfg (disjunctionOf (Cs.map fun C => conjunction (C.map fun u => negated u.1 u.2)))
end

mutual
/-- Segments and groups.  `E`: which expressions may stand in brackets. -/
inductive GoodItem (rt : PyRuntime) (cfg : Config) (E : Node → Prop) : Node → Prop
  | literal {v : PyStr} {fl : Option FlagSet} {mn mx : Int} : GoodValue rt cfg v → GoodFlags fl → GoodBounds rt mn mx →
      GoodItem rt cfg E (.mk (.segment mn mx) [.mk (.expression none cfg.defaultIdentifier cfg.defaultOperator v fl) [] none] none)
  | any {mn mx : Int} : GoodBounds rt mn mx → GoodItem rt cfg E (.mk (.segment mn mx) [.mk .wildcard [] none] none)
  | bracket {e : Node} {mn mx : Int} : E e → GoodBounds rt mn mx → GoodItem rt cfg E (.mk (.segment mn mx) [e] none)
  | group {n : Node} {mn mx : Int} : GoodContent rt cfg E n → GoodBounds rt mn mx → GoodItem rt cfg E (.mk (.qgroup mn mx) [n] none)
/-- What may stand in the parentheses of a group: a sequence (of at least one item) or a disjunction. -/
inductive GoodContent (rt : PyRuntime) (cfg : Config) (E : Node → Prop) : Node → Prop
  | sequence {ns : List Node} : ns ≠ [] → (∀ n ∈ ns, GoodItem rt cfg E n) → GoodContent rt cfg E (.mk .sequence ns none)
  | disjunction {ns : List Node} : 2 ≤ ns.length → (∀ n ∈ ns, GoodOperand rt cfg E n) → GoodContent rt cfg E (.mk .disjunction ns none)
/-- Operands of a disjunction: segments, sequences of several items, and sequences of one group. -/
inductive GoodOperand (rt : PyRuntime) (cfg : Config) (E : Node → Prop) : Node → Prop
  | segment {mn mx : Int} {cs : List Node} : GoodItem rt cfg E (.mk (.segment mn mx) cs none) → GoodOperand rt cfg E (.mk (.segment mn mx) cs none)
  | sequence {ns : List Node} : 2 ≤ ns.length → (∀ n ∈ ns, GoodItem rt cfg E n) → GoodOperand rt cfg E (.mk .sequence ns none)
  | group {mn mx : Int} {cs : List Node} : GoodItem rt cfg E (.mk (.qgroup mn mx) cs none) →
      GoodOperand rt cfg E (.mk .sequence [.mk (.qgroup mn mx) cs none] none)
end

/-- Queries without `within`. -/
inductive GoodMain (rt : PyRuntime) (cfg : Config) (E : Node → Prop) : Node → Prop
  | item {n : Node} : GoodItem rt cfg E n → GoodMain rt cfg E n
  | sequence {ns : List Node} : 2 ≤ ns.length → (∀ n ∈ ns, GoodItem rt cfg E n) → GoodMain rt cfg E (.mk .sequence ns none)
  | disjunction {ns : List Node} : 2 ≤ ns.length → (∀ n ∈ ns, GoodOperand rt cfg E n) → GoodMain rt cfg E (.mk .disjunction ns none)

/-- Queries. -/
inductive GoodQuery (rt : PyRuntime) (cfg : Config) (E : Node → Prop) : Node → Prop
  | main {n : Node} : GoodMain rt cfg E n → GoodQuery rt cfg E n
  | within {n : Node} {sc : Scope} : GoodMain rt cfg E n → GoodQuery rt cfg E (.mk .withWithin [n, .mk (.within sc) [] none] none)

end Fcsql
