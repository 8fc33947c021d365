/-
Specification of the parse-tree interface: nodes of a tree, how often children of a kind occur, events of a walk.
-/
import Verif.Model.ContextData
import Verif.Spec.Derivation

set_option autoImplicit false

namespace Fcsql

mutual
/-- All nodes of a parse tree, parents before children, left to right. -/
def PTree.nodes : PTree → List PTree
  | .leaf x => [.leaf x]
  | .node r ks => .node r ks :: PTree.nodesL ks
/-- All nodes of a list of parse trees. -/
def PTree.nodesL : List PTree → List PTree
  | [] => []
  | c :: cs => c.nodes ++ PTree.nodesL cs
end

/-- The name of a rule in FCSParser.g4. -/
def Rule.text : Rule → PyStr
  | .query => py!"query" | .main_query => py!"main_query" | .query_disjunction => py!"query_disjunction"
  | .query_sequence => py!"query_sequence" | .query_group => py!"query_group" | .query_simple => py!"query_simple"
  | .quantifier => py!"quantifier" | .query_implicit => py!"query_implicit" | .query_segment => py!"query_segment"
  | .within_part => py!"within_part" | .within_part_simple => py!"within_part_simple" | .expression => py!"expression"
  | .expression_or => py!"expression_or" | .expression_and => py!"expression_and"
  | .expression_group => py!"expression_group" | .expression_not => py!"expression_not"
  | .expression_basic => py!"expression_basic" | .attribute_ => py!"attribute" | .qualifier => py!"qualifier"
  | .identifier => py!"identifier" | .regexp => py!"regexp" | .regexp_pattern => py!"regexp_pattern"
  | .regexp_flag => py!"regexp_flag"

/-- The name of a token type in FCSLexer.g4. -/
def TokType.text : TokType → PyStr
  | .L_PAREN => py!"L_PAREN" | .R_PAREN => py!"R_PAREN" | .L_SQUARE_BRACKET => py!"L_SQUARE_BRACKET"
  | .R_SQUARE_BRACKET => py!"R_SQUARE_BRACKET" | .OR => py!"OR" | .AND => py!"AND" | .NOT => py!"NOT"
  | .FWD_SLASH => py!"FWD_SLASH" | .L_CURLY_BRACKET => py!"L_CURLY_BRACKET" | .R_CURLY_BRACKET => py!"R_CURLY_BRACKET"
  | .Q_ONE_OR_MORE => py!"Q_ONE_OR_MORE" | .Q_ZERO_OR_MORE => py!"Q_ZERO_OR_MORE" | .Q_ZERO_OR_ONE => py!"Q_ZERO_OR_ONE"
  | .Q_COMMA => py!"Q_COMMA" | .OPERATOR_EQ => py!"OPERATOR_EQ" | .OPERATOR_NE => py!"OPERATOR_NE" | .COLON => py!"COLON"
  | .WITHIN => py!"WITHIN" | .SIMPLE_WITHIN_SCOPE => py!"SIMPLE_WITHIN_SCOPE" | .REGEXP_FLAGS => py!"REGEXP_FLAGS"
  | .IDENTIFIER => py!"IDENTIFIER" | .INTEGER => py!"INTEGER" | .REGEXP => py!"REGEXP"
  | .QUOTED_STRING => py!"QUOTED_STRING" | .Space => py!"Space" | .EOF => py!"EOF"

/-- The rule or token type of a tree node. -/
def PTree.sym : PTree → Sym
  | .leaf x => .tok x.type
  | .node r _ => .rule r

/-- The name of a rule or token type. -/
def Sym.text : Sym → PyStr
  | .tok t => t.text
  | .rule r => r.text

/-- First letter in upper case (of names in lower case). -/
def capitalized : PyStr → PyStr
  | [] => []
  | c :: cs => (c - 32) :: cs

/-- What a listener is told of a tree. -/
inductive Event
  | enterEvery (r : Rule) (children : List PTree)
  | enter (r : Rule) (children : List PTree)
  | terminal (x : Tok)
  | exit (r : Rule) (children : List PTree)
  | exitEvery (r : Rule) (children : List PTree)

mutual
/-- The events of walking a tree. -/
def PTree.events : PTree → List Event
  | .leaf x => [.terminal x]
  | .node r ks => .enterEvery r ks :: .enter r ks :: (PTree.eventsL ks ++ [.exit r ks, .exitEvery r ks])
/-- The events of walking trees one after the other. -/
def PTree.eventsL : List PTree → List Event
  | [] => []
  | c :: cs => c.events ++ PTree.eventsL cs
end

/-- The listener method for an event: `enter`/`exit` and the capitalized rule name. -/
def Event.call {σ ε : Type} (l : Listener σ ε) : Event → LAct σ ε
  | .enterEvery r ks => l.enterEveryRule (.node r ks)
  | .enter r ks => match l.method (py!"enter" ++ capitalized r.text) with
    | some m => m (.node r ks)
    | none => fun s => (.ok (), s)
  | .terminal x => l.visitTerminal x
  | .exit r ks => match l.method (py!"exit" ++ capitalized r.text) with
    | some m => m (.node r ks)
    | none => fun s => (.ok (), s)
  | .exitEvery r ks => l.exitEveryRule (.node r ks)

/-- Calls for a list of events, in order; the first exception ends it. -/
def callAll {σ ε : Type} (l : Listener σ ε) : List Event → LAct σ ε
  | [], s => (.ok (), s)
  | e :: es, s =>
    match e.call l s with
    | (.ok _, s) => callAll l es s
    | (.error x, s) => (.error x, s)

end Fcsql
