/-
The parse tree objects `fcsql.antlr_parse` hands out: the rule functions of FCSParser.py once more, now with the cursor
of the token stream and with what they store in the contexts (`parentCtx`, `invokingState`, `start`, `stop`); and the
methods of the objects that `examples/run_parse.py` and the README use.
-/
import Verif.Model.ParserCode
import Verif.Model.ContextData

set_option autoImplicit false

namespace Fcsql

/-- A parse tree object. -/
inductive CTree
  /-- `TerminalNode` with `symbol`, and `symbol.tokenIndex` -/
  | leaf (tok : Tok) (index : Nat)
  /-- A context: rule, `invokingState` of it and of its ancestors except the root (i.e. the chain of `parentCtx`),
  `start` and `stop` (by `tokenIndex`; `None` before the first token), and `children` -/
  | node (rule : Rule) (chain : List Nat) (start stop : Option Nat) (children : List CTree)
  deriving Repr

/-- `CommonTokenStream.LT(1)` with the cursor at `i` (runtime library): after the last token it stays there.  Simplified:
the stream is filled beforehand. -/
def curTok (toks : List Tok) (i : Nat) : Option Tok := toks[min i (toks.length - 1)]?

/-- `LT(1).tokenIndex`. -/
def ltNext (toks : List Tok) (i : Nat) : Option Nat :=
  if toks.isEmpty then none else some (min i (toks.length - 1))

/-- `LT(-1).tokenIndex`; `None` when nothing was consumed. -/
def ltPrev : Nat → Option Nat
  | 0 => none
  | i + 1 => some i

/-- `LA(1)`. -/
def laAt (toks : List Tok) (i : Nat) : Int :=
  match curTok toks i with
  | some x => x.type.num
  | none => -1

/-- `Parser.consume` (runtime library): `if o.type != Token.EOF: self.getInputStream().consume()`. -/
def consumed (x : Tok) (i : Nat) : Nat := if x.type = .EOF then i else i + 1

/-- How a run ends (as `Res`): children added to the current context, and the cursor. -/
inductive ResM
  | ok (children : List CTree) (cursor : Nat)
  | error
  | timeout
  deriving Repr

/-- Children added before those of a result (as `Res.prepend`). -/
def ResM.prepend (f : List CTree) : ResM → ResM
  | .ok f' i => .ok (f ++ f') i
  | .error => .error
  | .timeout => .timeout

/-- Run statements (as `exec`; statements of FCSParser.py, see `Model/GenParser.lean`).  A call `self.r()`:
`localctx = FCSParser.XContext(self, self._ctx, self.state)` makes a context with the current one as `parentCtx` and the
current state as `invokingState`; `enterRule` stores `LT(1)` as `start`, `exitRule` stores `LT(-1)` as `stop`
(e.g. FCSParser.py:225-226, 249). -/
def execM (P : Predictor) (prog : Rule → List Stmt) (toks : List Tok) : Nat → List Nat → List Stmt → Nat → ResM
  | 0, _, _, _ => .timeout
  | _ + 1, _, [], i => .ok [] i
  | n + 1, ctx, s :: ss, i =>
    match s with
    | .sync st => if P.sync st ctx (toks.drop i) then execM P prog toks n ctx ss i else .error
    | .matchTok _ k =>
      match curTok toks i with
      | none => .error
      | some x => if x.type.num = k then (execM P prog toks n ctx ss (consumed x i)).prepend [.leaf x i] else .error
    | .matchSet _ t =>
      match curTok toks i with
      | none => .error
      | some x => if t.eval x.type.num then (execM P prog toks n ctx ss (consumed x i)).prepend [.leaf x i] else .error
    | .call st r =>
      match execM P prog toks n (st :: ctx) (prog r) i with
      | .ok f j => (execM P prog toks n ctx ss j).prepend [.node r (st :: ctx) (ltNext toks i) (ltPrev j) f]
      | .error => .error
      | .timeout => .timeout
    | .predict d bs =>
      match P.predict d ctx (toks.drop i) with
      | none => .error
      | some a => execM P prog toks n ctx (branch bs a ++ ss) i
    | .switchLA cs =>
      match switchCase (laAt toks i) cs with
      | none => .error
      | some b => execM P prog toks n ctx (b ++ ss) i
    | .ifLA t b => execM P prog toks n ctx ((if t.eval (laAt toks i) then b else []) ++ ss) i
    | .whileLA b st t => execM P prog toks n ctx (b ++ (.sync st :: .ifLA t [.whileLA b st t] :: ss)) i
    | .whilePredict b st d => execM P prog toks n ctx (b ++ (.sync st :: .loopPredict b st d :: ss)) i
    | .loopPredict b st d =>
      match P.predict d ctx (toks.drop i) with
      | none => .error
      | some a =>
        if a = 2 ∨ a = 0 then execM P prog toks n ctx ss i
        else if a = 1 then execM P prog toks n ctx (.whilePredict b st d :: ss) i
        else .error

/-- `parser.query()` (FCSParser.py:223-250, called at __init__.py:52) with at most `n` steps: the root context it returns,
unless an error is reported. -/
def queryM (P : Predictor) (n : Nat) (toks : List Tok) : Option CTree :=
  match execM P code toks n [] (code .query) 0 with
  | .ok f j => some (.node .query [] (ltNext toks 0) (ltPrev j) f)
  | _ => none

/-- `FCSParser.ruleNames` (FCSParser.py:139-144). -/
def parserRuleNames : List PyStr :=
  [py!"query", py!"main_query", py!"query_disjunction", py!"query_sequence",
   py!"query_group", py!"query_simple", py!"quantifier", py!"query_implicit",
   py!"query_segment", py!"within_part", py!"within_part_simple",
   py!"expression", py!"expression_or", py!"expression_and", py!"expression_group",
   py!"expression_not", py!"expression_basic", py!"attribute", py!"qualifier",
   py!"identifier", py!"regexp", py!"regexp_pattern", py!"regexp_flag"]

namespace CTree

/-- `ctx.children` (`None`, here the empty list, for terminals). -/
def children : CTree → List CTree
  | .leaf _ _ => []
  | .node _ _ _ _ ks => ks

/-- `tree.getSourceInterval()` (runtime library, `ParserRuleContext`, `TerminalNodeImpl`), used at
examples/run_parse.py:21-51: the indices of first and last token; `(-1, -2)` if one is missing. -/
def sourceInterval : CTree → Int × Int
  | .leaf _ i => (i, i)
  | .node _ _ (some a) (some b) _ => (a, b)
  | .node _ _ _ _ _ => (-1, -2)

mutual
/-- `tree.getText()` (runtime library, `RuleContext.getText`: `"".join([child.getText() for child in self.getChildren()])`),
used at examples/run_parse.py:21-51. -/
def text : CTree → PyStr
  | .leaf x _ => x.text
  | .node _ _ _ _ ks => textL ks
/-- The `join`. -/
def textL : List CTree → PyStr
  | [] => []
  | c :: cs => text c ++ textL cs
end

/-- `ctx.depth()` (runtime library, `RuleContext.depth`): counts the context and its ancestors along `parentCtx`. -/
def depth : CTree → Nat
  | .leaf _ _ => 0      -- no such method
  | .node _ chain _ _ _ => chain.foldl (fun n _ => n + 1) 1

/-- `escapeWhitespace(s, False)` (runtime library). -/
def escapeWs : PyStr → PyStr
  | [] => []
  | c :: cs => (if c = 9 then py!"\\t" else if c = 10 then py!"\\n" else if c = 13 then py!"\\r" else [c]) ++ escapeWs cs

/-- `Trees.getNodeText(t, ruleNames)`: `ruleNames[t.getRuleIndex()]` (alternative numbers are not stored), or the text of
the token. -/
def nodeText (ruleNames : List PyStr) : CTree → PyStr
  | .leaf x _ => x.text
  | .node r _ _ _ _ =>
    match ruleNames[(ctxClass r).ruleIndex]? with
    | some s => s
    | none => []        -- IndexError

mutual
/-- `tree.toStringTree(ruleNames)` (runtime library `Trees.toStringTree`), used at examples/run_parse.py:17. -/
def toStringTree (ruleNames : List PyStr) : CTree → PyStr
  | .leaf x i => escapeWs (nodeText ruleNames (.leaf x i))
  | .node r ch a b ks =>
    if ks.isEmpty then escapeWs (nodeText ruleNames (.node r ch a b ks))
    else py!"(" ++ escapeWs (nodeText ruleNames (.node r ch a b ks)) ++ py!" " ++ toStringTrees ruleNames ks ++ py!")"
/-- The loop over the children: a space before all but the first. -/
def toStringTrees (ruleNames : List PyStr) : List CTree → PyStr
  | [] => []
  | [c] => toStringTree ruleNames c
  | c :: cs => toStringTree ruleNames c ++ py!" " ++ toStringTrees ruleNames cs
end

end CTree

end Fcsql
