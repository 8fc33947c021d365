/-
The parse tree that the generated parser builds for any query, malformed ones included: `FCSParser(CommonTokenStream(FCSLexer(
InputStream(query)))).query()` (FCSParser.py:222-252; as in parser.py:1716-1728 and __init__.py:47-52, where the tree of a malformed
query is thrown away) with the error strategy the parser has (`DefaultErrorStrategy`, Model/ErrorStrategy.lean).

`Parser.consume` adds a node for the current token to the current context, an `ErrorNode` if the parser is in error recovery
mode; `Parser.match` adds an `ErrorNode` for a token that `recoverInline` has made up; `enterRule` adds the new context to its
parent; a function that catches an exception sets `localctx.exception` (e.g. FCSParser.py:245-248) and returns its context all the
same.  These are the library's; written after its published code, not part of /repo.
-/
import Verif.Model.ErrorStrategy

set_option autoImplicit false

namespace Fcsql

/-- A parse tree: a `TerminalNode`; an `ErrorNode` with a token of the query (or `EOF`); an `ErrorNode` with a token of type `k`
that was made up (`getMissingSymbol`); a context, and whether its `exception` is set. -/
inductive ETree
  | leaf (t : Tok)
  | error (t : Tok)
  | missing (k : Int)
  | node (r : Rule) (failed : Bool) (children : List ETree)
  deriving Repr

/-- How statements end, and the children they have added to the current context (`EOut`, Model/ErrorStrategy.lean). -/
inductive NOut
  | ok (trees : List ETree) (s : EState)
  | raised (trees : List ETree) (f : Failure) (s : EState)
  | timeout (s : EState)

/-- Children added before. -/
def NOut.prepend (f : List ETree) : NOut → NOut
  | .ok f' s => .ok (f ++ f') s
  | .raised f' k s => .raised (f ++ f') k s
  | .timeout s => .timeout s

/-- The statements after a statement that adds the children `f`. -/
def EStep.thenN (step : EStep) (f : List ETree) (next : EState → NOut) : NOut :=
  match step with
  | .go s => (next s).prepend f
  | .stop k s => .raised f k s

section
variable (A : Atn) (eof : Tok)

/-- The node that `Parser.consume` adds for a token. -/
def EState.nodeFor (t : Tok) (s : EState) : ETree := if s.recovering then .error t else .leaf t

/-- `consumeUntil`: the nodes of `j` tokens. -/
def EState.skipped (j : Nat) (s : EState) : List ETree := (s.rest.take j).map fun t => s.nodeFor t

/-- The children that `recover` adds. -/
def recoverTrees (ctx : List Nat) (s : EState) : List ETree :=
  let k := if s.lastIndex = some s.rest.length ∧ s.state ∈ s.lastStates then 1 else 0
  let s1 := s.skip k
  (if k = 1 then [s.nodeFor (s.current eof)] else []) ++ s1.skipped (untilTok (fun t => A.recoveryTok t ctx) s1.rest)

/-- The children that `sync` adds. -/
def syncTrees (ctx : List Nat) (s : EState) : List ETree :=
  if s.recovering then []
  else
    let next := A.nextTokens s.state
    if Atn.hasTok next (la s.rest) || Atn.hasEps next then []
    else if A.stateType s.state ∈ [3, 5, 4, 10] then
      let s := s.look 1
      if canDelete A ctx s then [(reportUnwanted A eof ctx s).nodeFor (s.current eof)] else []
    else if A.stateType s.state ∈ [11, 9] then
      let s' := reportUnwanted A eof ctx s
      s'.skipped (untilTok (fun t => A.expectedTok t s'.state ctx || A.recoveryTok t ctx) s'.rest)
    else []

/-- `getMissingSymbol`: the type of the token that is made up, the smallest expected one (`Token.INVALID_TYPE` if there is none). -/
def missingType (ctx : List Nat) (s : EState) : Int := (typeNumbers.filter fun k => A.expectedTok k s.state ctx).headD 0

/-- The children that `recoverInline` adds; `keep`: the token made up is added (by `Parser.match`; the tests of token sets in
the generated code do not, e.g. FCSParser.py:1653-1659). -/
def inlineTrees (keep : Bool) (ctx : List Nat) (s : EState) : List ETree :=
  let s := s.look 1
  if canDelete A ctx s then
    let s' := (reportUnwanted A eof ctx s).skip 1
    [(reportUnwanted A eof ctx s).nodeFor (s.current eof), s'.endError.nodeFor (s'.current eof)]
  else if canInsert A ctx s then (if keep then [.missing (missingType A ctx s)] else [])
  else []

/-- The children that `self.match(k)`, or the test of a token set, adds. -/
def matchTrees (keep : Bool) (ctx : List Nat) (ok : Int → Bool) (s : EState) : List ETree :=
  match s.rest with
  | [] => inlineTrees A eof keep ctx s
  | x :: _ => if ok x.type.num then [s.endError.nodeFor x] else inlineTrees A eof keep ctx s

/-- The children added by `except RecognitionException as re`. -/
def caughtTrees (ctx : List Nat) (f : Failure) (s : EState) : List ETree := recoverTrees A eof ctx (reportFailure A eof ctx f s)

/-- Run statements in a context, as `execE`, and build the tree (FCSParser.py:222-2009). -/
def execN (prog : Rule → List Stmt) : Nat → List Nat → List Stmt → EState → NOut
  | 0, _, _, s => .timeout s
  | _ + 1, _, [], s => .ok [] s
  | n + 1, ctx, c :: ss, s =>
    match c with
    | .sync st => (syncE A eof ctx (s.at st)).thenN (syncTrees A eof ctx (s.at st)) (execN prog n ctx ss)
    | .matchTok st k =>
      (matchE A eof ctx (fun j => j = k) (s.at st)).thenN (matchTrees A eof true ctx (fun j => j = k) (s.at st)) (execN prog n ctx ss)
    | .matchSet st t =>
      (matchE A eof ctx t.eval (s.at st)).thenN (matchTrees A eof false ctx t.eval (s.at st)) (execN prog n ctx ss)
    | .call st r =>
      match execN prog n (st :: ctx) (prog r) (s.at st) with
      | .ok f s' => (execN prog n ctx ss (s'.at st)).prepend [.node r false f]
      | .raised f k s' =>
        (execN prog n ctx ss ((caughtE A eof (st :: ctx) k s').at st)).prepend [.node r true (f ++ caughtTrees A eof (st :: ctx) k s')]
      | .timeout s' => .timeout s'
    | .predict d bs =>
      match A.simulator.predictor.predict d ctx s.rest with
      | none => .raised [] (.noViable (A.offending d ctx s.rest)) (s.look (A.looksAt d ctx s.rest))
      | some a => execN prog n ctx (branch bs a ++ ss) (s.look (A.looksAt d ctx s.rest))
    | .switchLA cs =>
      match switchCase (la s.rest) cs with
      | none => .raised [] (.noViable 0) s
      | some b => execN prog n ctx (b ++ ss) s
    | .ifLA t b => execN prog n ctx ((if t.eval (la s.rest) then b else []) ++ ss) s
    | .whileLA b st t => execN prog n ctx (b ++ (.sync st :: .ifLA t [.whileLA b st t] :: ss)) s
    | .whilePredict b st d => execN prog n ctx (b ++ (.sync st :: .loopPredict b st d :: ss)) s
    | .loopPredict b st d =>
      match A.simulator.predictor.predict d ctx s.rest with
      | none => .raised [] (.noViable (A.offending d ctx s.rest)) (s.look (A.looksAt d ctx s.rest))
      | some a =>
        if a = 2 ∨ a = 0 then execN prog n ctx ss (s.look (A.looksAt d ctx s.rest))
        else if a = 1 then execN prog n ctx (.whilePredict b st d :: ss) (s.look (A.looksAt d ctx s.rest))
        else .raised [] (.noViable 0) (s.look (A.looksAt d ctx s.rest))

/-- A call of the function of rule `r` on a new parser (e.g. `parser.query()`, FCSParser.py:222-252), with at most `n` steps: the
context it returns, and the errors reported. -/
def callN (prog : Rule → List Stmt) (n : Nat) (r : Rule) (ts : List Tok) : Option (ETree × List Report) :=
  match execN A eof prog n [] (prog r) (EState.new ts) with
  | .ok f s => some (.node r false f, s.reports)
  | .raised f k s => some (.node r true (f ++ caughtTrees A eof [] k s), (caughtE A eof [] k s).reports)
  | .timeout _ => none

end

/-- `FCSParser(CommonTokenStream(FCSLexer(InputStream(q)))).query()` (FCSParser.py:222-252), with at most `n` steps. -/
def queryTree (n : Nat) (q : PyStr) : Option (ETree × List Report) := callN parserAtn (eofTok q) code n .query (tokenStream q)

end Fcsql
