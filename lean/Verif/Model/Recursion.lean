/-
Python's recursion limit.  The rule functions of `FCSParser.py` call each other, and so do the visit methods of
`ExpressionTreeBuilder` (`visitX` -> `super().visitX` -> `visitChildren` -> `accept` -> `visitY`): one level of calls for
every level of the parse tree.  When the interpreter's limit is hit, `RecursionError` is raised.

Simplified: the limit is counted in levels of the parse tree (a level takes a fixed number of Python frames); the
frames of the prediction machinery below a rule function are not counted.
-/
import Verif.Model.QueryParser
import Verif.Model.GenParser
import Verif.Spec.Depth

set_option autoImplicit false

namespace Fcsql

section
variable {ν σ : Type}

mutual
/-- `tree.accept(builder)` (parser.py:1028-1502) with room for this many nested contexts; `RecursionError` beyond. -/
def visitLim (A : Alloc ν σ) (rt : PyRuntime) (cfg : Config) :
    PTree → Nat → BState ν σ → Except Exc (BState ν σ)
  | .leaf _, _, s => .ok s
  | .node _ _, 0, _ => .error .other
  | .node r cs, n + 1, s => visitRule A rt cfg r cs (fun s => visitChildrenLim A rt cfg cs n s) s
/-- `visitChildren` with room for this many nested contexts. -/
def visitChildrenLim (A : Alloc ν σ) (rt : PyRuntime) (cfg : Config) :
    List PTree → Nat → BState ν σ → Except Exc (BState ν σ)
  | [], _, s => .ok s
  | c :: cs, n, s => do
    let s ← visitLim A rt cfg c n s
    visitChildrenLim A rt cfg cs n s
end

/-- `builder.visit(tree); node = builder.stack.pop()` (parser.py:1736-1738) with limited room. -/
def buildLimWith (A : Alloc ν σ) (rt : PyRuntime) (cfg : Config) (h : σ) (t : PTree) (n : Nat) : Except Exc (ν × σ) := do
  let s ← visitLim A rt cfg t n { heap := h, stack := [] }
  let (x, s) ← popNode s
  .ok (x, s.heap)
end

/-- `QueryParser.parse` (parser.py:1700-1756) with room for `room` nested contexts, for a query the grammar accepts with
tree `t`: the rule functions need as many levels as the tree is high (`C70_calls`), then the builder is run.
`seen` is how many errors the lexer has reported when the rule functions run out of room. -/
def parseLim (rt : Runtime) (cfg : Config) (q : PyStr) (t : PTree) (room seen : Nat) : Except ParserException Node × List ErrorDetail :=
  let errs := (rawErrors rt q).map (listenerDetail q)
  if t.height ≤ room then
    match errs with
    | [] =>
      (match buildLimWith pureAlloc rt.toPyRuntime cfg () t room with
        | .ok r => .ok r.1
        | .error e => .error (wrapExc e), [])
    | e :: es => (.error ⟨py!"unable to parse query: " ++ e.message⟩, e :: es)
  else (.error (wrapExc .other), errs.take seen)

/-- The greatest number of pending calls of rule functions (length of the calling context) during a run of the generated
functions; follows `exec` (Model/GenParser.lean) statement by statement. -/
def execDepth (P : Predictor) (prog : Rule → List Stmt) : Nat → List Nat → List Stmt → List Tok → Nat
  | 0, ctx, _, _ => ctx.length
  | _ + 1, ctx, [], _ => ctx.length
  | n + 1, ctx, s :: ss, ts =>
    match s with
    | .sync st => if P.sync st ctx ts then execDepth P prog n ctx ss ts else ctx.length
    | .matchTok _ k =>
      match ts with
      | [] => ctx.length
      | x :: xs => if x.type.num = k then execDepth P prog n ctx ss xs else ctx.length
    | .matchSet _ t =>
      match ts with
      | [] => ctx.length
      | x :: xs => if t.eval x.type.num then execDepth P prog n ctx ss xs else ctx.length
    | .call st r =>
      let d := execDepth P prog n (st :: ctx) (prog r) ts
      match exec P prog n (st :: ctx) (prog r) ts with
      | .ok _ ts' => max d (execDepth P prog n ctx ss ts')
      | .error => d
      | .timeout => d
    | .predict d bs =>
      match P.predict d ctx ts with
      | none => ctx.length
      | some a => execDepth P prog n ctx (branch bs a ++ ss) ts
    | .switchLA cs =>
      match switchCase (la ts) cs with
      | none => ctx.length
      | some b => execDepth P prog n ctx (b ++ ss) ts
    | .ifLA t b => execDepth P prog n ctx ((if t.eval (la ts) then b else []) ++ ss) ts
    | .whileLA b st t => execDepth P prog n ctx (b ++ (.sync st :: .ifLA t [.whileLA b st t] :: ss)) ts
    | .whilePredict b st d => execDepth P prog n ctx (b ++ (.sync st :: .loopPredict b st d :: ss)) ts
    | .loopPredict b st d =>
      match P.predict d ctx ts with
      | none => ctx.length
      | some a =>
        if a = 2 ∨ a = 0 then execDepth P prog n ctx ss ts
        else if a = 1 then execDepth P prog n ctx (.whilePredict b st d :: ss) ts
        else ctx.length

/-- How many rule functions are called during a run of the generated functions (FCSParser.py:200-1900); follows `exec`
(Model/GenParser.lean) statement by statement. -/
def execCalls (P : Predictor) (prog : Rule → List Stmt) : Nat → List Nat → List Stmt → List Tok → Nat
  | 0, _, _, _ => 0
  | _ + 1, _, [], _ => 0
  | n + 1, ctx, s :: ss, ts =>
    match s with
    | .sync st => if P.sync st ctx ts then execCalls P prog n ctx ss ts else 0
    | .matchTok _ k =>
      match ts with
      | [] => 0
      | x :: xs => if x.type.num = k then execCalls P prog n ctx ss xs else 0
    | .matchSet _ t =>
      match ts with
      | [] => 0
      | x :: xs => if t.eval x.type.num then execCalls P prog n ctx ss xs else 0
    | .call st r =>
      let d := execCalls P prog n (st :: ctx) (prog r) ts
      match exec P prog n (st :: ctx) (prog r) ts with
      | .ok _ ts' => 1 + d + execCalls P prog n ctx ss ts'
      | .error => 1 + d
      | .timeout => 1 + d
    | .predict d bs =>
      match P.predict d ctx ts with
      | none => 0
      | some a => execCalls P prog n ctx (branch bs a ++ ss) ts
    | .switchLA cs =>
      match switchCase (la ts) cs with
      | none => 0
      | some b => execCalls P prog n ctx (b ++ ss) ts
    | .ifLA t b => execCalls P prog n ctx ((if t.eval (la ts) then b else []) ++ ss) ts
    | .whileLA b st t => execCalls P prog n ctx (b ++ (.sync st :: .ifLA t [.whileLA b st t] :: ss)) ts
    | .whilePredict b st d => execCalls P prog n ctx (b ++ (.sync st :: .loopPredict b st d :: ss)) ts
    | .loopPredict b st d =>
      match P.predict d ctx ts with
      | none => 0
      | some a =>
        if a = 2 ∨ a = 0 then execCalls P prog n ctx ss ts
        else if a = 1 then execCalls P prog n ctx (.whilePredict b st d :: ss) ts
        else 0

end Fcsql
