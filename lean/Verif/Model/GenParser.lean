/-
The language of the rule functions ANTLR generated (`src/fcsql/FCSParser.py`), and how they run.
The functions themselves are data, in `Model/ParserCode.lean`.
-/
import Verif.Spec.Atn

set_option autoImplicit false

namespace Fcsql

/-- Tests of the next token's type `_la`, e.g. `_la==18` (FCSParser.py:234), `_la==15 or _la==16` (FCSParser.py:1655),
`(((_la) & ~0x3f) == 0 and ((1 << _la) & 14848) != 0)` (FCSParser.py:612). -/
inductive LaTest
  | eq (k : Int)
  | or (a b : LaTest)
  | mask (m : Nat)
  deriving DecidableEq, Repr

/-- Value of a test.  `(_la & ~0x3f) == 0` says `0 <= _la < 64` (Python integers are two's complement without
bound, so it is false for `EOF`, which is `-1`). -/
def LaTest.eval : LaTest → Int → Bool
  | .eq k, la => la = k
  | .or a b, la => a.eval la || b.eval la
  | .mask m, la => 0 ≤ la && la < 64 && m.testBit la.toNat

/-- Statements of the rule functions.  The first number is the value of `self.state` when the statement runs. -/
inductive Stmt
  /-- `self.state = st; self._errHandler.sync(self)` -/
  | sync (st : Nat)
  /-- `self.state = st; self.match(k)` -/
  | matchTok (st : Nat) (k : Int)
  /-- `self.state = st; _la = self._input.LA(1)`, `if not(test): self._errHandler.recoverInline(self)`,
  `else: self._errHandler.reportMatch(self); self.consume()` -/
  | matchSet (st : Nat) (test : LaTest)
  /-- `self.state = st; self.r()` -/
  | call (st : Nat) (r : Rule)
  /-- `la_ = self._interp.adaptivePredict(self._input, d, self._ctx)`, `if la_ == 1: ...`, `elif la_ == 2: ...`, ...
  (no `else`) -/
  | predict (d : Nat) (branches : List (List Stmt))
  /-- `token = self._input.LA(1)`, `if token in [...]: ...`, `elif token in [...]: ...`, ...,
  `else: raise NoViableAltException(self)` -/
  | switchLA (cases : List (List Int × List Stmt))
  /-- `_la = self._input.LA(1)`, `if test: ...` -/
  | ifLA (test : LaTest) (body : List Stmt)
  /-- `while True: body; self.state = st; self._errHandler.sync(self); _la = self._input.LA(1)`,
  `if not test: break` -/
  | whileLA (body : List Stmt) (st : Nat) (test : LaTest)
  /-- `_alt = 1`, `while _alt!=2 and _alt!=ATN.INVALID_ALT_NUMBER: if _alt == 1: body`, `else: raise
  NoViableAltException(self)`, `self.state = st; self._errHandler.sync(self)`,
  `_alt = self._interp.adaptivePredict(self._input, d, self._ctx)` -/
  | whilePredict (body : List Stmt) (st d : Nat)
  /-- not a statement of its own: such a loop just before its call of `adaptivePredict` -/
  | loopPredict (body : List Stmt) (st d : Nat)

/-- What the runtime library contributes: `adaptivePredict(input, d, ctx)` (an alternative number, or an exception),
and whether `sync` in a state passes without complaint.  Both see the calling context as the list of invoking states,
innermost first, and the remaining tokens. -/
structure Predictor where
  predict : Nat → List Nat → List Tok → Option Nat
  sync : Nat → List Nat → List Tok → Bool

/-- `self._input.LA(1)`; after the last token it stays `Token.EOF`. -/
def la : List Tok → Int
  | [] => -1
  | x :: _ => x.type.num

/-- How a run ends: the children added to the current context and the remaining tokens; or a syntax error has been
reported (by `match`, `recoverInline`, `sync`, or an exception caught at the end of a rule function); or the bound on
the number of steps was hit.  Simplified: what happens after the first reported error (error recovery) is not
modelled, since `QueryParser.parse` raises whenever an error was reported (parser.py:1731-1740). -/
inductive Res
  | ok (forest : List PTree) (rest : List Tok)
  | error
  | timeout
  deriving Repr

/-- Children added before those of a result. -/
def Res.prepend (f : List PTree) : Res → Res
  | .ok f' ts => .ok (f ++ f') ts
  | .error => .error
  | .timeout => .timeout

/-- The branch for alternative `a` of `if la_ == 1: ... elif la_ == 2: ...`. -/
def branch (bs : List (List Stmt)) : Nat → List Stmt
  | 0 => []
  | a + 1 =>
    match bs[a]? with
    | some b => b
    | none => []

/-- The first case whose list has the token type. -/
def switchCase (k : Int) : List (List Int × List Stmt) → Option (List Stmt)
  | [] => none
  | (ks, b) :: cs => if k ∈ ks then some b else switchCase k cs

/-- Run statements in a context (invoking states).  `prog` gives the functions; the first argument bounds the depth
of the computation.  Simplified: matching a second `EOF` after the final one fails here and would succeed in the
runtime; no function tries. -/
def exec (P : Predictor) (prog : Rule → List Stmt) : Nat → List Nat → List Stmt → List Tok → Res
  | 0, _, _, _ => .timeout
  | _ + 1, _, [], ts => .ok [] ts
  | n + 1, ctx, s :: ss, ts =>
    match s with
    | .sync st => if P.sync st ctx ts then exec P prog n ctx ss ts else .error
    | .matchTok _ k =>
      match ts with
      | [] => .error
      | x :: xs => if x.type.num = k then (exec P prog n ctx ss xs).prepend [.leaf x] else .error
    | .matchSet _ t =>
      match ts with
      | [] => .error
      | x :: xs => if t.eval x.type.num then (exec P prog n ctx ss xs).prepend [.leaf x] else .error
    | .call st r =>
      match exec P prog n (st :: ctx) (prog r) ts with
      | .ok f ts' => (exec P prog n ctx ss ts').prepend [.node r f]
      | .error => .error
      | .timeout => .timeout
    | .predict d bs =>
      match P.predict d ctx ts with
      | none => .error
      | some a => exec P prog n ctx (branch bs a ++ ss) ts
    | .switchLA cs =>
      match switchCase (la ts) cs with
      | none => .error
      | some b => exec P prog n ctx (b ++ ss) ts
    | .ifLA t b => exec P prog n ctx ((if t.eval (la ts) then b else []) ++ ss) ts
    | .whileLA b st t => exec P prog n ctx (b ++ (.sync st :: .ifLA t [.whileLA b st t] :: ss)) ts
    | .whilePredict b st d => exec P prog n ctx (b ++ (.sync st :: .loopPredict b st d :: ss)) ts
    | .loopPredict b st d =>
      match P.predict d ctx ts with
      | none => .error
      | some a =>
        if a = 2 ∨ a = 0 then exec P prog n ctx ss ts
        else if a = 1 then exec P prog n ctx (.whilePredict b st d :: ss) ts
        else .error

end Fcsql
