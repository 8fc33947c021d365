/-
Histories of calls on the objects of the API: constructors of nodes, several `QueryParser` objects, concurrent
`parse` calls.
-/
import Verif.Model.Heap

set_option autoImplicit false

namespace Fcsql

/-! ### Node construction by the user (parser.py:386-426) -/

/-- A call of a node constructor: the class with its attributes, the children it is given (references to objects
that exist already), and the location assigned afterwards. -/
structure NewCall where
  kind : Kind
  children : List Nat
  loc : Option Loc

/-- The heap after a sequence of constructor calls, starting from no objects: the `i`-th call creates object `i`. -/
def heapOf (calls : List NewCall) : Heap :=
  calls.foldl (fun h c => (newObj c.kind c.children c.loc h).2) []

/-! ### Several `QueryParser` objects (parser.py:1671-1756) -/

/-- What a program does with its parser objects. -/
inductive ParserOp
  /-- `QueryParser(...)` -/
  | new (cfg : Config)
  /-- assignment to the public attributes of the `i`-th object (parser.py:1692-1696) -/
  | configure (i : Nat) (cfg : Config)
  /-- `parsers[i].parse(query)` (an exception is caught by the program) -/
  | parse (i : Nat) (q : PyStr)

/-- All parser objects of the program, in order of creation. -/
abbrev Parsers := List QueryParser

/-- One operation: the new state, and the outcome if it was a `parse` call. -/
def ParserOp.exec (rt : Runtime) : ParserOp → Parsers → Option (Except ParserException Node) × Parsers
  | .new cfg, ps => (none, ps ++ [QueryParser.new cfg])
  | .configure i cfg, ps => (none, ps.modify i fun p => { p with cfg })
  | .parse i q, ps =>
    match ps[i]? with
    | some p => (some (p.parse rt q).1, ps.set i (p.parse rt q).2)
    | none => (none, ps)

/-- A sequence of operations: the state afterwards. -/
def execOps (rt : Runtime) (ops : List ParserOp) (ps : Parsers) : Parsers :=
  ops.foldl (fun ps op => (op.exec rt ps).2) ps

/-! ### Concurrent `parse` calls on one `QueryParser` (parser.py:1700-1756)

A `parse` call keeps everything in local variables (listener, lexer, token stream, parser, builder: lines
1714-1737), reads the settings of the object, and its last action is the assignment `self.errors = ...` (line 1756).
The model splits a call into these two steps; the settings are not assigned meanwhile. -/

/-- A call of `parse` by a thread. -/
inductive CallState
  /-- not yet past the local part -/
  | started (q : PyStr)
  /-- outcome known, `self.errors` not yet assigned -/
  | computed (q : PyStr) (out : Except ParserException Node) (errs : List ErrorDetail)
  /-- returned or raised -/
  | finished (q : PyStr) (out : Except ParserException Node)

/-- The shared object and the calls of all threads. -/
structure Shared where
  parser : QueryParser
  calls : List CallState

/-- One thread's call makes a step. -/
def CallState.step (rt : Runtime) (p : QueryParser) : CallState → QueryParser × CallState
  | .started q => (p, .computed q (parseQuery rt p.cfg q).1 (parseQuery rt p.cfg q).2)
  | .computed q out errs => ({ p with errors := errs }, .finished q out)
  | .finished q out => (p, .finished q out)

/-- The scheduler lets call `i` make a step. -/
def Shared.step (rt : Runtime) (s : Shared) (i : Nat) : Shared :=
  match s.calls[i]? with
  | none => s
  | some c => let r := c.step rt s.parser; { parser := r.1, calls := s.calls.set i r.2 }

/-- A schedule: which call makes the next step, any number of times in any order. -/
def Shared.run (rt : Runtime) (s : Shared) (schedule : List Nat) : Shared := schedule.foldl (Shared.step rt) s

end Fcsql
