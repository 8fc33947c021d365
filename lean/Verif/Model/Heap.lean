/-
Node objects with identity and parent pointers: `QueryNode.__init__` (parser.py:386-426) on a heap.
-/
import Verif.Model.QueryParser

set_option autoImplicit false

namespace Fcsql

/-- A node object: class and attributes, references to the children, `parent`, `location`. -/
structure Obj where
  kind : Kind
  children : List Nat
  parent : Option Nat
  loc : Option Loc

/-- A heap: the object at address `a` is the `a`-th of the list. -/
abbrev Heap := List Obj

/-- `child.parent = self` (parser.py:422-423) for all addresses in `cs`. -/
def setParents (self : Nat) (cs : List Nat) (h : Heap) : Heap :=
  h.mapIdx fun a o => if a ∈ cs then { o with parent := some self } else o

/-- `QueryNode.__init__` (parser.py:386-426) followed by `node.location = ...`: a new object is created
with `parent = None`, then the parent of every child is set to it. -/
def newObj (k : Kind) (cs : List Nat) (loc : Option Loc) (h : Heap) : Nat × Heap :=
  (h.length, setParents h.length cs (h ++ [{ kind := k, children := cs, parent := none, loc }]))

/-- Nodes as heap objects. -/
def heapAlloc : Alloc Nat Heap := { new := newObj }

/-- `QueryParser.parse` producing objects: root address and heap. -/
def parseObjects (rt : Runtime) (cfg : Config) (q : PyStr) : Except ParserException (Nat × Heap) :=
  (parseWith heapAlloc rt cfg [] q).1

end Fcsql
