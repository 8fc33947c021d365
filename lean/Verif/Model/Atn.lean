/-
Augmented transition networks: what `antlr4.atn.ATNDeserializer` (runtime library, not in /repo) makes of the
integers returned by `serializedATN()` in `src/fcsql/FCSParser.py` and `src/fcsql/FCSLexer.py`.
-/
import Verif.Model.Grammar

set_option autoImplicit false

namespace Fcsql

/-- Transitions, by `Transition` type number: 1 epsilon, 3 rule (start state, rule index, follow state), 5 atom,
6 action, 7 set, 8 negated set.  (The other types - range, predicate, wildcard, precedence - do not occur in
FCSParser.py:11-105 and FCSLexer.py:11-104; `deserialize` fails on them.)  The last field is the state reached. -/
inductive Trans
  | eps (trg : Nat)
  | atom (label : Int) (trg : Nat)
  | set (label : List (Int × Int)) (trg : Nat)
  | notSet (label : List (Int × Int)) (trg : Nat)
  | rule (start index follow : Nat)
  | action (index trg : Nat)
  deriving DecidableEq, Repr

/-- A state: `stateType` (7 is `RULE_STOP`), `ruleIndex`, `transitions`. -/
structure AtnState where
  type : Nat
  rule : Int
  trans : List Trans
  deriving DecidableEq, Repr

/-- A network: `grammarType` (0 lexer, 1 parser), `maxTokenType`, `states`, `ruleToStartState` with
`ruleToTokenType` (0 for parsers), `modeToStartState`, `decisionToState`, and for lexers `lexerActions`. -/
structure Atn where
  grammarType : Nat
  maxToken : Nat
  states : List AtnState
  rules : List (Nat × Nat)
  modes : List Nat
  decisions : List Nat
  actions : List (Nat × Int × Int)
  deriving DecidableEq, Repr

/-- `readInt`. -/
def readInt : List Int → Option (Int × List Int)
  | [] => none
  | x :: xs => some (x, xs)

/-- `readInt` where the number is used as an index or a count. -/
def readNat : List Int → Option (Nat × List Int)
  | [] => none
  | x :: xs => if x < 0 then none else some (x.toNat, xs)

/-- `for _ in range(n)` around a reader. -/
def readMany {α : Type} (f : List Int → Option (α × List Int)) : Nat → List Int → Option (List α × List Int)
  | 0, xs => some ([], xs)
  | n + 1, xs =>
    match f xs with
    | none => none
    | some (a, xs) =>
      match readMany f n xs with
      | none => none
      | some (as, xs) => some (a :: as, xs)

/-- `n = readInt()`, then `n` times a reader. -/
def readList {α : Type} (f : List Int → Option (α × List Int)) (xs : List Int) : Option (List α × List Int) :=
  match readNat xs with
  | none => none
  | some (n, xs) => readMany f n xs

/-- `ATNDeserializer.readStates`: type, rule index, and for loop ends (12) and block starts (3, 4, 5) one more
state number (used by the runtime's error reporting only; dropped here). -/
def readState (xs : List Int) : Option ((Nat × Int) × List Int) :=
  match readNat xs with
  | none => none
  | some (t, xs) =>
    if t = 0 then none
    else
      match readInt xs with
      | none => none
      | some (r, xs) =>
        if t = 12 ∨ t = 3 ∨ t = 4 ∨ t = 5 then
          match readInt xs with
          | none => none
          | some (_, xs) => some ((t, r), xs)
        else some ((t, r), xs)

/-- `ATNDeserializer.readRules`: start state, and for lexers the token type. -/
def readRule (grammarType : Nat) (xs : List Int) : Option ((Nat × Nat) × List Int) :=
  match readNat xs with
  | none => none
  | some (s, xs) =>
    if grammarType = 0 then
      match readNat xs with
      | none => none
      | some (t, xs) => some ((s, t), xs)
    else some ((s, 0), xs)

/-- One inclusive interval. -/
def readInterval (xs : List Int) : Option ((Int × Int) × List Int) :=
  match xs with
  | a :: b :: xs => some ((a, b), xs)
  | _ => none

/-- `ATNDeserializer.readSets`: number of intervals, "contains EOF" (no set of this code does), the intervals. -/
def readSet (xs : List Int) : Option (List (Int × Int) × List Int) :=
  match readNat xs with
  | none => none
  | some (n, xs) =>
    match readInt xs with
    | none => none
    | some (e, xs) => if e = 0 then readMany readInterval n xs else none

/-- `ATNDeserializer.edgeFactory`: the transition of type `ty` with arguments `a b c` to state `trg`. -/
def edgeFactory (sets : List (List (Int × Int))) (ty : Nat) (trg : Nat) (a b c : Int) : Option Trans :=
  if ty = 1 then some (.eps trg)
  else if ty = 3 then some (.rule a.toNat b.toNat trg)
  else if ty = 5 then some (.atom (if c = 0 then a else -1) trg)
  else if ty = 6 then some (.action b.toNat trg)
  else if ty = 7 then (sets[a.toNat]?).map fun s => .set s trg
  else if ty = 8 then (sets[a.toNat]?).map fun s => .notSet s trg
  else none

/-- `ATNDeserializer.readEdges`: source state and transition. -/
def readEdge (sets : List (List (Int × Int))) (xs : List Int) : Option ((Nat × Trans) × List Int) :=
  match xs with
  | src :: trg :: ty :: a :: b :: c :: xs =>
    match edgeFactory sets ty.toNat trg.toNat a b c with
    | none => none
    | some t => some ((src.toNat, t), xs)
  | _ => none

/-- `ATNDeserializer.readLexerActions`: action type and two arguments. -/
def readAction (xs : List Int) : Option ((Nat × Int × Int) × List Int) :=
  match xs with
  | t :: a :: b :: xs => some ((t.toNat, a, b), xs)
  | _ => none

/-- Transitions are added to their source state in the order they are read. -/
def attach (edges : List (Nat × Trans)) : Nat → List (Nat × Int) → List AtnState
  | _, [] => []
  | i, (t, r) :: ss => ⟨t, r, (edges.filter fun e => e.1 = i).map (·.2)⟩ :: attach edges (i + 1) ss

/-- `ATNDeserializer.deserialize` (serialization version 4).  Simplified: lists of non-greedy and precedence
states must be empty (they are, in both files); the runtime's verification pass and the edges from rule stop states
back to the follow states of their callers (used for prediction without context) are left out. -/
def deserialize (xs : List Int) : Option Atn :=
  match xs with
  | version :: gt :: mx :: xs =>
    if version ≠ 4 then none
    else
      match readList readState xs with
      | none => none
      | some (states, xs) =>
      match readList readNat xs with
      | none => none
      | some (nonGreedy, xs) =>
      match readList readNat xs with
      | none => none
      | some (precedence, xs) =>
      match readList (readRule gt.toNat) xs with
      | none => none
      | some (rules, xs) =>
      match readList readNat xs with
      | none => none
      | some (modes, xs) =>
      match readList readSet xs with
      | none => none
      | some (sets, xs) =>
      match readList (readEdge sets) xs with
      | none => none
      | some (edges, xs) =>
      match readList readNat xs with
      | none => none
      | some (decisions, xs) =>
      match (if gt = 0 then readList readAction xs else some ([], xs)) with
      | none => none
      | some (actions, xs) =>
        if nonGreedy = [] ∧ precedence = [] ∧ xs = [] then
          some ⟨gt.toNat, mx.toNat, attach edges 0 states, rules, modes, decisions, actions⟩
        else none
  | _ => none

/-- `atn.states[s].transitions`. -/
def Atn.out (A : Atn) (s : Nat) : List Trans :=
  match A.states[s]? with
  | some st => st.trans
  | none => []

/-- `isinstance(atn.states[s], RuleStopState)`. -/
def Atn.isStop (A : Atn) (s : Nat) : Bool :=
  match A.states[s]? with
  | some st => st.type = 7
  | none => false

end Fcsql
