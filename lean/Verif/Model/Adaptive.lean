/-
The prediction of the runtime library, as a program: `antlr4.atn.ParserATNSimulator` (`adaptivePredict`, called at
FCSParser.py:303, 401, 426, 595, 781, 1095, 1205, 1236, 1263, 1368, 1395, 1469, 1567, 1717 through `self._interp`, created at FCSParser.py:176) with
`antlr4.PredictionContext`, `antlr4.atn.ATNConfigSet` and `antlr4.atn.PredictionMode`; and what `DefaultErrorStrategy.sync`
asks `antlr4.atn.ATN.nextTokens`.  The library is not in /repo (pyproject.toml: antlr4-python3-runtime >= 4.13.2); this is
written after its published algorithm, for networks without predicates, precedence rules and non-greedy loops
(FCSParser.py has none: `deserialize` fails on them) and for the default `PredictionMode.LL`.

Simplified throughout: a configuration has one stack of return states; the library merges the stacks of configurations with
the same state and alternative into one graph, which stands for the same set of stacks.
-/
import Verif.Model.Cache

set_option autoImplicit false

namespace Fcsql

/-- `ATNConfig`: `state`, `alt`, one path of `context` (return states, innermost first; `[]` is `PredictionContext.EMPTY`),
`reachesIntoOuterContext`. -/
structure AConfig where
  state : Nat
  alt : Nat
  stack : List Nat
  outer : Nat
  deriving DecidableEq, Repr

/-- `ATNConfigSet.configs`. -/
abbrev AConfigSet := List AConfig

namespace AConfigSet

/-- Which contexts `PredictionContext.merge` absorbs.  With `full` context `[]` is the empty stack; without it `[]` is a
wildcard, and a context swallows every other one it is the beginning of (`mergeRoot` with `rootIsWildcard`). -/
def swallows (full : Bool) (a b : List Nat) : Bool := if full then a == b else a.isPrefixOf b

/-- Configurations that are merged: `ATNConfig.equalsForConfigSet`. -/
def sameKey (c d : AConfig) : Bool := d.state == c.state && d.alt == c.alt

/-- `ATNConfigSet.add`: contexts of the same state and alternative are merged.  The merged configuration keeps the larger
`reachesIntoOuterContext`. -/
def add (full : Bool) (S : AConfigSet) (c : AConfig) : AConfigSet :=
  let o := (S.filter (sameKey c)).foldl (fun m d => max m d.outer) c.outer
  let S' := S.map fun d => if sameKey c d then { d with outer := o } else d
  if S'.any fun d => sameKey c d && swallows full d.stack c.stack then S'
  else (S'.filter fun d => !(sameKey c d && swallows full c.stack d.stack)) ++ [{ c with outer := o }]

/-- A set built by adding one after the other. -/
def ofList (full : Bool) (l : List AConfig) : AConfigSet := l.foldl (add full) []

/-- `getUniqueAlt`. -/
def uniqueAlt : AConfigSet → Option Nat
  | [] => none
  | c :: cs => if cs.all fun d => d.alt = c.alt then some c.alt else none

/-- The merged context of the configurations with this state and alternative. -/
def stacks (S : AConfigSet) (s a : Nat) : List (List Nat) := (S.filter fun d => d.state = s && d.alt = a).map (·.stack)

/-- Equality of merged contexts. -/
def sameStacks (l l' : List (List Nat)) : Bool := l.all (fun x => l'.contains x) && l'.all (fun x => l.contains x)

/-- `PredictionMode.getConflictingAltSubsets`: the alternatives with the same state and merged context.  Simplified: one
entry for each configuration rather than for each state and context; entries may be equal. -/
def conflictingAltSubsets (S : AConfigSet) : List (List Nat) :=
  S.map fun c => (S.filter fun d => d.state = c.state && sameStacks (S.stacks d.state d.alt) (S.stacks c.state c.alt)).map (·.alt)

/-- `min(alts)`; 0 for the empty set. -/
def minAlt : List Nat → Nat
  | [] => 0
  | [a] => a
  | a :: as => min a (minAlt as)

/-- `PredictionMode.resolvesToJustOneViableAlt` (`getSingleViableAlt`). -/
def resolves : List (List Nat) → Option Nat
  | [] => none
  | l :: ls => if ls.all fun l' => minAlt l' = minAlt l then some (minAlt l) else none

/-- `PredictionMode.hasConflictingAltSet`. -/
def hasConflict (ls : List (List Nat)) : Bool := ls.any fun l => l.any fun a => l.any fun b => a ≠ b

/-- `PredictionMode.hasStateAssociatedWithOneAlt`. -/
def hasStateWithOneAlt (S : AConfigSet) : Bool :=
  S.any fun c => S.all fun d => d.state ≠ c.state || d.alt = c.alt

end AConfigSet

namespace Atn

/-- `states[s].ruleIndex`. -/
def ruleOf (A : Atn) (s : Nat) : Int :=
  match A.states[s]? with
  | some st => st.rule
  | none => -1

/-- The epsilon transitions `ATNDeserializer.readEdges` adds to the stop state `s` of a rule: to the follow states of all
calls of the rule. -/
def followLinks (A : Atn) (s : Nat) : List Nat :=
  A.states.flatMap fun st => st.trans.filterMap fun
    | .rule _ i f => if A.isStop s && (i : Int) = A.ruleOf s then some f else none
    | _ => none

/-- `Transition.matches(k, 0, maxTokenType)`. -/
def matchesTok (A : Atn) (k : Int) : Trans → Option Nat
  | .eps _ => none
  | .atom l t => if l = k then some t else none
  | .set l t => if l.any fun p => p.1 ≤ k && k ≤ p.2 then some t else none
  | .notSet l t => if 0 ≤ k && k ≤ A.maxToken && !(l.any fun p => p.1 ≤ k && k ≤ p.2) then some t else none
  | .rule _ _ _ => none
  | .action _ _ => none

/-- `getEpsilonTarget`: the configurations reached without consuming a token; after `EOF` was consumed (`eof`) a further
`EOF` is not consumed either. -/
def epsilonTarget (A : Atn) (eof : Bool) (c : AConfig) : Trans → Option AConfig
  | .eps t => some { c with state := t }
  | .action _ t => some { c with state := t }
  | .rule start _ f => some { c with state := start, stack := f :: c.stack }
  | t => if eof then (A.matchesTok (-1) t).map fun t' => { c with state := t' } else none

/-- `Transition.isEpsilon`. -/
def isEps : Trans → Bool
  | .eps _ => true
  | .action _ _ => true
  | .rule _ _ _ => true
  | _ => false

/-- `closure`: what is reached from a configuration without consuming a token, as far as it can consume one or is final.
At the end of a rule the top of the stack is popped; if there is none, with `full` context the start rule is finished, and
without it every caller is followed (`closureCheckingStopState`, `closure_`).  `busy` are the states to which such a step was
made already (`closureBusy`); here it is passed down along a path, the library shares it between the paths, which saves
repetitions.  The first argument bounds the length of the paths; the bound used is never reached (Proofs/Adaptive.lean). -/
def closure (A : Atn) (full eof : Bool) : Nat → List Nat → AConfig → List AConfig
  | 0, _, _ => []
  | n + 1, busy, c =>
    if A.isStop c.state then
      match c.stack with
      | r :: stk => A.closure full eof n busy { c with state := r, stack := stk }
      | [] =>
        if full then [c]
        else
          (if (A.followLinks c.state).isEmpty then [c] else []) ++
            (A.followLinks c.state).flatMap fun t =>
              if t ∈ busy then []
              else A.closure full eof n (t :: busy) { c with state := t, outer := c.outer + 1 }
    else
      (if (A.out c.state).all Atn.isEps then [] else [c]) ++
        (A.out c.state).flatMap fun t =>
          match A.epsilonTarget eof c t with
          | some c' => A.closure full eof n busy c'
          | none => []

/-- The bound on the paths. -/
def pathBound (A : Atn) (c : AConfig) : Nat := (A.states.length + 1) * (c.stack.length + A.states.length + 2)

/-- The configurations reached from one, with nothing followed yet. -/
def closureOf (A : Atn) (full eof : Bool) (c : AConfig) : List AConfig := A.closure full eof (A.pathBound c) [] c

/-- `PredictionContextFromRuleContext`: the follow states of the invoking states. -/
def returnStates (A : Atn) (ctx : List Nat) : List Nat := ctx.filterMap fun st =>
  match A.out st with
  | .rule _ _ t :: _ => some t
  | _ => none

/-- The configurations of the alternatives, numbered from `i` (the transitions of decisions are all epsilon transitions). -/
def altConfigs (stk : List Nat) : Nat → List Trans → List AConfig
  | _, [] => []
  | i, .eps s :: ts => { state := s, alt := i, stack := stk, outer := 0 } :: altConfigs stk (i + 1) ts
  | i, _ :: ts => altConfigs stk (i + 1) ts

/-- `computeStartState`: all alternatives of a decision. -/
def startConfigs (A : Atn) (full : Bool) (d : Nat) (stk : List Nat) : AConfigSet :=
  match A.decisions[d]? with
  | none => []
  | some s => .ofList full ((altConfigs stk 1 (A.out s)).flatMap (A.closureOf full false))

/-- Where the configurations can go by consuming a token of type `k`. -/
def consumed (A : Atn) (full : Bool) (S : AConfigSet) (k : Int) : AConfigSet :=
  .ofList full ((S.filter fun c => !A.isStop c.state).flatMap fun c =>
    (A.out c.state).filterMap fun t => (A.matchesTok k t).map fun t' => { c with state := t' })

/-- `computeReachSet`; the empty set where the library returns `None`. -/
def reachSet (A : Atn) (full : Bool) (S : AConfigSet) (k : Int) : AConfigSet :=
  let skipped := S.filter fun c => A.isStop c.state && (full || k = -1)
  let mid := A.consumed full S k
  if skipped.isEmpty && k ≠ -1 && (mid.length = 1 || mid.uniqueAlt.isSome) then mid
  else
    let reach := AConfigSet.ofList full (mid.flatMap (A.closureOf full (k = -1)))
    let reach := if k = -1 then reach.filter fun c => A.isStop c.state else reach
    if !full || !(reach.any fun c => A.isStop c.state) then skipped.foldl (.add full) reach else reach

/-- `PredictionMode.hasSLLConflictTerminatingPrediction`. -/
def sllConflict (A : Atn) (S : AConfigSet) : Bool :=
  (S.all fun c => A.isStop c.state) ||
    (AConfigSet.hasConflict S.conflictingAltSubsets && !S.hasStateWithOneAlt)

/-- `computeTargetState`: what the new state says. -/
def sllVerdict (A : Atn) (S : AConfigSet) : Verdict :=
  if S.isEmpty then .fail
  else
    match S.uniqueAlt with
    | some i => .alt i
    | none => if A.sllConflict S then .full else .more

/-- `getAltThatFinishedDecisionEntryRule`. -/
def finishedAlt (A : Atn) (S : AConfigSet) : Option Nat :=
  match (S.filter fun c => c.outer > 0 || (A.isStop c.state && c.stack.isEmpty)).map (·.alt) with
  | [] => none
  | as => some (AConfigSet.minAlt as)

/-- `execATNWithFullContext`.  Simplified: the library goes on with `EOF` for ever; here prediction fails if it is still
undecided after the last token (`Props/Adaptive.lean`: it never is). -/
def llLoop (A : Atn) : AConfigSet → List Tok → Option Nat
  | _, [] => none
  | S, x :: xs =>
    let reach := A.reachSet true S x.type.num
    if reach.isEmpty then A.finishedAlt S
    else
      match reach.uniqueAlt with
      | some i => some i
      | none =>
        match AConfigSet.resolves reach.conflictingAltSubsets with
        | some i => some i
        | none => A.llLoop reach xs

/-- `LL1Analyzer._LOOK` without context: the token types that may come next inside the rule, and `none`
(`Token.EPSILON`) if its end may.  The rules being called are remembered, and not called again.
Simplified: `lookBusy` is not needed, see `closure`; the complement for a negated set is left out (there is none). -/
def lookSet (A : Atn) : Nat → Nat → List Nat → List Nat → List (Option (List (Int × Int)))
  | 0, _, _, _ => []
  | n + 1, s, stk, called =>
    if A.isStop s then
      match stk with
      | [] => [none]
      | r :: stk => A.lookSet n r stk (called.drop 1)
    else
      (A.out s).flatMap fun
        | .eps t => A.lookSet n t stk called
        | .action _ t => A.lookSet n t stk called
        | .rule start i f => if i ∈ called then [] else A.lookSet n start (f :: stk) (i :: called)
        | .atom k _ => [some [(k, k)]]
        | .set l _ => [some l]
        | .notSet _ _ => []

/-- `DefaultErrorStrategy.sync`, outside of error recovery: the next token is one of `atn.nextTokens(state)`, or the end of
the rule may come next. -/
def syncOk (A : Atn) (st : Nat) (ts : List Tok) : Bool :=
  (A.lookSet (A.states.length + 1) st [] []).any fun
    | none => true
    | some l => l.any fun p => p.1 ≤ la ts && la ts ≤ p.2

/-- `ParserATNSimulator` and `DefaultErrorStrategy.sync`. -/
def simulator (A : Atn) : Simulator AConfigSet where
  start d := A.startConfigs false d []
  target S k := A.reachSet false S k
  verdict S := A.sllVerdict S
  finished S _ := A.finishedAlt S
  fullContext d ctx ts := A.llLoop (A.startConfigs true d (A.returnStates ctx)) ts
  sync st _ ts := A.syncOk st ts

/-- Where `execATNWithFullContext` gives up: the number of tokens read before the one that leads nowhere. -/
def llStop (A : Atn) : AConfigSet → List Tok → Nat
  | _, [] => 0
  | S, x :: xs =>
    let reach := A.reachSet true S x.type.num
    if reach.isEmpty then 0 else A.llStop reach xs + 1

/-- Where `execATN` gives up, before the tokens `look`, of which it has read `n`. -/
def sllStop (A : Atn) (d : Nat) (ctx : List Nat) (ts : List Tok) : List Tok → AConfigSet → Nat → Nat
  | [], _, _ => A.llStop (A.startConfigs true d (A.returnStates ctx)) ts
  | x :: xs, S, n =>
    let reach := A.reachSet false S x.type.num
    match A.sllVerdict reach with
    | .full => A.llStop (A.startConfigs true d (A.returnStates ctx)) ts
    | .more => A.sllStop d ctx ts xs reach (n + 1)
    | _ => n

/-- `NoViableAltException.offendingToken`, when `adaptivePredict` raises: `input.LT(1)` at the time it gives up
(`noViableAlt`), counted from the token at which it was asked. -/
def offending (A : Atn) (d : Nat) (ctx : List Nat) (ts : List Tok) : Nat := A.sllStop d ctx ts ts (A.startConfigs false d []) 0

end Atn

end Fcsql
