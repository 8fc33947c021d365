/-
Runs with error recovery come to an end.

While no token is consumed, the next token is the same; `scan` says, for every possible next token, which rule functions
statements can call, and whether they can go on or raise, before a token is consumed.  A rule function only calls
functions of lower weight in this phase, and a loop that goes round once more has consumed a token.  An exception that is
caught also counts as consumption (of patience), except at `EOF`.
-/
import Verif.Proofs.Recovery
import Verif.Proofs.Look

set_option autoImplicit false
set_option linter.unusedSimpArgs false

namespace Fcsql

/-- The type of the next token, if there is one. -/
def nextType (ts : List Tok) : Option TokType := ts.head?.map Tok.type

/-- Its number. -/
def keyNum : Option TokType → Int
  | none => -1
  | some t => t.num

theorem la_keyNum (ts : List Tok) : la ts = keyNum (nextType ts) := by cases ts <;> rfl

/-- What can happen before a token is consumed: functions called; to go on after the statement; an exception. -/
structure Zero where
  calls : List Rule
  fin : Bool
  raise : Bool
  deriving DecidableEq, Repr

/-- First one thing, then another one (if the first can go on). -/
def Zero.andThen (a b : Zero) : Zero := if a.fin then ⟨a.calls ++ b.calls, b.fin, a.raise || b.raise⟩ else a

/-- What is known about the functions: can the function of a rule return without consuming a token; can an
alternative be predicted. -/
structure ScanTab where
  silent : Rule → Option TokType → Bool
  alt : Nat → Nat → Option TokType → Bool

section
variable (T : ScanTab) (k : Option TokType)

mutual
def scanS : Stmt → Zero
  | .sync _ => ⟨[], true, true⟩
  | .matchTok _ j => if k.any (fun t => t.num = j) then ⟨[], false, false⟩ else ⟨[], true, true⟩
  | .matchSet _ t => if k.any (fun ty => t.eval ty.num) then ⟨[], false, false⟩ else ⟨[], true, true⟩
  | .call _ r => ⟨[r], T.silent r k, false⟩
  | .predict d bs => ⟨scanBs d 1 bs, true, true⟩
  | .switchLA cs => scanCs cs
  | .ifLA t b => if t.eval (keyNum k) then scanL b else ⟨[], true, false⟩
  | .whileLA b _ _ => ⟨(scanL b).calls, (scanL b).fin, true⟩
  | .whilePredict b _ _ => ⟨(scanL b).calls, (scanL b).fin, true⟩
  | .loopPredict b _ d => ⟨if T.alt d 1 k then (scanL b).calls else [], true, true⟩
def scanL : List Stmt → Zero
  | [] => ⟨[], true, false⟩
  | c :: ss => (scanS c).andThen (scanL ss)
def scanBs (d : Nat) : Nat → List (List Stmt) → List Rule
  | _, [] => []
  | i, b :: bs => (if T.alt d i k then (scanL b).calls else []) ++ scanBs d (i + 1) bs
def scanCs : List (List Int × List Stmt) → Zero
  | [] => ⟨[], false, true⟩
  | (ks, b) :: cs => if keyNum k ∈ ks then scanL b else scanCs cs
end

end

/-- All possible next tokens. -/
def allKeys : List (Option TokType) := none :: Atn.allTypes.map some

theorem mem_allKeys (k : Option TokType) : k ∈ allKeys := by
  cases k with
  | none => simp [allKeys]
  | some t => exact List.mem_cons_of_mem _ (List.mem_map_of_mem (Atn.mem_allTypes t))

mutual
/-- Loops consume a token before they go round again. -/
def prodS (T : ScanTab) : Stmt → Bool
  | .predict _ bs => prodBs T bs
  | .switchLA cs => prodCs T cs
  | .ifLA _ b => prodL T b
  | .whileLA b _ t => prodL T b && allKeys.all fun k => !((scanL T k b).fin && t.eval (keyNum k))
  | .whilePredict b _ d => prodL T b && allKeys.all fun k => !((scanL T k b).fin && T.alt d 1 k)
  | .loopPredict _ _ _ => false
  | _ => true
def prodL (T : ScanTab) : List Stmt → Bool
  | [] => true
  | c :: ss => prodS T c && prodL T ss
def prodBs (T : ScanTab) : List (List Stmt) → Bool
  | [] => true
  | b :: bs => prodL T b && prodBs T bs
def prodCs (T : ScanTab) : List (List Int × List Stmt) → Bool
  | [] => true
  | (_, b) :: cs => prodL T b && prodCs T cs
end

/-- A token that can be skipped. -/
def solid : Option TokType → Bool
  | none => false
  | some t => t ≠ .EOF

/-- What is claimed of the tables. -/
structure ScanTab.Ok {σ : Type} (T : ScanTab) (S : Strategy σ) (prog : Rule → List Stmt) : Prop where
  silent : ∀ r k, T.silent r k = false →
    (scanL T k (prog r)).fin = false ∧ ((scanL T k (prog r)).raise = false ∨ solid k = true)
  alt : ∀ d ctx ts a, S.predict d ctx ts = some a → T.alt d a (nextType ts) = true

end Fcsql
