/-
What statements cost, with error recovery: static bounds.

A weight is given for every statement.  Before a token is consumed, statements cost at most `now` (for every key); when they consume
tokens, each one pays `C`, and `gain` is left over after all that was done, and after all that is still done in late mode (`wlL`)
between the tokens.
-/
import Verif.Proofs.PendingScan

set_option autoImplicit false
set_option linter.unusedSimpArgs false

namespace Fcsql

/-- Cost before a token is consumed; what is left over when one is consumed. -/
structure Cost where
  now : Nat
  gain : Int
  deriving DecidableEq, Repr

/-- The tables: the weight of a statement; for every function and key the two bounds; for every function a bound for all keys; what a
token pays. -/
structure Rates where
  w : Stmt → Nat
  now : Rule → DKey → Nat
  gain : Rule → DKey → Int
  top : Rule → Nat
  C : Nat

section
variable (R : Rates)
mutual
/-- Cost of statements, whatever the key, when each token pays `C` and nothing is left over. -/
def wlS : Stmt → Nat
  | .sync st => R.w (.sync st)
  | .matchTok st j => R.w (.matchTok st j)
  | .matchSet st t => R.w (.matchSet st t)
  | .call st r => R.w (.call st r) + R.top r
  | .predict d bs => R.w (.predict d bs) + wlBs bs
  | .switchLA cs => R.w (.switchLA cs) + wlCs cs
  | .ifLA t b => R.w (.ifLA t b) + wlL b
  | .whileLA b st t => R.w (.whileLA b st t) + wlL b + R.w (.sync st) + R.w (.ifLA t [.whileLA b st t])
  | .whilePredict b st d => R.w (.whilePredict b st d) + wlL b + R.w (.sync st) + R.w (.loopPredict b st d)
  | .loopPredict b st d => R.w (.whilePredict b st d) + wlL b + R.w (.sync st) + R.w (.loopPredict b st d)
def wlL : List Stmt → Nat
  | [] => 0
  | c :: ss => wlS c + wlL ss
def wlBs : List (List Stmt) → Nat
  | [] => 0
  | b :: bs => max (wlL b) (wlBs bs)
def wlCs : List (List Int × List Stmt) → Nat
  | [] => 0
  | (_, b) :: cs => max (wlL b) (wlCs cs)
end

/-- First one thing, then another one. -/
def Cost.andThen (fin : Bool) (late : Nat) (a b : Cost) : Cost :=
  if fin then ⟨a.now + b.now, min (a.gain - late) (b.gain - a.now)⟩ else ⟨a.now, a.gain - late⟩

/-- The unrolled loop. -/
def Cost.loop (fin : Bool) (C : Nat) (w w1 w2 late : Nat) (b : Cost) : Cost :=
  ⟨w + b.now + (if fin then w1 + w2 else 0), min b.gain (C - b.now) - w - late⟩

section
variable (k : DKey)
mutual
/-- Cost of statements at a key. -/
def costS : Stmt → Cost
  | .sync st => ⟨R.w (.sync st), R.C - R.w (.sync st)⟩
  | .matchTok st j => ⟨R.w (.matchTok st j), R.C - R.w (.matchTok st j)⟩
  | .matchSet st t => ⟨R.w (.matchSet st t), R.C - R.w (.matchSet st t)⟩
  | .call st r => ⟨R.w (.call st r) + R.now r k, R.gain r k - R.w (.call st r)⟩
  | .predict d bs => ⟨R.w (.predict d bs) + (costBs d 1 bs).now, (costBs d 1 bs).gain - R.w (.predict d bs)⟩
  | .switchLA cs => ⟨R.w (.switchLA cs) + (costCs cs).now, (costCs cs).gain - R.w (.switchLA cs)⟩
  | .ifLA t b =>
    if t.eval (keyNum k.1) then ⟨R.w (.ifLA t b) + (costL b).now, (costL b).gain - R.w (.ifLA t b)⟩
    else ⟨R.w (.ifLA t b), R.C - R.w (.ifLA t b)⟩
  | .whileLA b st t => Cost.loop (nowL k b).fin R.C (R.w (.whileLA b st t)) (R.w (.sync st)) (R.w (.ifLA t [.whileLA b st t]))
      (R.w (.sync st) + (R.w (.ifLA t [.whileLA b st t]) + wlS R (.whileLA b st t))) (costL b)
  | .whilePredict b st d => Cost.loop (nowL k b).fin R.C (R.w (.whilePredict b st d)) (R.w (.sync st)) (R.w (.loopPredict b st d))
      (R.w (.sync st) + wlS R (.loopPredict b st d)) (costL b)
  | .loopPredict b st d =>
    let c := Cost.loop (nowL k b).fin R.C (R.w (.whilePredict b st d)) (R.w (.sync st)) (R.w (.loopPredict b st d))
      (R.w (.sync st) + wlS R (.loopPredict b st d)) (costL b)
    if altOpen d 1 k then ⟨R.w (.loopPredict b st d) + c.now, c.gain - R.w (.loopPredict b st d)⟩
    else ⟨R.w (.loopPredict b st d), R.C - R.w (.loopPredict b st d)⟩
def costL : List Stmt → Cost
  | [] => ⟨0, R.C⟩
  | c :: ss => Cost.andThen (nowS k c).fin (wlL R ss) (costS c) (costL ss)
def costBs (d : Nat) : Nat → List (List Stmt) → Cost
  | _, [] => ⟨0, R.C⟩
  | i, b :: bs => if altOpen d i k then ⟨max (costL b).now (costBs d (i + 1) bs).now, min (costL b).gain (costBs d (i + 1) bs).gain⟩
    else costBs d (i + 1) bs
def costCs : List (List Int × List Stmt) → Cost
  | [] => ⟨0, R.C⟩
  | (ks, b) :: cs => if keyNum k.1 ∈ ks then costL b else costCs cs
end
end

/-- A loop body can be paid, and consumes a token when it is run again. -/
def fitLoop (over : Nat) (again : DKey → Bool) (b : List Stmt) : Bool := nowKeys.all fun k =>
  decide ((over : Int) ≤ (costL R k b).gain) && decide ((over + (costL R k b).now : Int) ≤ R.C) && (!again k || !(nowL k b).fin)

mutual
/-- All loops are such. -/
def fitS : Stmt → Bool
  | .sync _ | .matchTok _ _ | .matchSet _ _ | .call _ _ => true
  | .predict _ bs => fitBs bs
  | .switchLA cs => fitCs cs
  | .ifLA _ b => fitL b
  | .whileLA b st t => fitL b && fitLoop R (R.w (.whileLA b st t) + R.w (.sync st) + R.w (.ifLA t [.whileLA b st t])) (fun k => t.eval (keyNum k.1)) b
  | .whilePredict b st d => fitL b && fitLoop R (R.w (.whilePredict b st d) + R.w (.sync st) + R.w (.loopPredict b st d)) (altOpen d 1) b
  | .loopPredict b st d => fitL b && fitLoop R (R.w (.whilePredict b st d) + R.w (.sync st) + R.w (.loopPredict b st d)) (altOpen d 1) b
def fitL : List Stmt → Bool
  | [] => true
  | c :: ss => fitS c && fitL ss
def fitBs : List (List Stmt) → Bool
  | [] => true
  | b :: bs => fitL b && fitBs bs
def fitCs : List (List Int × List Stmt) → Bool
  | [] => true
  | (_, b) :: cs => fitL b && fitCs cs
end

/-- The tables agree with one another. -/
def Rates.sane : Bool := allRules.all fun r => nowKeys.all fun k =>
  decide (R.now r k ≤ R.top r) && decide (-(R.top r : Int) ≤ R.gain r k) && decide (R.now r k + R.gain r k ≤ R.C)

/-- The tables are right about the generated functions. -/
def Rates.right : Bool := allRules.all fun r => fitL R (code r) && nowKeys.all fun k => !calledAt r k.1 ||
    (decide ((costL R k (code r)).now ≤ R.now r k) && decide (R.gain r k ≤ (costL R k (code r)).gain))
end

end Fcsql
