/-
What is assumed of the runtime library's simulation of the parser network, in terms of the network alone; and what a
harmless content of the shared caches is.
-/
import Verif.Model.Cache
import Verif.Spec.GenParser

set_option autoImplicit false

namespace Fcsql

/-- The state reached for decision `d` after tokens of the types `u`. -/
def Simulator.after {τ : Type} (sim : Simulator τ) (d : Nat) (u : List Int) : τ := u.foldl sim.target (sim.start d)

/-- The simulation is right about network `A`.  A verdict reached after looking at some of the next tokens holds for
every continuation and every calling context; the repetition with context finds the least viable alternative; and
answers are numbers of alternatives that exist. -/
structure Simulator.Correct {τ : Type} (sim : Simulator τ) (A : Atn) : Prop where
  alt : ∀ d u i, sim.verdict (sim.after d u) = .alt i → ∀ ctx ts j, u <+: ts.map (fun t => t.type.num) → ViableAlt A d ctx ts j → j = i
  fail : ∀ d u, sim.verdict (sim.after d u) = .fail → ∀ ctx ts j, u <+: ts.map (fun t => t.type.num) → ¬ ViableAlt A d ctx ts j
  full : ∀ d ctx ts i, ViableAlt A d ctx ts i → (∀ j, j < i → ¬ ViableAlt A d ctx ts j) → sim.fullContext d ctx ts = some i
  altRange : ∀ d u i s, sim.verdict (sim.after d u) = .alt i → A.decisions[d]? = some s → 1 ≤ i ∧ i ≤ (A.out s).length
  finishedRange : ∀ d u ctx i s, sim.finished (sim.after d u) ctx = some i → A.decisions[d]? = some s → 1 ≤ i ∧ i ≤ (A.out s).length
  fullRange : ∀ d ctx ts i s, sim.fullContext d ctx ts = some i → A.decisions[d]? = some s → 1 ≤ i ∧ i ≤ (A.out s).length
  sync : ∀ st ctx ts, Expected A st (la ts) → sim.sync st ctx ts = true

/-- Every stored entry is what the simulation would compute. -/
def Caches.Right {τ : Type} (sim : Simulator τ) (c : Caches τ) : Prop :=
  (∀ p ∈ c.dfas, p.2 = sim.stored p.1) ∧ (∀ p ∈ c.lexDfa, p.2 = lexTarget p.1)

/-- Whatever the other threads do, they do not store anything else. -/
def Others.Fair {τ : Type} (sim : Simulator τ) (env : Others τ) : Prop := ∀ n c, c.Right sim → (env n c).Right sim

/-- The result of a call when there are no caches and no other threads (C09-C11; C12-C14). -/
def ParseCall.answer (rt : Runtime) : ParseCall → ParseResult
  | .antlr q => .ofTree (antlrParse q)
  | .parse cfg q => .ofNode (parseQuery rt cfg q).1

end Fcsql
