/-
How much is kept between the calls of a process: the number of different entries in the shared tables.
-/
import Verif.Model.Cache
import Verif.Model.LexerCache

set_option autoImplicit false

namespace Fcsql

/-- The keys under which something is stored in the parser's tables: a start state, or an edge of a state. -/
def Caches.keys {τ : Type} (c : Caches τ) : List (Nat × Option (τ × Int)) := c.dfas.map (·.1)

/-- At least `B` different entries are stored in the parser's tables. -/
def Caches.HoldsAtLeast {τ : Type} (c : Caches τ) (B : Nat) : Prop :=
  ∃ l : List (Nat × Option (τ × Int)), l.Nodup ∧ l.length = B ∧ ∀ a ∈ l, a ∈ c.keys

/-- The other threads take nothing out of the parser's tables. -/
def Others.Keeps {τ : Type} (env : Others τ) : Prop := ∀ n c a, a ∈ c.keys → a ∈ (env n c).keys

/-- There are no other threads. -/
def Others.alone (τ : Type) : Others τ := fun _ c => c

/-- All edges stored in the lexer's table are among these. -/
def LexDfa.Within (d : LexDfa) (l : List (List LConf × Int)) : Prop := ∀ e ∈ d.edges, e.1 ∈ l

/-- At most `B` different edges are stored in the lexer's table. -/
def LexDfa.HoldsAtMost (d : LexDfa) (B : Nat) : Prop :=
  ∃ l : List (List LConf × Int), l.length ≤ B ∧ d.Within l

/-- What is stored after lexers have read several texts, one after the other. -/
def lexAll (A : Atn) (m : Nat) (env : LexOthers) : List PyStr → LexDfa → Option LexDfa
  | [], d => some d
  | q :: qs, d =>
    match runLexerC A m q env d with
    | none => none
    | some (_, d) => lexAll A m env qs d

end Fcsql
