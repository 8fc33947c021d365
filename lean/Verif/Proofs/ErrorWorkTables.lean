/-
What the generated functions cost, with error recovery: the tables (found by iteration, checked here).
-/
import Verif.Proofs.ErrorWorkScan

set_option autoImplicit false

namespace Fcsql

/-- The bounds of a function: for most keys, and for the others (100 is `within` with a token that cannot come after a name). -/
structure WorkRow where
  now : Nat
  gain : Int
  others : List (Int × Nat × Int)

/-- The bounds for a key. -/
def WorkRow.at (r : WorkRow) (k : DKey) : Nat × Int := (r.others.lookup (if k.2 then 100 else keyNum k.1)).getD (r.now, r.gain)

/-- A bound for all keys. -/
def WorkRow.top (r : WorkRow) : Nat := (r.others.map fun x => max x.2.1 (-x.2.2).toNat).foldl max (max r.now (-r.gain).toNat)

/-- Tables from rows. -/
def ratesOf (w : Stmt → Nat) (C : Nat) (rows : Rule → WorkRow) : Rates :=
  ⟨w, fun r k => ((rows r).at k).1, fun r k => ((rows r).at k).2, fun r => (rows r).top, C⟩

/-- A statement that asks for a prediction counts. -/
def predWeight : Stmt → Nat
  | .predict _ _ => 1
  | .loopPredict _ _ _ => 1
  | _ => 0

/-- A statement that calls a rule function counts. -/
def callWeight : Stmt → Nat
  | .call _ _ => 1
  | _ => 0

/-- Every statement counts. -/
def stepWeight : Stmt → Nat := fun _ => 1

/-- Predictions. -/
def predRow : Rule → WorkRow
  | .query => ⟨1, 19, [(1, 3, 15), (3, 3, 12), (23, 3, 12)]⟩
  | .main_query => ⟨1, 19, [(1, 3, 15), (3, 3, 12), (23, 3, 12)]⟩
  | .query_disjunction => ⟨2, 19, [(1, 2, 16), (3, 2, 13), (5, 1, 19), (23, 2, 13)]⟩
  | .query_sequence => ⟨0, 22, [(1, 0, 19), (3, 0, 16), (23, 0, 16)]⟩
  | .query_group => ⟨0, 19, []⟩
  | .query_simple => ⟨0, 16, []⟩
  | .quantifier => ⟨0, 21, []⟩
  | .query_implicit => ⟨0, 22, []⟩
  | .query_segment => ⟨0, 16, [(100, 1, 16), (1, 4, 1), (7, 4, 1), (18, 6, 5), (19, 6, 5), (20, 6, 5), (21, 6, 5)]⟩
  | .within_part => ⟨0, 22, []⟩
  | .within_part_simple => ⟨0, 22, []⟩
  | .expression => ⟨1, 16, [(1, 4, 1), (7, 4, 1), (18, 6, 5), (19, 6, 5), (20, 6, 5), (21, 6, 5)]⟩
  | .expression_or => ⟨3, 12, [(1, 3, 2), (5, 1, 12), (7, 3, 2), (18, 5, 6), (19, 5, 6), (20, 5, 6), (21, 5, 6)]⟩
  | .expression_and => ⟨1, 14, [(100, 3, 8), (1, 0, 9), (7, 0, 9)]⟩
  | .expression_group => ⟨0, 16, []⟩
  | .expression_not => ⟨0, 16, []⟩
  | .expression_basic => ⟨1, 21, []⟩
  | .attribute_ => ⟨1, 21, []⟩
  | .qualifier => ⟨0, 22, []⟩
  | .identifier => ⟨0, 22, []⟩
  | .regexp => ⟨0, 22, []⟩
  | .regexp_pattern => ⟨0, 22, []⟩
  | .regexp_flag => ⟨0, 22, []⟩

/-- Calls of rule functions. -/
def callRow : Rule → WorkRow
  | .query => ⟨1, 20, [(1, 6, 5), (3, 8, 2), (23, 12, 0)]⟩
  | .main_query => ⟨0, 23, [(1, 5, 8), (3, 7, 5), (23, 11, 3)]⟩
  | .query_disjunction => ⟨0, 24, [(1, 4, 9), (3, 6, 6), (23, 10, 4)]⟩
  | .query_sequence => ⟨0, 26, [(1, 1, 17), (3, 2, 15), (23, 4, 15)]⟩
  | .query_group => ⟨0, 22, []⟩
  | .query_simple => ⟨0, 20, [(3, 1, 20), (23, 3, 20)]⟩
  | .quantifier => ⟨0, 34, []⟩
  | .query_implicit => ⟨2, 31, []⟩
  | .query_segment => ⟨0, 22, [(100, 1, 22), (1, 6, -1), (7, 6, -1), (18, 12, 2), (19, 12, 2), (20, 12, 2), (21, 12, 2)]⟩
  | .within_part => ⟨1, 33, []⟩
  | .within_part_simple => ⟨0, 34, []⟩
  | .expression => ⟨0, 23, [(1, 5, 0), (7, 5, 0), (18, 11, 3), (19, 11, 3), (20, 11, 3), (21, 11, 3)]⟩
  | .expression_or => ⟨0, 20, [(1, 4, 1), (7, 4, 1), (18, 10, 4), (19, 10, 4), (20, 10, 4), (21, 10, 4)]⟩
  | .expression_and => ⟨4, 17, [(100, 6, 6), (1, 1, 11), (7, 1, 11)]⟩
  | .expression_group => ⟨0, 23, []⟩
  | .expression_not => ⟨0, 23, []⟩
  | .expression_basic => ⟨4, 29, [(100, 5, 28), (15, 2, 29), (16, 2, 29), (18, 3, 29), (19, 3, 29), (20, 3, 29), (21, 3, 29)]⟩
  | .attribute_ => ⟨1, 32, [(100, 2, 32), (18, 2, 32), (19, 2, 32), (20, 2, 32), (21, 2, 32)]⟩
  | .qualifier => ⟨0, 34, []⟩
  | .identifier => ⟨0, 34, []⟩
  | .regexp => ⟨1, 32, []⟩
  | .regexp_pattern => ⟨0, 34, []⟩
  | .regexp_flag => ⟨0, 34, []⟩

/-- All statements. -/
def stepRow : Rule → WorkRow
  | .query => ⟨6, 85, [(1, 30, 20), (3, 36, 13), (23, 40, 11)]⟩
  | .main_query => ⟨2, 93, [(1, 26, 28), (3, 32, 21), (23, 36, 19)]⟩
  | .query_disjunction => ⟨9, 90, [(1, 23, 31), (3, 29, 24), (5, 5, 90), (23, 33, 22)]⟩
  | .query_sequence => ⟨4, 104, [(1, 6, 66), (3, 9, 62), (23, 11, 62)]⟩
  | .query_group => ⟨1, 85, []⟩
  | .query_simple => ⟨2, 81, [(3, 4, 81), (23, 6, 81)]⟩
  | .quantifier => ⟨2, 118, [(9, 3, 118), (11, 3, 118), (12, 3, 118), (13, 3, 118)]⟩
  | .query_implicit => ⟨5, 121, [(8, 6, 121), (23, 3, 121)]⟩
  | .query_segment => ⟨4, 90, [(100, 7, 90), (1, 27, -1), (3, 1, 90), (7, 27, 0), (18, 39, 14), (19, 39, 14), (20, 39, 14), (21, 39, 14)]⟩
  | .within_part => ⟨2, 127, []⟩
  | .within_part_simple => ⟨1, 128, []⟩
  | .expression => ⟨2, 95, [(1, 22, 4), (7, 22, 5), (18, 34, 19), (19, 34, 19), (20, 34, 19), (21, 34, 19)]⟩
  | .expression_or => ⟨9, 67, [(1, 19, 7), (5, 5, 67), (7, 19, 8), (18, 31, 22), (19, 31, 22), (20, 31, 22), (21, 31, 22)]⟩
  | .expression_and => ⟨10, 72, [(100, 23, 37), (1, 4, 51), (7, 4, 52)]⟩
  | .expression_group => ⟨1, 93, []⟩
  | .expression_not => ⟨1, 94, []⟩
  | .expression_basic => ⟨11, 114, [(100, 13, 113), (8, 12, 114), (15, 6, 114), (16, 6, 114), (18, 7, 114), (19, 7, 114), (20, 7, 114), (21, 7, 114), (23, 9, 114)]⟩
  | .attribute_ => ⟨4, 122, [(100, 6, 122), (18, 6, 122), (19, 6, 122), (20, 6, 122), (21, 6, 122)]⟩
  | .qualifier => ⟨1, 128, []⟩
  | .identifier => ⟨1, 128, []⟩
  | .regexp => ⟨4, 122, [(8, 5, 122), (23, 2, 122)]⟩
  | .regexp_pattern => ⟨1, 128, []⟩
  | .regexp_flag => ⟨1, 128, []⟩

def predRates : Rates := ratesOf predWeight 22 predRow
def callRates : Rates := ratesOf callWeight 34 callRow
def stepRates : Rates := ratesOf stepWeight 129 stepRow

theorem predRates_sane : predRates.sane = true := by decide +kernel
theorem predRates_right : predRates.right = true := by decide +kernel
theorem callRates_sane : callRates.sane = true := by decide +kernel
theorem callRates_right : callRates.right = true := by decide +kernel
theorem stepRates_sane : stepRates.sane = true := by decide +kernel
theorem stepRates_right : stepRates.right = true := by decide +kernel

end Fcsql
