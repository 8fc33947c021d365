/-
Which types of tokens can be neighbours in a derivation.
-/
import Verif.Proofs.GenParser

set_option autoImplicit false
set_option linter.unusedSimpArgs false

namespace Fcsql

/-- Token types a rule can end with. -/
def lastOf : Rule → List Int
  | .query => [-1] | .main_query => [2, 4, 10, 11, 12, 13, 20, 23] | .query_disjunction => [2, 4, 10, 11, 12, 13, 20, 23]
  | .query_sequence => [2, 4, 10, 11, 12, 13, 20, 23] | .query_group => [2, 10, 11, 12, 13]
  | .query_simple => [4, 10, 11, 12, 13, 20, 23] | .quantifier => [10, 11, 12, 13]
  | .query_implicit => [20, 23] | .query_segment => [4] | .within_part => [19] | .within_part_simple => [19]
  | .expression => [2, 20, 23] | .expression_or => [2, 20, 23]
  | .expression_and => [2, 20, 23] | .expression_group => [2] | .expression_not => [2, 20, 23]
  | .expression_basic => [20, 23] | .attribute_ => [18, 19, 20, 21] | .qualifier => [18, 19, 20, 21]
  | .identifier => [18, 19, 20, 21] | .regexp => [20, 23] | .regexp_pattern => [23] | .regexp_flag => [20]

/-- Token types an expression can end with. -/
def G.last : G → List Int
  | .eps => []
  | .tok t => [t.num]
  | .rule r => lastOf r
  | .seq a b => b.last ++ if b.nullable then a.last else []
  | .alt a b => a.last ++ b.last
  | .star a => a.last

theorem lastOf_body (r : Rule) : ∀ k ∈ (body r).last, k ∈ lastOf r := by cases r <;> decide

theorem last_of_D {g : G} {ts : List Tok} {f : List PTree} {c : List Bool} (h : D g ts f c) {x : Tok} {xs : List Tok}
    (e : ts = xs ++ [x]) : x.type.num ∈ g.last := by
  have snoc : ∀ {ts ts' xs : List Tok} {x : Tok}, ts ++ ts' = xs ++ [x] →
      (ts' = [] ∧ ts = xs ++ [x]) ∨ ∃ ys, ts' = ys ++ [x] := by
    intro ts ts' xs x e
    rcases List.eq_nil_or_concat ts' with rfl | ⟨ys, z, rfl⟩
    · exact .inl ⟨rfl, by simpa using e⟩
    · right
      rw [List.concat_eq_append, ← List.append_assoc] at e
      have := (List.append_inj' e rfl).2
      cases this
      exact ⟨ys, by simp⟩
  induction h generalizing x xs with
  | eps => simp at e
  | @tok t y h =>
    have : [y] = xs ++ [x] := e
    rcases snoc (ts := []) (by simpa using this) with ⟨h1, -⟩ | ⟨ys, h1⟩
    · cases h1
    · cases ys with
      | nil => cases h1; simp [G.last, h]
      | cons => simp at h1
  | rule _ ih => exact lastOf_body _ _ (ih e)
  | seq h h' ih ih' =>
    simp only [G.last, List.mem_append]
    rcases snoc e with ⟨rfl, h1⟩ | ⟨ys, h1⟩
    · right
      rw [nullable_of_D h' rfl]
      exact ih h1
    · exact .inl (ih' h1)
  | altL _ ih => simp [G.last, ih e]
  | altR _ ih => simp [G.last, ih e]
  | starNil => simp at e
  | starCons h h' ih ih' =>
    rcases snoc e with ⟨rfl, h1⟩ | ⟨ys, h1⟩
    · exact ih h1
    · exact ih' h1

def pairsOf (l m : List Int) : List (Int × Int) := l.flatMap fun a => m.map fun b => (a, b)

theorem mem_pairsOf {l m : List Int} {a b : Int} : (a, b) ∈ pairsOf l m ↔ a ∈ l ∧ b ∈ m := by
  simp [pairsOf]

/-- Neighbours that meet in an expression. -/
def G.pairs : G → List (Int × Int)
  | .eps => []
  | .tok _ => []
  | .rule _ => []
  | .seq a b => a.pairs ++ b.pairs ++ pairsOf a.last b.first
  | .alt a b => a.pairs ++ b.pairs
  | .star a => a.pairs ++ pairsOf a.last a.first

/-- All rules. -/
def everyRule : List Rule :=
  [.query, .main_query, .query_disjunction, .query_sequence, .query_group, .query_simple, .quantifier, .query_implicit,
    .query_segment, .within_part, .within_part_simple, .expression, .expression_or, .expression_and, .expression_group,
    .expression_not, .expression_basic, .attribute_, .qualifier, .identifier, .regexp, .regexp_pattern, .regexp_flag]

/-- All neighbours. -/
def neighbours : List (Int × Int) := everyRule.flatMap fun r => (body r).pairs

theorem pairs_body (r : Rule) : ∀ p ∈ (body r).pairs, p ∈ neighbours := by
  intro p hp
  exact List.mem_flatMap.2 ⟨r, by cases r <;> decide, hp⟩

theorem adjacent_append {u v pre post : List Tok} {x y : Tok} (e : u ++ v = pre ++ x :: y :: post) :
    (∃ q, u = pre ++ x :: y :: q) ∨ (∃ q, v = q ++ x :: y :: post) ∨ (u = pre ++ [x] ∧ v = y :: post) := by
  induction u generalizing pre with
  | nil => exact .inr (.inl ⟨pre, by simpa using e⟩)
  | cons a u ih =>
    cases pre with
    | nil =>
      simp only [List.cons_append, List.nil_append, List.cons.injEq] at e
      obtain ⟨rfl, e⟩ := e
      cases u with
      | nil => exact .inr (.inr ⟨rfl, by simpa using e⟩)
      | cons b u =>
        simp only [List.cons_append, List.cons.injEq] at e
        obtain ⟨rfl, e⟩ := e
        exact .inl ⟨u, rfl⟩
    | cons b pre =>
      simp only [List.cons_append, List.cons.injEq] at e
      obtain ⟨rfl, e⟩ := e
      rcases ih e with ⟨q, h⟩ | ⟨q, h⟩ | ⟨h, h'⟩
      · exact .inl ⟨q, by rw [h]; rfl⟩
      · exact .inr (.inl ⟨q, h⟩)
      · exact .inr (.inr ⟨by rw [h]; rfl, h'⟩)

theorem adjacent_of_D {g : G} {ts : List Tok} {f : List PTree} {c : List Bool} (h : D g ts f c) {pre post : List Tok} {x y : Tok}
    (e : ts = pre ++ x :: y :: post) : (x.type.num, y.type.num) ∈ g.pairs ++ neighbours := by
  induction h generalizing pre post x y with
  | eps => simp at e
  | tok =>
    have := congrArg List.length e
    simp at this
    omega
  | rule _ ih =>
    rcases List.mem_append.1 (ih e) with h | h
    · exact List.mem_append_right _ (pairs_body _ _ h)
    · exact List.mem_append_right _ h
  | @seq a b ts ts' f f' c c' h h' ih ih' =>
    rcases adjacent_append e with ⟨q, h1⟩ | ⟨q, h1⟩ | ⟨h1, h2⟩
    · rcases List.mem_append.1 (ih h1) with h | h <;> simp [G.pairs, h]
    · rcases List.mem_append.1 (ih' h1) with h | h <;> simp [G.pairs, h]
    · have := mem_pairsOf.2 ⟨last_of_D h h1, first_of_D h' h2⟩
      simp [G.pairs, this]
  | altL _ ih => rcases List.mem_append.1 (ih e) with h | h <;> simp [G.pairs, h]
  | altR _ ih => rcases List.mem_append.1 (ih e) with h | h <;> simp [G.pairs, h]
  | starNil => simp at e
  | @starCons a ts ts' f f' c c' h h' ih ih' =>
    rcases adjacent_append e with ⟨q, h1⟩ | ⟨q, h1⟩ | ⟨h1, h2⟩
    · rcases List.mem_append.1 (ih h1) with h | h <;> simp [G.pairs, h]
    · exact ih' h1
    · have : (x.type.num, y.type.num) ∈ pairsOf a.last a.first := mem_pairsOf.2 ⟨last_of_D h h1, first_of_D h' h2⟩
      simp [G.pairs, this]

end Fcsql
