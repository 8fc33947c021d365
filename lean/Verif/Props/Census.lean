/-
C98: the tree of a query, counted against its tokens: one comparison per literal, one operator or bracket per node; its size.
-/
import Verif.Proofs.Census
import Verif.Props.Depth
import Verif.Props.Validation
import Verif.Props.Examples

set_option autoImplicit false
set_option linter.unusedSimpArgs false

namespace Fcsql

variable {X : Type}

attribute [local irreducible] parserAtn parseQuery lexerAtn lexPieces

/-! ### One comparison per literal -/

/-- **C98.** The comparisons of the tree are, from left to right, those its literals stand for: each with the qualifier, the
identifier and the operator written before the literal (or else the defaults), the literal's characters with the escapes
resolved and the configured normalisation applied, and the flags written after it. -/
theorem C98_comparisons (rt : Runtime) (cfg : Config) (q : PyStr) (n : Node) (h : (parseQuery rt cfg q).1 = .ok n) :
    List.Forall₂ (Literal.Means rt.toPyRuntime cfg) (literals (tokenStream q)) (n.all .Expression) := by
  obtain ⟨-, cst, hs, hd⟩ := (parse_ok rt cfg q n).1 h
  have := CQuery.reads hs.wf hd
  rwa [hs.leaves] at this

/-! ### Counting -/

theorem total_count (c : Clazz) (ns : List Node) :
    total (fun k _ => if k.clazz = c then 1 else 0) ns = ((ns.filter fun m => m.kind.clazz = c).length : Int) := by
  induction ns with
  | nil => rfl
  | cons n ns ih =>
    simp only [total, List.map_cons, List.sum_cons] at ih ⊢
    rw [ih, List.filter_cons]
    by_cases hc : n.kind.clazz = c <;> simp [hc]; omega

theorem total_joints (c : Clazz) (ns : List Node) :
    total (fun k a => if k.clazz = c then ((a - 1 : Nat) : Int) else 0) ns =
      ((((ns.filter fun m => m.kind.clazz = c).map fun m => m.children.length - 1).sum : Nat) : Int) := by
  induction ns with
  | nil => rfl
  | cons n ns ih =>
    simp only [total, List.map_cons, List.sum_cons] at ih ⊢
    rw [ih, List.filter_cons]
    by_cases hc : n.kind.clazz = c <;> simp [hc]

theorem total_add (w w' : Kind → Nat → Int) (ns : List Node) :
    total (fun k a => w k a + w' k a) ns = total w ns + total w' ns := by
  induction ns with
  | nil => rfl
  | cons n ns ih =>
    simp only [total, List.map_cons, List.sum_cons] at ih ⊢
    omega

theorem weigh_count (t : TokType) (ts : List Tok) : weigh (fun x => if x = t then 1 else 0) ts = (countTok t ts : Int) := by
  induction ts with
  | nil => rfl
  | cons x ts ih =>
    simp only [weigh, countTok, List.map_cons, List.sum_cons] at ih ⊢
    rw [ih, List.filter_cons]
    by_cases hc : x.type = t <;> simp [hc]; omega

theorem weigh_add (g g' : TokType → Int) (ts : List Tok) : weigh (fun x => g x + g' x) ts = weigh g ts + weigh g' ts := by
  induction ts with
  | nil => rfl
  | cons n ns ih =>
    simp only [weigh, List.map_cons, List.sum_cons] at ih ⊢
    omega

theorem weigh_sub (g g' : TokType → Int) (ts : List Tok) : weigh (fun x => g x - g' x) ts = weigh g ts - weigh g' ts := by
  induction ts with
  | nil => rfl
  | cons n ns ih =>
    simp only [weigh, List.map_cons, List.sum_cons] at ih ⊢
    omega

/-- The indicator of a class. -/
abbrev isA (c : Clazz) : Kind → Nat → Int := fun k _ => if k.clazz = c then 1 else 0
/-- The operators between the children of a node of a class. -/
abbrev joins (c : Clazz) : Kind → Nat → Int := fun k a => if k.clazz = c then ((a - 1 : Nat) : Int) else 0
/-- The indicator of a token type. -/
abbrev isT (t : TokType) : TokType → Int := fun x => if x = t then 1 else 0

local macro "agree" : tactic => `(tactic| (constructor <;> simp [isA, joins, isT, Kind.clazz] <;> (try omega) <;> (try (rintro t (rfl | rfl) <;> simp))))

/-- **C98.** As many comparisons as literals, negations as `!`, groups as `(` and as `)`, operators between the operands of
conjunctions as `&`, of disjunctions as `|`; segments as `[` and as words that stand alone: literals that no `=` or `!=`
precedes. -/
theorem C98_census (rt : Runtime) (cfg : Config) (q : PyStr) (n : Node) (h : (parseQuery rt cfg q).1 = .ok n) :
    let N t := countTok t (lexTokens q)
    (n.all .Expression).length = N .REGEXP ∧
    (n.all .ExpressionNot).length = N .NOT ∧
    (n.all .ExpressionGroup).length + (n.all .QueryGroup).length = N .L_PAREN ∧ N .L_PAREN = N .R_PAREN ∧
    n.joints .ExpressionAnd = N .AND ∧
    n.joints .ExpressionOr + n.joints .QueryDisjunction = N .OR ∧
    (n.all .QuerySegment).length + (N .OPERATOR_EQ + N .OPERATOR_NE) = N .L_SQUARE_BRACKET + N .REGEXP ∧
    N .L_SQUARE_BRACKET = N .R_SQUARE_BRACKET := by
  obtain ⟨-, cst, hs, hd⟩ := (parse_ok rt cfg q n).1 h
  have key : ∀ {w g}, Weights w g → total w n.subnodes = weigh g (lexTokens q) := by
    intro w g ag
    have := CQuery.weighed ag hs.wf hd
    rw [hs.leaves, tokenStream, weigh_append, weigh_cons, weigh_nil] at this
    rw [this, ag.zero (eofTok q).type (by simp [eofTok])]
    simp
  have hw : ∀ c c' : Clazz, total (fun k a => isA c k a + isA c' k a) n.subnodes = (n.all c).length + (n.all c').length := by
    intro c c'
    rw [total_add, total_count, total_count]
    rfl
  have hj : ∀ c c' : Clazz, total (fun k a => joins c k a + joins c' k a) n.subnodes = n.joints c + n.joints c' := by
    intro c c'
    rw [total_add, total_joints, total_joints]
    rfl
  have hsq : ∀ t : TokType, weigh (fun x => (isT t x + isT .REGEXP x) - (isT .OPERATOR_EQ x + isT .OPERATOR_NE x)) (lexTokens q) =
      (countTok t (lexTokens q) + countTok .REGEXP (lexTokens q)) - (countTok .OPERATOR_EQ (lexTokens q) + countTok .OPERATOR_NE (lexTokens q)) := by
    intro t
    rw [weigh_sub, weigh_add, weigh_add, weigh_count, weigh_count, weigh_count, weigh_count]
  have k1 := key (w := isA .Expression) (g := isT .REGEXP) (by agree)
  have k2 := key (w := isA .ExpressionNot) (g := isT .NOT) (by agree)
  have k3 := key (w := fun k a => isA .ExpressionGroup k a + isA .QueryGroup k a) (g := isT .L_PAREN) (by agree)
  have k4 := key (w := fun k a => isA .ExpressionGroup k a + isA .QueryGroup k a) (g := isT .R_PAREN) (by agree)
  have k5 := key (w := joins .ExpressionAnd) (g := isT .AND) (by agree)
  have k6 := key (w := fun k a => joins .ExpressionOr k a + joins .QueryDisjunction k a) (g := isT .OR) (by agree)
  have k7 := key (w := isA .QuerySegment) (g := fun x => (isT .L_SQUARE_BRACKET x + isT .REGEXP x) - (isT .OPERATOR_EQ x + isT .OPERATOR_NE x)) (by agree)
  have k8 := key (w := isA .QuerySegment) (g := fun x => (isT .R_SQUARE_BRACKET x + isT .REGEXP x) - (isT .OPERATOR_EQ x + isT .OPERATOR_NE x)) (by agree)
  rw [weigh_count] at k1 k2 k3 k4 k5 k6
  rw [hsq] at k7 k8
  rw [hw] at k3 k4
  rw [hj] at k6
  rw [total_count] at k1 k2 k7 k8
  rw [total_joints] at k5
  change (((n.all .Expression).length : Nat) : Int) = _ at k1
  change (((n.all .ExpressionNot).length : Nat) : Int) = _ at k2
  change (((n.all .QuerySegment).length : Nat) : Int) = _ at k7 k8
  change ((n.joints .ExpressionAnd : Nat) : Int) = _ at k5
  simp only
  omega

/-- The tree `parseQuery` returns, for the examples. -/
def censusNode (q : PyStr) : Node :=
  match (parseQuery rt0 defaultConfig q).1 with
  | .ok n => n
  | .error _ => .mk .wildcard [] none

/-- Parentheses inside and around brackets, negations, words. -/
def censusQuery : PyStr := py!"('a' | [!(x:b != 'c'/c & d = 'e' | f = 'g') & ! h = 'i']) []{2} 'j\\'k'/i"

theorem censusQuery_ok : (parseQuery rt0 defaultConfig censusQuery).1 = .ok (censusNode censusQuery) := by decide +kernel

example : ((censusNode censusQuery).all .Expression).length = 6 ∧ ((censusNode censusQuery).all .ExpressionNot).length = 2 ∧
    ((censusNode censusQuery).all .ExpressionGroup).length = 1 ∧ ((censusNode censusQuery).all .QueryGroup).length = 1 ∧
    (censusNode censusQuery).joints .ExpressionAnd = 2 ∧ (censusNode censusQuery).joints .ExpressionOr = 1 ∧
    (censusNode censusQuery).joints .QueryDisjunction = 1 ∧ ((censusNode censusQuery).all .QuerySegment).length = 4 := by
  decide +kernel
example : ((censusNode censusQuery).all .Expression).length = countTok .REGEXP (lexTokens censusQuery) :=
  (C98_census rt0 defaultConfig censusQuery _ censusQuery_ok).1

-- the second literal: qualifier, identifier, operator and flags; the last one: defaults, an escape, flags
example : (literals (tokenStream censusQuery)).map (fun l => (comparedWith defaultConfig l.before, l.tok.text, flagsAfter l.after)) =
    [((none, py!"text", .EQUALS), py!"'a'", none),
     ((some py!"x", py!"b", .NOT_EQUALS), py!"'c'", some py!"c"),
     ((none, py!"d", .EQUALS), py!"'e'", none), ((none, py!"f", .EQUALS), py!"'g'", none), ((none, py!"h", .EQUALS), py!"'i'", none),
     ((none, py!"text", .EQUALS), py!"'j\\'k'", some py!"i")] := by decide +kernel
example : ((censusNode censusQuery).all .Expression).map (fun m => match m.kind with
      | .expression a b c d e => (a, b, c, d, e.isSome)
      | _ => (none, [], .EQUALS, [], false)) =
    [(none, py!"text", .EQUALS, py!"a", false), (some py!"x", py!"b", .NOT_EQUALS, py!"c", true),
     (none, py!"d", .EQUALS, py!"e", false), (none, py!"f", .EQUALS, py!"g", false), (none, py!"h", .EQUALS, py!"i", false),
     (none, py!"text", .EQUALS, py!"j'k", true)] := by decide +kernel

/-! ### Sizes -/

/-- **C98.** The tree returned for a query of `k` tokens has at most `2 k + 1` nodes. -/
theorem C98_size (rt : Runtime) (cfg : Config) (q : PyStr) (n : Node) (h : (parseQuery rt cfg q).1 = .ok n) :
    n.subnodes.length ≤ 2 * (lexTokens q).length + 1 := by
  obtain ⟨-, cst, hs, hd⟩ := (parse_ok rt cfg q n).1 h
  have := CQuery.small hs.wf hd
  rw [hs.leaves, tokenStream, List.length_append] at this
  simp only [List.length_cons, List.length_nil] at this
  omega

-- exactly that many for a sequence of words
example : (lexTokens py!"'a' 'b' 'c'").length = 3 ∧ (censusNode py!"'a' 'b' 'c'").subnodes.length = 7 := by decide +kernel
example : (censusNode censusQuery).subnodes.length ≤ 2 * (lexTokens censusQuery).length + 1 :=
  C98_size rt0 defaultConfig censusQuery _ censusQuery_ok

/-- **C98.** The parse tree, for a query of `k` tokens: at most `4 k + 3` contexts. -/
theorem C98_contexts (q : PyStr) (t : PTree) (h : antlrParse q = .ok t) : t.contexts ≤ 4 * (lexTokens q).length + 3 := by
  obtain ⟨cst, hs, rfl⟩ := syntaxOf_of_parse (antlrParse_ok.1 h)
  have := CQuery.few hs.wf
  rw [hs.leaves, tokenStream, List.length_append] at this
  simp only [List.length_cons, List.length_nil] at this
  omega

/-- **C98.** The generated functions are called once for every context of the parse tree (the outermost one included), so
there is no backtracking: their number is linear in the number of tokens. -/
theorem C98_calls (P : Predictor) (hP : P.Parses) (q : PyStr) (t : PTree) (h : antlrParse q = .ok t) :
    ∃ N, ∀ n, N ≤ n → execCalls P code n [] (code .query) (tokenStream q) + 1 = t.contexts := by
  obtain ⟨c, hc⟩ := (parseTokens_some _ _).1 (antlrParse_ok.1 h)
  obtain ⟨f, rfl⟩ := chosen_query_node hc
  obtain ⟨N, hN⟩ := hP q f h
  refine ⟨N, fun n hn => ?_⟩
  rw [execCalls_ok n [] _ _ f [] (hN n hn)]
  simp only [PTree.contexts]
  omega

-- the calls of a short query, with any predictor that is right
example (P : Predictor) (hP : P.Parses) :
    ∃ N, ∀ n, N ≤ n → execCalls P code n [] (code .query) (tokenStream py!"'a' | [b = 'c']") + 1 = 15 := by
  have := C98_calls P hP py!"'a' | [b = 'c']" _ (treeOf_ok (by decide +kernel))
  rwa [show (treeOf py!"'a' | [b = 'c']").contexts = 15 by decide +kernel] at this
example : (treeOf py!"'a' | [b = 'c']").contexts ≤ 4 * (lexTokens py!"'a' | [b = 'c']").length + 3 :=
  C98_contexts _ _ (treeOf_ok (by decide +kernel))

theorem issuesAt_two (rt : PyRuntime) (o : FcsqlOptions) (m : Node) : (issuesAt rt o m).length ≤ 2 := by
  unfold issuesAt
  split
  · next q i op r fl _ =>
    simp only [List.length_append]
    by_cases hq : BadQualifier o q i
    · have hd : ¬ DubiousPos q i r fl := by
        rintro ⟨-, h2, -⟩
        obtain ⟨s, as, rfl, hs, -⟩ := hq
        rcases h2 with h2 | h2
        · simp at h2
        · simp only [Option.some.injEq] at h2
          exact hs h2
      rw [if_neg hd]
      (repeat' split) <;> simp
    · rw [if_neg hq]
      (repeat' split) <;> simp
  · simp

/-- **C98.** Validating the tree of a query reports at most two issues per literal of the query: the errors and the warnings
collected, together. -/
theorem C98_issues (rt : Runtime) (cfg : Config) (q : PyStr) (n : Node) (h : (parseQuery rt cfg q).1 = .ok n) (o : FcsqlOptions)
    (query : Option PyStr) (s : VState X) (hs : s.raiseAtFirst = false) :
    ∃ b s', validateWith (fcsqlValidator rt.toPyRuntime o) n query s = (.ok b, s') ∧
      s'.errors.length + s'.warnings.length ≤ 2 * countTok .REGEXP (lexTokens q) := by
  obtain ⟨b, s', h1, -, h2, h3, -⟩ := C34_verdict rt.toPyRuntime o n query s hs
  refine ⟨b, s', h1, ?_⟩
  have hc := (C98_census rt cfg q n h).1
  simp only at hc
  rw [← hc, h2, h3, List.length_map, List.length_map]
  have hsum : ∀ l : List Issue, (l.filter fun x => x.isError).length + (l.filter fun x => !x.isError).length = l.length := by
    intro l
    induction l with
    | nil => rfl
    | cons x l ih => cases hx : x.isError <;> simp [hx] <;> omega
  rw [hsum]
  have key : ∀ ns : List Node, (ns.flatMap (issuesAt rt.toPyRuntime o)).length ≤ 2 * (ns.filter fun m => m.kind.clazz = .Expression).length := by
    intro ns
    induction ns with
    | nil => simp
    | cons m ns ih =>
      rw [List.flatMap_cons, List.length_append, List.filter_cons]
      by_cases hm : m.kind.clazz = .Expression
      · have := issuesAt_two rt.toPyRuntime o m
        simp only [hm, decide_true, ite_true, List.length_cons]
        omega
      · have : issuesAt rt.toPyRuntime o m = [] := by
          rw [List.eq_nil_iff_forall_not_mem]
          exact fun x hx => hm (((C34_issues rt.toPyRuntime o m).2 m).1 x hx).2
        simp only [hm, this, decide_false, List.length_nil, Nat.zero_add]
        exact ih
  exact key n.subnodes

-- two errors for one literal: the layer and its qualifier
example : let o : FcsqlOptions := ⟨none, some [(py!"text", none)]⟩
    let r := validateWith (fcsqlValidator (X := Unit) rt0.toPyRuntime o) (censusNode py!"[x:b = 'c']") none (VState.new none false false ())
    r.2.errors.length = 2 ∧ r.2.warnings.length = 0 ∧ countTok .REGEXP (lexTokens py!"[x:b = 'c']") = 1 := by decide +kernel

end Fcsql
