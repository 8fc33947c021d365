/-
C104: how many calls of the functions of the generated parser are pending, for every query.
-/
import Verif.Proofs.PendingHeight
import Verif.Spec.Pending
import Verif.Props.Faults
import Verif.Props.Depth
import Verif.Props.Adaptive
import Verif.Props.Complaint

set_option autoImplicit false
set_option linter.unusedSimpArgs false

namespace Fcsql

attribute [local irreducible] parserAtn parseQuery lexerAtn lexPieces

theorem toksCost_count (ts : List Tok) : toksCost ts = 3 * (countTok .L_PAREN ts + countTok .NOT ts) +
    2 * (countTok .WITHIN ts + countTok .SIMPLE_WITHIN_SCOPE ts + countTok .REGEXP_FLAGS ts + countTok .IDENTIFIER ts) := by
  induction ts with
  | nil => rfl
  | cons x xs ih =>
    rw [toksCost_cons, ih]
    simp only [countTok, List.filter_cons]
    cases x.type <;> simp [tokCost] <;> omega

theorem toksCost_stream (q : PyStr) : 11 + toksCost (tokenStream q) = roomFor q := by
  rw [tokenStream, toksCost_append, toksCost_count (lexTokens q)]
  have : toksCost [eofTok q] = 0 := rfl
  rw [this, roomFor]
  omega

/-- What the functions do decides about the whole call. -/
theorem parseF_congr {L A : Atn} {m n : Nat} {rt : PyRuntime} {cfg : Config} {F : Faults} {O : Strikes} {old : List ErrorDetail} {q : PyStr}
    (h : callF L m q A F.rules code n .query = callF L m q A O code n .query) :
    parseF L A m n rt cfg F old q = parseF L A m n rt cfg { F with rules := O } old q := by
  unfold parseF tryF
  simp only [h]

/-- **C104.** For every query, malformed or not, and whatever the functions of the parser do about it, there are never more than
`roomFor q` calls of them pending: what would happen with more has no effect on `parse`. -/
theorem C104_pending (L A : Atn) (hL : deserialize lexerData = some L) (hA : deserialize parserData = some A) (m : Nat) (hm : 28 ≤ m)
    (rt : PyRuntime) (cfg : Config) (F : Faults) (old : List ErrorDetail) (q : PyStr) (n : Nat)
    (hF : ∀ t ctx, ctx.length ≤ roomFor q → F.rules t ctx = none) :
    parseF L A m n rt cfg F old q = parseF L A m n rt cfg { F with rules := fun _ _ => none } old q := by
  rw [lexerAtn_eq] at hL
  rw [parserAtn_eq] at hA
  cases hL
  cases hA
  have hr : 11 + toksCost (tokenStream q) ≤ roomFor q := Nat.le_of_eq (toksCost_stream q)
  refine parseF_congr ?_
  rw [callF_quiet hm hF n hr, callF_quiet hm (fun _ _ _ => rfl) n hr]

/-- **C104.** The same for `antlr_parse`. -/
theorem C104_antlr (L A : Atn) (hL : deserialize lexerData = some L) (hA : deserialize parserData = some A) (m : Nat) (hm : 28 ≤ m)
    (O : Strikes) (q : PyStr) (n : Nat) (hO : ∀ t ctx, ctx.length ≤ roomFor q → O t ctx = none) :
    antlrF L A m n O q = antlrF L A m n (fun _ _ => none) q := by
  rw [lexerAtn_eq] at hL
  rw [parserAtn_eq] at hA
  cases hL
  cases hA
  have hr : 11 + toksCost (tokenStream q) ≤ roomFor q := Nat.le_of_eq (toksCost_stream q)
  unfold antlrF
  rw [callF_quiet hm hO n hr, callF_quiet hm (fun _ _ _ => rfl) n hr]

theorem recursionLimit_quiet {room : Nat} (t : Nat) (ctx : List Nat) (h : ctx.length ≤ room) : recursionLimit room t ctx = none := by
  unfold recursionLimit; exact if_neg (by omega)

/-- A call in which nothing arrives. -/
theorem parseF_none {L A : Atn} (hL : deserialize lexerData = some L) (hA : deserialize parserData = some A) {m : Nat} (hm : 28 ≤ m)
    (rt : Runtime) (hrt : rt.Antlr) (cfg : Config) (q : PyStr) : ∃ N, ∀ n, N ≤ n → ∀ old,
      parseF L A m n rt.toPyRuntime cfg .none old q = some (.of (parseQuery rt cfg q).1, (parseQuery rt cfg q).2) := by
  obtain ⟨⟨N, hN⟩, -⟩ := C95_program L A hL hA m hm rt hrt cfg q
  refine ⟨N, fun n hn old => ?_⟩
  obtain ⟨e, es, h1, -, -, -, h2⟩ := parseF_facts .none old ((hN n hn).trans (by rw [← parseQuery_pair]))
  obtain ⟨rfl, rfl⟩ := h2 rfl
  exact h1

/-- **C104.** With this much room, the recursion limit is never reached in the functions of the parser: every query, malformed or not, ends as
without a limit, with the same errors. -/
theorem C104_enough_room (L A : Atn) (hL : deserialize lexerData = some L) (hA : deserialize parserData = some A) (m : Nat) (hm : 28 ≤ m)
    (rt : Runtime) (hrt : rt.Antlr) (cfg : Config) (room : Nat) (q : PyStr) (hq : roomFor q ≤ room) :
    ∃ N, ∀ n, N ≤ n → ∀ old, parseF L A m n rt.toPyRuntime cfg { Faults.none with rules := recursionLimit room } old q =
      some (.of (parseQuery rt cfg q).1, (parseQuery rt cfg q).2) := by
  obtain ⟨N, hN⟩ := parseF_none hL hA hm rt hrt cfg q
  refine ⟨N, fun n hn old => ?_⟩
  rw [C104_pending L A hL hA m hm rt.toPyRuntime cfg _ old q n fun t ctx h => recursionLimit_quiet t ctx (Nat.le_trans h hq)]
  exact hN n hn old

/-- **C104.** Eleven calls are enough for every query without parentheses, negations and words (names, `within`, scopes, flags), however
long. -/
theorem C104_flat (q : PyStr) (hq : ∀ x ∈ lexTokens q, x.type ∉ [.L_PAREN, .NOT, .WITHIN, .SIMPLE_WITHIN_SCOPE, .REGEXP_FLAGS, .IDENTIFIER]) :
    roomFor q = 11 := by
  have h0 : ∀ ty ∈ [TokType.L_PAREN, .NOT, .WITHIN, .SIMPLE_WITHIN_SCOPE, .REGEXP_FLAGS, .IDENTIFIER], countTok ty (lexTokens q) = 0 := by
    intro ty hty
    rw [countTok, List.length_eq_zero_iff, List.filter_eq_nil_iff]
    intro x hx h
    rw [decide_eq_true_eq] at h
    exact hq x hx (h ▸ hty)
  unfold roomFor
  rw [h0 .L_PAREN (by simp), h0 .NOT (by simp), h0 .WITHIN (by simp), h0 .SIMPLE_WITHIN_SCOPE (by simp), h0 .REGEXP_FLAGS (by simp),
    h0 .IDENTIFIER (by simp)]

/-- **C104.** The room needed is at most linear in the length of the query. -/
theorem C104_linear (q : PyStr) : roomFor q ≤ 11 + 3 * q.length := by
  have h1 : ∀ ts : List Tok, toksCost ts ≤ 3 * ts.length := by
    intro ts
    induction ts with
    | nil => exact Nat.le_refl _
    | cons x xs ih =>
      rw [toksCost_cons, List.length_cons]
      have : tokCost (some x.type) ≤ 3 := by cases x.type <;> decide
      omega
  have h2 := stream_length q
  have h3 := h1 (lexTokens q)
  have h4 : roomFor q = 11 + toksCost (lexTokens q) := by rw [toksCost_count, roomFor]; omega
  simp only [tokenStream, List.length_append, List.length_singleton] at h2
  omega

/-! ### Queries of the language -/

/-- **C104.** For a query of the language, the room needed is known exactly: one call less than the height of its parse tree. -/
theorem C104_exact (L A : Atn) (hL : deserialize lexerData = some L) (hA : deserialize parserData = some A) (m : Nat) (hm : 28 ≤ m)
    (rt : Runtime) (hrt : rt.Antlr) (cfg : Config) (room : Nat) (q : PyStr) (t : PTree) (ht : antlrParse q = .ok t) :
    (t.height ≤ room + 1 → ∃ N, ∀ n, N ≤ n → ∀ old,
      parseF L A m n rt.toPyRuntime cfg { Faults.none with rules := recursionLimit room } old q =
        some (.of (parseQuery rt cfg q).1, (parseQuery rt cfg q).2)) ∧
    (room + 1 < t.height → ∃ N, ∀ n, N ≤ n → ∀ old, ∃ es,
      parseF L A m n rt.toPyRuntime cfg { Faults.none with rules := recursionLimit room } old q = some (.parserException unexpected, es) ∧
        es <+: (parseQuery rt cfg q).2) := by
  obtain ⟨N0, hN0⟩ := parseF_none hL hA hm rt hrt cfg q
  obtain ⟨⟨N1, hN1⟩, -⟩ := C95_program L A hL hA m hm rt hrt cfg q
  rw [lexerAtn_eq] at hL
  rw [parserAtn_eq] at hA
  cases hL
  cases hA
  obtain ⟨c, hc⟩ := (parseTokens_some _ _).1 (antlrParse_ok.1 ht)
  obtain ⟨f, rfl⟩ := chosen_query_node hc
  obtain ⟨N, hN⟩ := C84_antlr q f ht
  constructor
  · intro hh
    simp only [PTree.height] at hh
    refine ⟨max N N0, fun n hn old => ?_⟩
    have h := hN n (by omega)
    rw [parseF_congr (F := { Faults.none with rules := recursionLimit room }) (O := fun _ _ => none)]
    · exact hN0 n (by omega) old
    · rw [callF_fits hm (fun t ctx h => recursionLimit_quiet t ctx h) h (by omega),
        callF_fits (room := room) hm (fun _ _ _ => rfl) h (by omega)]
  · intro hh
    simp only [PTree.height] at hh
    refine ⟨max N N1, fun n hn old => ?_⟩
    obtain ⟨cs, h1⟩ := callF_struck (room := room) hm (hN n (by omega)) (by omega)
    obtain ⟨e, es, h2, -, h3, -, -⟩ := parseF_facts { Faults.none with rules := recursionLimit room } old
      ((hN1 n (by omega)).trans (by rw [← parseQuery_pair]))
    have h4 := (h3 ⟨rfl, rfl, rfl⟩).2
    unfold parseF tryF at h2
    simp only [Faults.none, h1, Option.some.injEq, Prod.mk.injEq] at h2
    obtain ⟨rfl, rfl⟩ := h2
    refine ⟨_, ?_, h4⟩
    unfold parseF tryF
    simp only [Faults.none, h1]
    rfl

/-- **C104.** So no recursion limit is enough for all queries of the language: each is reached by one with as many parentheses. -/
theorem C104_no_limit_is_enough (L A : Atn) (hL : deserialize lexerData = some L) (hA : deserialize parserData = some A) (m : Nat)
    (hm : 28 ≤ m) (rt : Runtime) (hrt : rt.Antlr) (cfg : Config) (room : Nat) :
    (∃ x, (parseQuery rt cfg (inParens (room + 1))).1 = .ok x) ∧
    ∃ N, ∀ n, N ≤ n → ∀ old,
      parseF L A m n rt.toPyRuntime cfg { Faults.none with rules := recursionLimit room } old (inParens (room + 1)) =
        some (.parserException unexpected, []) := by
  obtain ⟨x, t, h1, h2, h3, -⟩ := C70_no_limit_is_enough rt cfg (room + 1)
  refine ⟨⟨x, h1⟩, ?_⟩
  obtain ⟨N, hN⟩ := (C104_exact L A hL hA m hm rt hrt cfg room _ t h2).2 h3
  refine ⟨N, fun n hn old => ?_⟩
  obtain ⟨es, h4, h5⟩ := hN n hn old
  have h6 : (parseQuery rt cfg (inParens (room + 1))).2 = [] := by
    obtain ⟨hl, cst, hs, -⟩ := (parse_ok rt cfg _ x).1 h1
    exact (complaint_of_parse rt cfg _ hl ((grammatical_iff_syntax _).2 ⟨cst, hs⟩)).2.2
  rw [h6, List.prefix_nil] at h5
  rw [h4, h5]

/-! ### Examples -/

-- no query of the language, with two open parentheses
example : roomFor py!"(('a'" = 17 := by decide +kernel
example (rt : Runtime) (hrt : rt.Antlr) (old : List ErrorDetail) : ∃ N, ∀ n, N ≤ n →
    parseF lexerAtn parserAtn 28 n rt.toPyRuntime defaultConfig { Faults.none with rules := recursionLimit 17 } old py!"(('a'" =
      some (.of (parseQuery rt defaultConfig py!"(('a'").1, (parseQuery rt defaultConfig py!"(('a'").2) := by
  obtain ⟨N, hN⟩ := C104_enough_room lexerAtn parserAtn lexerAtn_eq parserAtn_eq 28 (by omega) rt hrt defaultConfig 17 py!"(('a'"
    (by decide +kernel)
  exact ⟨N, fun n hn => hN n hn old⟩

-- words that are not in their place
example : roomFor py!"[!(b within c = ! within" = 28 := by decide +kernel

-- flat
example : roomFor py!"[] 'a' | ) {2}" = 11 := C104_flat _ (by decide +kernel)

-- for a query of the language it is known exactly
example : (treeOf flatQuery).height = 12 ∧ roomFor flatQuery = 17 := by decide +kernel
example : (treeOf py!"'a'").height = 6 ∧ struckCall { Faults.none with rules := recursionLimit 5 } py!"'a'" = some (none, []) ∧
    struckCall { Faults.none with rules := recursionLimit 4 } py!"'a'" =
      some (some (.inl py!"an unexpected exception occured while parsing"), []) := by decide +kernel

end Fcsql
