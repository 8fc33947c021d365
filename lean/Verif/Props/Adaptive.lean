/-
C87: the runtime library's prediction, as a program, does what was assumed of it.
-/
import Verif.Proofs.AdaptiveCode
import Verif.Props.Cache
import Verif.Props.RawTree

set_option autoImplicit false
set_option linter.unusedSimpArgs false

namespace Fcsql

attribute [local irreducible] parseQuery

/-! ### C87 -/

/-- **C87.** When some alternative of a decision can go on with all the remaining tokens, `adaptivePredict` answers with the
first such alternative: for every decision of every rule, every chain of calls that leads to the rule from `query`, and all
tokens up to the end of input. -/
theorem C87_predict (d s : Nat) (ctx : List Nat) (ts : List Tok) (i : Nat) (hd : parserAtn.decisions[d]? = some s)
    (hc : Calls parserAtn (parserAtn.ruleOf s) ctx) (hE : EndsEof ts) (hi : ViableAlt parserAtn d ctx ts i)
    (hl : ∀ j, j < i → ¬ ViableAlt parserAtn d ctx ts j) : parserAtn.simulator.predictor.predict d ctx ts = some i :=
  predict_least parserTab_ok parserAtn_rules hd hc hE hi hl

/-- **C87.** Whatever it answers is the number of an alternative. -/
theorem C87_range (d s : Nat) (ctx : List Nat) (ts : List Tok) (i : Nat) (hd : parserAtn.decisions[d]? = some s)
    (h : parserAtn.simulator.predictor.predict d ctx ts = some i) : 1 ≤ i ∧ i ≤ (parserAtn.out s).length :=
  predict_range hd ctx ts h

/-- **C87.** Prediction never depends on anything after the end of input. -/
theorem C87_stops_at_eof (d s : Nat) (ctx : List Nat) (ts rest : List Tok) (hd : parserAtn.decisions[d]? = some s)
    (hc : Calls parserAtn (parserAtn.ruleOf s) ctx) (hE : EndsEof ts) :
    parserAtn.simulator.predictor.predict d ctx (ts ++ rest) = parserAtn.simulator.predictor.predict d ctx ts :=
  predict_eof parserTab_ok hd hc hE rest

/-- **C87.** `sync` passes exactly when the next token is one that can come next in the rule, or the rule may end here. -/
theorem C87_sync (st : Nat) (ctx : List Nat) (ts : List Tok) :
    parserAtn.simulator.predictor.sync st ctx ts = true ↔ Expected parserAtn st (la ts) :=
  sync_iff st ctx ts

theorem endsEof_stream (q : PyStr) : EndsEof (tokenStream q) := ⟨lexTokens q, eofTok q, rfl, rfl, lexTokens_noEof q⟩

/-- **C87.** The functions ANTLR generated, run on the tokens of a query with this prediction, build exactly the parse tree
`antlr_parse` returns (C09-C11), or report an error exactly when `antlr_parse` raises. -/
theorem C87_generated_parser (q : PyStr) :
    (∀ f vs, Ends parserAtn.simulator.predictor code .query (tokenStream q) (.ok f vs) ↔ antlrParse q = .ok (.node .query f) ∧ vs = []) ∧
    (Ends parserAtn.simulator.predictor code .query (tokenStream q) .error ↔ antlrParse q = .error ()) ∧
    ¬ Ends parserAtn.simulator.predictor code .query (tokenStream q) .timeout := by
  simp only [ends_agree (endsEof_stream q)]
  exact C53_generated_parser _ antlrPredictor_ideal q

/-- **C84.** So the facts about contexts (C84, C85), about the calls (C70, C98) and so on hold with this prediction: with it the
generated functions build the parse tree of every query that has one. -/
theorem C84_antlr : parserAtn.simulator.predictor.Parses :=
  fun q f h => ((C87_generated_parser q).1 f []).2 ⟨h, rfl⟩

-- all hypotheses of C84 together, with it
example : ∃ t T, antlrParse py!"[a='b' & c='d'] within s" = .ok t ∧
    QueryReturns parserAtn.simulator.predictor (tokenStream py!"[a='b' & c='d'] within s") T := by
  obtain ⟨t, ht⟩ : ∃ t, antlrParse py!"[a='b' & c='d'] within s" = .ok t := antlrParse_toBool (by decide +kernel)
  obtain ⟨T, hT, -⟩ := C84_returns _ C84_antlr _ t ht
  exact ⟨t, T, ht, hT⟩

/-- **C87.** Hence the caches do not matter (C83), for the prediction as it is: calls one after the other, with shared caches
that hold nothing wrong, and other threads that may change them between any two accesses as long as they store nothing
wrong. -/
theorem C87_history (env : Others AConfigSet) (he : env.Fair parserAtn.simulator) (rt : Runtime) (calls : List ParseCall) :
    ∃ N, ∀ n, N ≤ n → ∀ c : Caches AConfigSet, c.Right parserAtn.simulator →
      (sessionC parserAtn.simulator env rt.toPyRuntime n calls c).1 = calls.map (fun k => some (k.answer rt)) ∧
      (sessionC parserAtn.simulator env rt.toPyRuntime n calls c).2.Right parserAtn.simulator :=
  session_right _ C87_generated_parser env he rt calls

/-- **C87.** In particular from empty caches on, with any interleaving. -/
theorem C87_any_schedule (schedule : Nat → List (Entry AConfigSet)) (rt : Runtime) (calls : List ParseCall) : ∃ N, ∀ n, N ≤ n →
    (sessionC parserAtn.simulator (othersStore parserAtn.simulator schedule) rt.toPyRuntime n calls (.empty _)).1 =
      calls.map (fun k => some (k.answer rt)) := by
  obtain ⟨N, hN⟩ := C87_history _ (othersStore_fair parserAtn.simulator schedule) rt calls
  exact ⟨N, fun n hn => (hN n hn _ (empty_right _)).1⟩

/-! ### Non-vacuity -/

theorem calls_main : Calls parserAtn (parserAtn.ruleOf 57) [46] := by
  have h0 : parserAtn.ruleOf 46 = 0 := by decide +kernel
  have h1 : parserAtn.ruleOf 57 = ((1 : Nat) : Int) := by decide +kernel
  rw [h1]
  exact .call (start := 2) (t := 49) (by decide +kernel) (h0 ▸ .root)

-- the first decision for `'a' | 'b'` is for the disjunction
example : parserAtn.decisions[1]? = some 57 ∧ Calls parserAtn (parserAtn.ruleOf 57) [46] ∧ EndsEof (tokenStream py!"'a' | 'b'") ∧
    parserAtn.simulator.predictor.predict 1 [46] (tokenStream py!"'a' | 'b'") = some 4 :=
  ⟨by decide +kernel, calls_main, endsEof_stream _, by decide +kernel⟩

-- where both the group and the sequence go on, the answer is the group; the context had to be used
example : parserAtn.simulator.predictor.predict 1 [46] (tokenStream py!"('a')") = some 2 ∧
    parserAtn.simulator.fullContext 1 [46] (tokenStream py!"('a')") = some 2 := by
  constructor <;> decide +kernel

-- after `(` in a query a `|` is not expected
example : parserAtn.simulator.predictor.sync 83 [54, 46] ((tokenStream py!"(|").drop 1) = false ∧
    parserAtn.simulator.predictor.sync 83 [54, 46] ((tokenStream py!"('").drop 1) = false ∧
    parserAtn.simulator.predictor.sync 83 [54, 46] ((tokenStream py!"('a'").drop 1) = true := by
  refine ⟨?_, ?_, ?_⟩ <;> decide +kernel

-- a tree, and an error
example : ∃ f, Ends parserAtn.simulator.predictor code .query (tokenStream py!"'a' | [b='c']") (.ok f []) ∧
    Ends parserAtn.simulator.predictor code .query (tokenStream py!"'a' |") .error := by
  obtain ⟨t, h⟩ : ∃ t, antlrParse py!"'a' | [b='c']" = .ok t := antlrParse_toBool (by decide +kernel)
  obtain ⟨c, hc⟩ := (parseTokens_some _ _).1 (antlrParse_ok.1 h)
  obtain ⟨f, rfl⟩ := chosen_query_node hc
  exact ⟨f, ((C87_generated_parser _).1 f []).2 ⟨h, rfl⟩, (C87_generated_parser _).2.1.2 (antlrParse_toBool_false (by decide +kernel))⟩

-- three calls while another thread stores two entries
example : ∃ N, ∀ n, N ≤ n →
    (sessionC parserAtn.simulator (othersStore parserAtn.simulator fun k => if k = 3 then [.parser (0, none), .lexer (lexRules, 39)] else [])
      rt0.toPyRuntime n [.parse defaultConfig py!"'a'{2}", .antlr py!"[x", .parse locConfig py!"'a'{2}"] (.empty _)).1 =
      [.parse defaultConfig py!"'a'{2}", .antlr py!"[x", .parse locConfig py!"'a'{2}"].map fun k => some (ParseCall.answer rt0 k) :=
  C87_any_schedule _ _ _

end Fcsql
