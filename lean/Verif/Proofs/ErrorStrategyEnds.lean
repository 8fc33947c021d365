/-
With the error strategy as a program the generated parser comes to an end.
-/
import Verif.Proofs.ErrorStrategySeen
import Verif.Props.NeverLate
import Verif.Spec.Messages

set_option autoImplicit false
set_option linter.unusedSimpArgs false

namespace Fcsql

theorem code_placed_false (r : Rule) (h : r ≠ .query) : Placed parserAtn r.num false (code r) := by
  have := code_placed r
  rwa [beq_eq_false_iff_ne.2 h] at this

theorem parserAtn_pos : 0 < parserAtn.states.length := by decide +kernel

attribute [local irreducible] parserAtn parseQuery

theorem replay_antlr (T : Nat → Choice) : (parserAtn.replay T).Antlr := ⟨rfl, fun _ _ _ _ => rfl⟩

theorem new_steady (h0 : 0 < parserAtn.states.length) (ts : List Tok) : Steady parserAtn 0 (EState.new ts) := .zero h0

/-- The run on a query. -/
abbrev runE (n : Nat) (q : PyStr) : EOut := execE parserAtn (eofTok q) code n [] (code .query) (EState.new (tokenStream q))

theorem sim_query {T : Nat → Choice} (n : Nat) (q : PyStr) (hT : Records T (runE n q).state.log) :
    OutSeen parserAtn (runE n q) (execR (parserAtn.replay T) (eofTok q) code n [] (code .query)
      { rest := tokenStream q, stuck := 0, recovering := false, reports := [], mem := 0 }) :=
  sim code_placed_false code_atStates n [] true 0 (code .query) (EState.new (tokenStream q)) 0 (code_placed .query) (code_atStates .query) .root
    (endsEof_stream q) (new_steady parserAtn_pos _) hT

/-- What the parser reported is what it reports with a strategy that makes the same choices. -/
theorem returns_of_callE {n : Nat} {q : PyStr} {rs : List Report} {u : Nat}
    (h : callE parserAtn (eofTok q) code n .query (tokenStream q) = some (rs, u)) :
    ∃ T f, Returns (parserAtn.replay T) 0 (eofTok q) code .query (tokenStream q) f (rs.map (·.token)) := by
  unfold callE at h
  have key : ∀ {s : EState} (o : EOut), runE n q = o → o.state.log <+: s.log → s.reports = rs →
      (∀ T, Records T s.log → OutSeen parserAtn o (execR (parserAtn.replay T) (eofTok q) code n [] (code .query)
        { rest := tokenStream q, stuck := 0, recovering := false, reports := [], mem := 0 }) →
        ∃ f, callR (parserAtn.replay T) 0 (eofTok q) code n .query (tokenStream q) = some (f, rs.map (·.token))) →
      ∃ T f, Returns (parserAtn.replay T) 0 (eofTok q) code .query (tokenStream q) f (rs.map (·.token)) := by
    intro s o ho hp hr hk
    let T : Nat → Choice := fun i => s.log.getD i (.skipped 0)
    have hT : Records T s.log := fun i hi => by simp [T, hi]
    obtain ⟨f, hf⟩ := hk T hT (by rw [← ho]; exact sim_query n q (by rw [ho]; exact hT.prefix hp))
    exact ⟨T, f, returns_of_callR hf⟩
  cases ho : runE n q with
  | timeout s => rw [show execE parserAtn (eofTok q) code n [] (code .query) (EState.new (tokenStream q)) = _ from ho] at h; cases h
  | ok s =>
    rw [show execE parserAtn (eofTok q) code n [] (code .query) (EState.new (tokenStream q)) = _ from ho] at h
    simp only [Option.some.injEq, Prod.mk.injEq] at h
    refine key _ ho (List.prefix_refl _) h.1 ?_
    rintro T hT ⟨f, k, e, -⟩
    refine ⟨f, ?_⟩
    rw [callR, e, ← h.1]
    rfl
  | raised fl s =>
    rw [show execE parserAtn (eofTok q) code n [] (code .query) (EState.new (tokenStream q)) = _ from ho] at h
    simp only [Option.some.injEq, Prod.mk.injEq] at h
    refine key (s := caughtE parserAtn (eofTok q) [] fl s) _ ho (grows_caught _ _ _) h.1 ?_
    rintro T hT ⟨k, e, hs⟩
    obtain ⟨k', e', -⟩ := sim_caught (eof := eofTok q) (ctx := []) (f := fl) hs hT
    refine ⟨[], ?_⟩
    rw [callR, e, ← h.1]
    simp only [e']
    rfl

theorem callE_none {n : Nat} {q : PyStr} (h : callE parserAtn (eofTok q) code n .query (tokenStream q) = none) : ∃ s, runE n q = .timeout s := by
  unfold callE at h
  cases ho : runE n q with
  | timeout s => exact ⟨s, rfl⟩
  | ok s => rw [show execE parserAtn (eofTok q) code n [] (code .query) (EState.new (tokenStream q)) = _ from ho] at h; cases h
  | raised f s => rw [show execE parserAtn (eofTok q) code n [] (code .query) (EState.new (tokenStream q)) = _ from ho] at h; cases h

open Classical in
/-- It comes to an end. -/
theorem callE_ends (q : PyStr) : ∃ n, callE parserAtn (eofTok q) code n .query (tokenStream q) ≠ none := by
  refine Classical.byContradiction fun hno => ?_
  have hno : ∀ n, ∃ s, runE n q = .timeout s := fun n => callE_none (Classical.byContradiction fun h => hno ⟨n, h⟩)
  let L : Nat → List Choice := fun n => (runE n q).state.log
  have hL : ∀ n m, n ≤ m → L n <+: L m := by
    intro n m hnm
    have := execE_mono (A := parserAtn) (eof := eofTok q) (prog := code) hnm [] (code .query) (EState.new (tokenStream q))
    obtain ⟨s, hs⟩ := hno n
    rw [show execE parserAtn (eofTok q) code n [] (code .query) (EState.new (tokenStream q)) = .timeout s from hs] at this
    change (runE n q).state.log <+: _
    rw [hs]
    exact this
  let T : Nat → Choice := fun i => if h : ∃ n, i < (L n).length then (L h.choose)[i]'h.choose_spec else .skipped 0
  have hT : ∀ n, Records T (L n) := by
    intro n i hi
    have hex : ∃ n, i < (L n).length := ⟨n, hi⟩
    simp only [T, dif_pos hex]
    rcases Nat.le_total n hex.choose with hle | hle
    · exact ((hL _ _ hle).getElem hi).symm
    · exact (hL _ _ hle).getElem hex.choose_spec
  obtain ⟨f, es, ⟨N, hN⟩, -⟩ := C79_antlr_terminates (parserAtn.replay T) (replay_antlr T) 0 q
  have h1 := hN N (Nat.le_refl _)
  have h2 := sim_query N q (hT N)
  obtain ⟨s, hs⟩ := hno N
  rw [hs] at h2
  rw [callR, show execR (parserAtn.replay T) (eofTok q) code N [] (code .query) _ = .timeout from h2] at h1
  cases h1

theorem callE_mono {n m : Nat} (h : n ≤ m) {q : PyStr} {r : List Report × Nat}
    (hc : callE parserAtn (eofTok q) code n .query (tokenStream q) = some r) :
    callE parserAtn (eofTok q) code m .query (tokenStream q) = some r := by
  have hle := execE_mono (A := parserAtn) (eof := eofTok q) (prog := code) h [] (code .query) (EState.new (tokenStream q))
  unfold callE at hc ⊢
  cases ho : execE parserAtn (eofTok q) code n [] (code .query) (EState.new (tokenStream q)) with
  | timeout s => rw [ho] at hc; cases hc
  | ok s => rw [ho] at hle hc; rw [show execE parserAtn (eofTok q) code m [] (code .query) (EState.new (tokenStream q)) = _ from hle]; exact hc
  | raised f s => rw [ho] at hle hc; rw [show execE parserAtn (eofTok q) code m [] (code .query) (EState.new (tokenStream q)) = _ from hle]; exact hc

theorem antlrReports_of_callE {n : Nat} {q : PyStr} {rs : List Report} {u : Nat}
    (hc : callE parserAtn (eofTok q) code n .query (tokenStream q) = some (rs, u)) : AntlrReports q rs u :=
  ⟨n, fun _ hm => callE_mono hm hc⟩

theorem antlrReports_exists (q : PyStr) : ∃ rs u, AntlrReports q rs u := by
  obtain ⟨n, hn⟩ := callE_ends q
  cases hc : callE parserAtn (eofTok q) code n .query (tokenStream q) with
  | none => exact absurd hc hn
  | some r => exact ⟨r.1, r.2, antlrReports_of_callE hc⟩

theorem AntlrReports.unique {q : PyStr} {rs rs' : List Report} {u u' : Nat} (h : AntlrReports q rs u) (h' : AntlrReports q rs' u') :
    rs = rs' ∧ u = u' := by
  obtain ⟨N, hN⟩ := h
  obtain ⟨M, hM⟩ := h'
  have := hN (max N M) (by omega)
  rw [hM (max N M) (by omega)] at this
  cases this
  exact ⟨rfl, rfl⟩

theorem AntlrReports.returns {q : PyStr} {rs : List Report} {u : Nat} (h : AntlrReports q rs u) :
    ∃ T f, Returns (parserAtn.replay T) 0 (eofTok q) code .query (tokenStream q) f (rs.map (·.token)) := by
  obtain ⟨N, hN⟩ := h
  exact returns_of_callE (hN N (Nat.le_refl _))

end Fcsql
