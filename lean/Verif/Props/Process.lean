/-
C97: a process with several threads.
-/
import Verif.Proofs.ProcessRun
import Verif.Props.Program

set_option autoImplicit false
set_option linter.unusedSimpArgs false

namespace Fcsql

attribute [local irreducible] parserAtn parseQuery lexerAtn lexPieces

/-- There is a bound that is enough for all calls. -/
theorem enough_exists (L A : Atn) (hL : deserialize lexerData = some L) (hA : deserialize parserData = some A) (m : Nat) (hm : 28 ≤ m)
    (rt : Runtime) (hrt : rt.Antlr) (cfg : Nat → Config) (cs : List ThreadCall) :
    ∃ N, ∀ n, N ≤ n → ∀ c ∈ cs, Enough L A m n rt cfg c := by
  induction cs with
  | nil => exact ⟨0, fun n _ c hc => by cases hc⟩
  | cons c cs ih =>
    obtain ⟨N, hN⟩ := ih
    obtain ⟨N', hN'⟩ : ∃ N', ∀ n, N' ≤ n → Enough L A m n rt cfg c := by
      cases c with
      | parse i q => exact (C95_program L A hL hA m hm rt hrt (cfg i) q).1
      | antlr q =>
        obtain ⟨out, r, ⟨N', h⟩, -⟩ := C96_program L A hL hA m hm q
        exact ⟨N', fun n hn => ⟨(out, r), h n hn, N', h⟩⟩
      | errors i => exact ⟨0, fun _ _ => trivial⟩
    refine ⟨max N N', fun n hn c' hc' => ?_⟩
    rcases List.mem_cons.1 hc' with rfl | h
    · exact hN' n (by omega)
    · exact hN n (by omega) c' h

theorem errorsAfter_none (rt : Runtime) (cfg : Nat → Config) (i : Nat) (cs : List ThreadCall) :
    errorsAfter rt cfg i cs = none ↔ ¬ Parses i cs := by
  have key : ∀ (cs : List ThreadCall) (e : Option (List ErrorDetail)),
      cs.foldl (errorsStep rt cfg i) e = none ↔ e = none ∧ ¬ Parses i cs := by
    intro cs
    induction cs with
    | nil => intro e; simp [Parses]
    | cons c cs ih =>
      intro e
      rw [List.foldl_cons, ih]
      cases c with
      | parse j q =>
        by_cases hj : j = i
        · subst hj
          simp [errorsStep, Parses]
        · simp [errorsStep, Parses, hj, Ne.symm hj]
      | antlr q => simp [errorsStep, Parses]
      | errors j => simp [errorsStep, Parses]
  rw [errorsAfter, key]
  simp

/-- What is true of a process at any time. -/
theorem process_inv (L A : Atn) (m n : Nat) (rt : Runtime) (cfg : Nat → Config) (errs : Nat → List ErrorDetail) (calls : List (List ThreadCall))
    (hn : ∀ cs ∈ calls, ∀ c ∈ cs, Enough L A m n rt cfg c) :
    ∃ K, ∀ schedule, ((Process.new L A m n rt.toPyRuntime cfg errs calls).run schedule).Inv (RightVal L A m) (CallErrors rt cfg calls)
      (fun j i => ∃ cs, calls[j]? = some cs ∧ Parses i cs) (fun j i => j < calls.length ∧ Alone calls j i) errs
      (fun j r e' => ∃ cs, calls[j]? = some cs ∧ ∃ rs, r = some rs ∧ rs.length = cs.length ∧
        (∀ k c x, cs[k]? = some c → rs[k]? = some x → RightResult L A m rt cfg errs calls j (cs.take k) c x) ∧
        e' = fun i => errorsAfter rt cfg i cs)
      fun j => K - schedule.countP fun x => x.1 = j := by
  have hK : ∀ j, ∃ K, ∀ cs, calls[j]? = some cs →
      Thread.Runs (procWorld L A m rt cfg errs calls j) K (threadActs L A m n rt.toPyRuntime cfg cs) (fun _ => none) fun r e' =>
        ∃ rs, r = some rs ∧ rs.length = cs.length ∧
        (∀ k c x, cs[k]? = some c → rs[k]? = some x → RightResult L A m rt cfg errs calls j (cs.take k) c x) ∧
        e' = fun i => errorsAfter rt cfg i cs := by
    intro j
    cases hj : calls[j]? with
    | none => exact ⟨0, fun cs h => by cases h⟩
    | some cs =>
      obtain ⟨K, h⟩ := thread_runs hj cs (fun _ h => h) (hn cs (List.mem_of_getElem? hj))
      refine ⟨K, fun cs' h' => ?_⟩
      cases h'
      refine (h fun _ => none).mono (Nat.le_refl _) ?_
      rintro _ _ ⟨rs, rfl, h1, h2, rfl⟩
      refine ⟨rs, rfl, h1, fun k c x h3 h4 => ?_, rfl⟩
      have h5 := h2 k c x h3 h4
      cases c <;> cases x <;> first
        | exact h5
        | exact ⟨h5.1.imp id fun h => ⟨h.1, (errorsAfter_none rt cfg _ _).1 h.2⟩, h5.2⟩
  have hmax : ∀ l, ∃ K, ∀ j, j < l → ∀ cs, calls[j]? = some cs →
      Thread.Runs (procWorld L A m rt cfg errs calls j) K (threadActs L A m n rt.toPyRuntime cfg cs) (fun _ => none) fun r e' =>
        ∃ rs, r = some rs ∧ rs.length = cs.length ∧
        (∀ k c x, cs[k]? = some c → rs[k]? = some x → RightResult L A m rt cfg errs calls j (cs.take k) c x) ∧
        e' = fun i => errorsAfter rt cfg i cs := by
    intro l
    induction l with
    | zero => exact ⟨0, fun j h => by omega⟩
    | succ l ih =>
      obtain ⟨K, h⟩ := ih
      obtain ⟨K', h'⟩ := hK l
      refine ⟨max K K', fun j hj cs hcs => ?_⟩
      rcases Nat.lt_or_eq_of_le (Nat.le_of_lt_succ hj) with h1 | rfl
      · exact (h j h1 cs hcs).mono (by omega) fun _ _ h => h
      · exact (h' cs hcs).mono (by omega) fun _ _ h => h
  obtain ⟨K, hK⟩ := hmax calls.length
  refine ⟨K, fun schedule => ?_⟩
  refine Process.Inv.run (b := fun _ => K) ?_ schedule ⟨?_, ?_, ?_⟩
  · rintro j j' i ⟨-, h1⟩ ⟨cs, h2, h3⟩
    exact Classical.byContradiction fun hne => h1 j' cs h2 hne h3
  · intro a v h
    cases h
  · intro i
    exact .inr rfl
  · intro j p hp
    simp only [Process.new, List.getElem?_map, Option.map_eq_some_iff] at hp
    obtain ⟨cs, h1, rfl⟩ := hp
    have hlt : j < calls.length := by
      rcases Nat.lt_or_ge j calls.length with h | h
      · exact h
      · rw [List.getElem?_eq_none h] at h1; cases h1
    refine ⟨fun _ => none, fun _ _ => rfl, fun _ h => absurd rfl h, (hK j hlt cs h1).mono (Nat.le_refl _) fun r e h => ⟨cs, h1, h⟩⟩

/-- **C97.** In a process in which any number of threads call `parse` (with parser objects they may share) and `antlr_parse`, and
read `errors`, as often and in whatever order they like, under every schedule of their accesses to what they share, and
whichever look-ups miss: every thread that is given its turn often enough comes to an end, whatever the others do; and then
it has the right result for each of its calls. -/
theorem C97_process (L A : Atn) (hL : deserialize lexerData = some L) (hA : deserialize parserData = some A) (m : Nat) (hm : 28 ≤ m)
    (rt : Runtime) (hrt : rt.Antlr) (cfg : Nat → Config) (errs : Nat → List ErrorDetail) (calls : List (List ThreadCall)) :
    ∃ N, ∀ n, N ≤ n → ∃ K, ∀ schedule : List (Nat × Bool), ∀ j cs, calls[j]? = some cs →
      (K ≤ schedule.countP (fun x => x.1 = j) →
        ∃ rs, ((Process.new L A m n rt.toPyRuntime cfg errs calls).run schedule).result j = some rs) ∧
      ∀ rs, ((Process.new L A m n rt.toPyRuntime cfg errs calls).run schedule).result j = some rs →
        rs.length = cs.length ∧
        ∀ k c x, cs[k]? = some c → rs[k]? = some x → RightResult L A m rt cfg errs calls j (cs.take k) c x := by
  obtain ⟨N, hN⟩ := enough_exists L A hL hA m hm rt hrt cfg calls.flatten
  refine ⟨N, fun n hn => ?_⟩
  obtain ⟨K, hK⟩ := process_inv L A m n rt cfg errs calls fun cs hcs c hc => hN n hn c (List.mem_flatten.2 ⟨cs, hcs, hc⟩)
  refine ⟨K, fun schedule j cs hj => ?_⟩
  have hinv := hK schedule
  have hlt : j < calls.length := by
    rcases Nat.lt_or_ge j calls.length with h | h
    · exact h
    · rw [List.getElem?_eq_none h] at hj; cases hj
  have hlen : j < ((Process.new L A m n rt.toPyRuntime cfg errs calls).run schedule).threads.length := by
    rw [Process.run_length]
    simpa [Process.new] using hlt
  have hp := List.getElem?_eq_getElem hlen
  generalize hpe : ((Process.new L A m n rt.toPyRuntime cfg errs calls).run schedule).threads[j] = p at hp
  obtain ⟨e, -, -, h2⟩ := hinv.runs j p hp
  unfold Process.result
  rw [hp]
  cases p with
  | ret r =>
    obtain ⟨cs', h3, rs, rfl, h4, h5, -⟩ := Thread.runs_ret.1 h2
    rw [hj] at h3
    cases h3
    refine ⟨fun _ => ⟨rs, rfl⟩, fun rs' h => ?_⟩
    cases h
    exact ⟨h4, h5⟩
  | op o k =>
    refine ⟨fun h => ?_, fun rs h => by cases h⟩
    rw [Nat.sub_eq_zero_of_le h] at h2
    exact h2.elim

/-- **C97.** At any time, `errors` of a parser object are the records of one of the `parse` calls on it, complete, or what was
there at first; the latter only if no thread that parses with it has come to an end; when the only thread that parses with the
object has come to an end, those of its last call. -/
theorem C97_errors (L A : Atn) (hL : deserialize lexerData = some L) (hA : deserialize parserData = some A) (m : Nat) (hm : 28 ≤ m)
    (rt : Runtime) (hrt : rt.Antlr) (cfg : Nat → Config) (errs : Nat → List ErrorDetail) (calls : List (List ThreadCall)) :
    ∃ N, ∀ n, N ≤ n → ∀ (schedule : List (Nat × Bool)) (i : Nat) (es : List ErrorDetail),
      ((Process.new L A m n rt.toPyRuntime cfg errs calls).run schedule).mem.errors i = es →
      (CallErrors rt cfg calls i es ∨ es = errs i) ∧
      ∀ j cs rs, calls[j]? = some cs → ((Process.new L A m n rt.toPyRuntime cfg errs calls).run schedule).result j = some rs →
        (Parses i cs → CallErrors rt cfg calls i es) ∧
        (Alone calls j i → es = (errorsAfter rt cfg i cs).getD (errs i)) := by
  obtain ⟨N, hN⟩ := enough_exists L A hL hA m hm rt hrt cfg calls.flatten
  refine ⟨N, fun n hn schedule i es hes => ?_⟩
  subst hes
  obtain ⟨K, hK⟩ := process_inv L A m n rt cfg errs calls fun cs hcs c hc => hN n hn c (List.mem_flatten.2 ⟨cs, hcs, hc⟩)
  have hinv := hK schedule
  refine ⟨hinv.errors i, fun j cs rs hj hr => ?_⟩
  have hlt : j < calls.length := by
    rcases Nat.lt_or_ge j calls.length with h | h
    · exact h
    · rw [List.getElem?_eq_none h] at hj; cases hj
  unfold Process.result at hr
  cases hp : ((Process.new L A m n rt.toPyRuntime cfg errs calls).run schedule).threads[j]? with
  | none => rw [hp] at hr; cases hr
  | some p =>
    rw [hp] at hr
    cases p with
    | op o k => cases hr
    | ret r =>
      obtain ⟨e, h1, h0, h2⟩ := hinv.runs j _ hp
      obtain ⟨cs', h3, rs', rfl, h4, h5, rfl⟩ := Thread.runs_ret.1 h2
      rw [hj] at h3
      cases h3
      exact ⟨fun h => h0 i fun hn => (errorsAfter_none rt cfg i cs).1 hn h, fun h => h1 i ⟨hlt, h⟩⟩

/-- A process with two threads: both parse with the same parser object, the second one twice; both make use of what the other one
has stored. -/
def twoThreads : List (List ThreadCall) := [[.parse 0 py!"'a'", .errors 1], [.antlr py!"]", .parse 0 py!"'b", .errors 0]]

/-- The process, with these threads. -/
def twoThreadsRun (schedule : List (Nat × Bool)) : Process :=
  (Process.new lexerAtn parserAtn 28 60 rt0.toPyRuntime (fun _ => defaultConfig) (fun _ => []) twoThreads).run schedule

/-- Whether calls were successful, or a list was empty. -/
def ThreadResult.fine : ThreadResult → Bool
  | .node r => r.toOption.isSome
  | .tree r => r.2.toOption.isSome
  | .errors es => es.isEmpty

-- the threads take turns, and every fifth look-up misses
example : ((twoThreadsRun ((List.range 80).map fun i => (i % 2, decide (i % 5 = 0)))).result 0).map (List.map ThreadResult.fine) =
    some [true, true] := by
  decide +kernel

example : ((twoThreadsRun ((List.range 80).map fun i => (i % 2, decide (i % 5 = 0)))).result 1).map (List.map ThreadResult.fine) =
    some [false, false, false] := by
  decide +kernel

-- `errors` of the shared object are those of the first thread's call, or of the second one's
example : ((twoThreadsRun ((List.range 80).map fun i => (i % 2, decide (i % 5 = 0)))).mem.errors 0).map ErrorDetail.message = [] := by
  decide +kernel

example : ((twoThreadsRun ((List.range 80).map fun i => (i / 40, false))).mem.errors 0).map ErrorDetail.message =
    [py!"token recognition error at: ''b'", py!"mismatched input '<EOF>' expecting {'(', '[', REGEXP}"] := by
  decide +kernel

-- the first thread has stored something the second one can find
example : let P := twoThreadsRun ((List.range 6).map fun _ => (0, false))
    (P.mem.stored .lexStart).isSome = true ∧ (P.mem.stored (.start 0)).isSome = false := by
  decide +kernel

end Fcsql
