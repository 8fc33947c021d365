/-
C102: an exception from outside at any moment.
-/
import Verif.Proofs.Faults
import Verif.Proofs.FaultBuilder
import Verif.Spec.Faults
import Verif.Props.Program

set_option autoImplicit false
set_option linter.unusedSimpArgs false

namespace Fcsql

attribute [local irreducible] parserAtn parseQuery lexerAtn lexPieces

/-! ### The `try` block -/

/-- The `try` block: as without exceptions from outside, or struck. -/
theorem tryF_same (L A : Atn) (m n : Nat) (rt : PyRuntime) (cfg : Config) (F : Faults) (q : PyStr) {r : Except ParserException Node}
    {errors : List ErrorDetail} (h : parseProgram L A m n rt cfg q = some (r, errors)) :
    (∃ o, tryF L A m n rt cfg F q = some (o, errors) ∧ ((∃ e, r = .error e ∧ o = .parserException e) ∨ TryOut.plain r o)) ∨
    ∃ k es, tryF L A m n rt cfg F q = some (.strike k, es) ∧ es <+: errors ∧
      ((∃ t ctx j, F.rules t ctx = some (k, j)) ∨ F.after = some k ∨ ∃ i, F.builder i = some k) ∧
      ((∀ t ctx, F.rules t ctx = none) → es = errors) := by
  unfold parseProgram at h
  cases hc : callP L m q A code n .query with
  | none => rw [hc] at h; cases h
  | some x =>
    obtain ⟨f, calls⟩ := x
    rw [hc] at h
    simp only [parseOutcome, Option.some.injEq] at h
    unfold tryF
    rcases callF_same (O := F.rules) hc with h1 | ⟨k, cs, h1, h2, h3⟩
    · rw [h1]
      simp only
      cases ha : F.after with
      | some k =>
        right
        refine ⟨k, _, rfl, ?_, .inr (.inl rfl), fun _ => ?_⟩
        · split at h <;> (cases h; exact List.prefix_rfl)
        · split at h <;> (cases h; rfl)
      | none =>
        simp only
        split at h
        · rename_i hb
          cases h
          rw [if_pos hb]
          rcases runBuilderF_same rt cfg F.builder (.node .query f) with ⟨k, h4, h5⟩ | h4
          · exact .inr ⟨k, _, by rw [h4], List.prefix_rfl, .inr (.inr h5), fun _ => rfl⟩
          · exact .inl ⟨_, rfl, .inr h4⟩
        · rename_i hb
          cases h
          rw [if_neg hb]
          exact .inl ⟨_, rfl, .inl ⟨_, rfl, rfl⟩⟩
    · right
      rw [h1]
      refine ⟨k, _, rfl, ?_, .inl h3, fun h4 => by obtain ⟨t, ctx, j, h3⟩ := h3; rw [h4] at h3; cases h3⟩
      have : cs.map (ListenerCall.record q) <+: calls.map (ListenerCall.record q) := h2.map _
      split at h <;> (cases h; exact this)

theorem tryF_mono {L A : Atn} {m n k : Nat} (hk : n ≤ k) {rt : PyRuntime} {cfg : Config} {F : Faults} {q : PyStr} {o : TryOut × List ErrorDetail}
    (h : tryF L A m n rt cfg F q = some o) : tryF L A m k rt cfg F q = some o := by
  unfold tryF at h ⊢
  cases hc : callF L m q A F.rules code n .query with
  | none => rw [hc] at h; cases h
  | some x => rw [hc] at h; rw [callF_mono hk hc]; exact h

theorem parseF_mono {L A : Atn} {m n k : Nat} (hk : n ≤ k) {rt : PyRuntime} {cfg : Config} {F : Faults} {old : List ErrorDetail} {q : PyStr}
    {o : ParseEnd × List ErrorDetail} (h : parseF L A m n rt cfg F old q = some o) : parseF L A m k rt cfg F old q = some o := by
  unfold parseF at h ⊢
  cases he : F.entry with
  | some x => rw [he] at h; exact h
  | none =>
    rw [he] at h
    simp only at h ⊢
    cases hc : tryF L A m n rt cfg F q with
    | none => rw [hc] at h; cases h
    | some x => rw [hc] at h; rw [tryF_mono hk hc]; exact h

/-! ### `parse` -/

/-- Everything about one call. -/
theorem parseF_facts {L A : Atn} {m n : Nat} {rt : PyRuntime} {cfg : Config} (F : Faults) (old : List ErrorDetail) {q : PyStr}
    {r : Except ParserException Node} {errors : List ErrorDetail} (h : parseProgram L A m n rt cfg q = some (r, errors)) :
    ∃ e es, parseF L A m n rt cfg F old q = some (e, es) ∧
      (e.Fair r ∧ ((∃ k, e = .strike k ∧ es = old) ∨ es <+: errors) ∧ (e = .of r → r ≠ .error unexpected → es = errors)) ∧
      (F.Inside → e ≠ .strike .exception ∧ es <+: errors) ∧
      (F.Only .base → e = .strike .base ∨ e = .of r ∧ es = errors) ∧
      (F = .none → e = .of r ∧ es = errors) := by
  have hnone : F = .none → F.Inside ∧ ∀ k, ¬ ((∃ t ctx j, F.rules t ctx = some (k, j)) ∨ F.after = some k ∨ ∃ i, F.builder i = some k) := by
    rintro rfl
    refine ⟨⟨rfl, rfl, rfl⟩, ?_⟩
    rintro k (⟨t, ctx, j, h⟩ | h | ⟨i, h⟩) <;> cases h
  unfold parseF
  cases he : F.entry with
  | some k =>
    refine ⟨.strike k, old, rfl, ⟨trivial, .inl ⟨k, rfl, rfl⟩, ?_⟩, ?_, ?_, ?_⟩
    · intro h1; cases r <;> cases h1
    · rintro ⟨h1, -, -⟩; rw [he] at h1; cases h1
    · rintro ⟨h1, -⟩; rw [h1 k he]; exact .inl rfl
    · intro h1; have := (hnone h1).1.1; rw [he] at this; cases this
  | none =>
    simp only
    have hleave : ∀ k (o : TryOut × List ErrorDetail), F.leave = some k → tryF L A m n rt cfg F q = some o →
        ∃ e es, (match tryF L A m n rt cfg F q with
          | .none => .none
          | some (r, errors) =>
            match F.leave with
            | some k => some (.strike k, old)
            | .none => some (handlersF F.handler r, errors)) = some (e, es) ∧
        (e.Fair r ∧ ((∃ k, e = .strike k ∧ es = old) ∨ es <+: errors) ∧ (e = .of r → r ≠ .error unexpected → es = errors)) ∧
        (F.Inside → e ≠ .strike .exception ∧ es <+: errors) ∧
        (F.Only .base → e = .strike .base ∨ e = .of r ∧ es = errors) ∧
        (F = .none → e = .of r ∧ es = errors) := by
      intro k o hl ht
      rw [ht, hl]
      refine ⟨.strike k, old, rfl, ⟨trivial, .inl ⟨k, rfl, rfl⟩, ?_⟩, ?_, ?_, ?_⟩
      · intro h1; cases r <;> cases h1
      · rintro ⟨-, -, h1⟩; rw [hl] at h1; cases h1
      · rintro ⟨-, -, -, -, -, h1⟩; rw [h1 k hl]; exact .inl rfl
      · intro h1; have := (hnone h1).1.2.2; rw [hl] at this; cases this
    rcases tryF_same L A m n rt cfg F q h with ⟨o, h1, h2⟩ | ⟨k, es, h1, h2, h3, -⟩
    · cases hl : F.leave with
      | some k => rw [← hl]; exact hleave k _ hl h1
      | none =>
        rw [h1]
        simp only
        have hh : (handlersF F.handler o = .of r) ∨ ∃ k, F.handler = some k ∧ handlersF F.handler o = .strike k := by
          cases r with
          | ok x =>
            rcases h2 with ⟨e, h2, -⟩ | h2
            · cases h2
            · cases h2; exact .inl rfl
          | error x =>
            cases hf : F.handler with
            | none =>
              left
              rcases h2 with ⟨e, h2, rfl⟩ | ⟨msg, rfl, rfl⟩ | ⟨rfl, rfl⟩
              · cases h2; rfl
              · rfl
              · rfl
            | some k =>
              right
              refine ⟨k, rfl, ?_⟩
              rcases h2 with ⟨e, h2, rfl⟩ | ⟨msg, rfl, rfl⟩ | ⟨rfl, rfl⟩ <;> rfl
        refine ⟨_, _, rfl, ?_⟩
        rcases hh with hh | ⟨k, hk, hh⟩
        · rw [hh]
          refine ⟨⟨?_, .inr List.prefix_rfl, fun _ _ => rfl⟩, fun _ => ⟨?_, List.prefix_rfl⟩, fun _ => .inr ⟨rfl, rfl⟩, fun _ => ⟨rfl, rfl⟩⟩
          · cases r with
            | ok x => rfl
            | error x => exact .inl rfl
          · intro h4; cases r <;> cases h4
        · rw [hh]
          refine ⟨⟨trivial, .inr List.prefix_rfl, fun _ _ => rfl⟩, ?_, ?_, ?_⟩
          · rintro ⟨-, h4, -⟩; rw [hk] at h4; cases h4
          · rintro ⟨-, -, -, -, h4, -⟩; rw [h4 k hk]; exact .inl rfl
          · intro h4; have := (hnone h4).1.2.1; rw [hk] at this; cases this
    · cases hl : F.leave with
      | some k => rw [← hl]; exact hleave k _ hl h1
      | none =>
        rw [h1]
        simp only
        refine ⟨_, _, rfl, ?_⟩
        have hbase : F.Only .base → k = .base := by
          rintro ⟨-, h4, h5, h6, -, -⟩
          rcases h3 with ⟨t, ctx, j, h3⟩ | h3 | ⟨i, h3⟩
          · exact h4 t ctx k j h3
          · exact h5 k h3
          · exact h6 i k h3
        cases k with
        | base =>
          refine ⟨⟨trivial, .inr h2, ?_⟩, fun _ => ⟨?_, h2⟩, fun _ => .inl rfl, fun h4 => absurd h3 ((hnone h4).2 _)⟩
          · intro h1; cases r <;> cases h1
          · intro h1; cases h1
        | exception =>
          refine ⟨⟨?_, .inr h2, ?_⟩, fun h4 => ⟨?_, h2⟩, fun h4 => (by cases hbase h4), fun h4 => absurd h3 ((hnone h4).2 _)⟩
          · cases hf : F.handler with
            | none => exact .inr rfl
            | some k => trivial
          · intro h4 h5
            cases hf : F.handler with
            | none =>
              rw [hf] at h4
              cases r with
              | ok x => cases h4
              | error x => cases h4; exact absurd rfl h5
            | some k => rw [hf] at h4; cases r <;> cases h4
          · rw [h4.2.1]; intro h5; cases h5

/-- Something arrives before the `try` statement, or in the `finally` clause. -/
theorem parseF_outside {L A : Atn} {m n : Nat} {rt : PyRuntime} {cfg : Config} {F : Faults} {old : List ErrorDetail} {q : PyStr}
    {e : ParseEnd} {es : List ErrorDetail} (h : parseF L A m n rt cfg F old q = some (e, es))
    (hF : F.entry.isSome = true ∨ F.leave.isSome = true) : (∃ k, e = .strike k) ∧ es = old := by
  unfold parseF at h
  cases he : F.entry with
  | some k => rw [he] at h; cases h; exact ⟨⟨k, rfl⟩, rfl⟩
  | none =>
    rw [he] at h hF
    simp only at h
    split at h
    · cases h
    · cases hl : F.leave with
      | some k => rw [hl] at h; cases h; exact ⟨⟨k, rfl⟩, rfl⟩
      | none => rw [hl] at hF; simp at hF

/-- Nothing arrives in the rule functions, before the `try` statement and in the `finally` clause. -/
theorem parseF_late {L A : Atn} {m n : Nat} {rt : PyRuntime} {cfg : Config} {F : Faults} {old : List ErrorDetail} {q : PyStr}
    {r : Except ParserException Node} {errors : List ErrorDetail} (h : parseProgram L A m n rt cfg q = some (r, errors))
    {e : ParseEnd} {es : List ErrorDetail} (h1 : parseF L A m n rt cfg F old q = some (e, es))
    (hF : (∀ t ctx, F.rules t ctx = none) ∧ F.entry = none ∧ F.leave = none) : es = errors := by
  unfold parseF at h1
  rw [hF.2.1, hF.2.2] at h1
  rcases tryF_same L A m n rt cfg F q h with ⟨o, g1, -⟩ | ⟨k, es', g1, -, -, g2⟩
  · rw [g1] at h1; cases h1; rfl
  · rw [g1] at h1; cases h1; exact g2 hF.1

theorem parseQuery_pair (rt : Runtime) (cfg : Config) (q : PyStr) : parseQuery rt cfg q = ((parseQuery rt cfg q).1, (parseQuery rt cfg q).2) := rfl

/-- **C102.** Whatever arrives during a call of `parse`, and whenever: the call comes to an end, in one way.  It returns a node only if
that is the node without it; it raises the `QueryParserException` it would have raised, or the one that says that something
unexpected occurred; or what has arrived leaves the call.  `errors` are a first part of what they would have been (all of it if
the end is as it would have been), or what they were before, and that only if something has left the call.  If something arrives
after the beginning of the `try` statement, but neither in an `except` clause nor in the `finally` clause, no `Exception` leaves the
call, and `errors` are not what they were; if it arrives before the `try` statement or in the `finally` clause, it leaves the call and
they are; if after the end of the rule functions, but not in the `finally` clause, `errors` are all they would have been. -/
theorem C102_parse (L A : Atn) (hL : deserialize lexerData = some L) (hA : deserialize parserData = some A) (m : Nat) (hm : 28 ≤ m)
    (rt : Runtime) (hrt : rt.Antlr) (cfg : Config) (F : Faults) (old : List ErrorDetail) (q : PyStr) :
    ∃ e es, (∃ N, ∀ n, N ≤ n → parseF L A m n rt.toPyRuntime cfg F old q = some (e, es)) ∧
      (∀ n, parseF L A m n rt.toPyRuntime cfg F old q = none ∨ parseF L A m n rt.toPyRuntime cfg F old q = some (e, es)) ∧
      (∀ x, e = .node x → (parseQuery rt cfg q).1 = .ok x) ∧
      (∀ x, e = .parserException x → (parseQuery rt cfg q).1 = .error x ∨ x = unexpected) ∧
      ((∃ k, e = .strike k ∧ es = old) ∨ es <+: (parseQuery rt cfg q).2) ∧
      (e = .of (parseQuery rt cfg q).1 → (parseQuery rt cfg q).1 ≠ .error unexpected → es = (parseQuery rt cfg q).2) ∧
      (F.Inside → e ≠ .strike .exception ∧ es <+: (parseQuery rt cfg q).2) ∧
      (F.entry.isSome = true ∨ F.leave.isSome = true → (∃ k, e = .strike k) ∧ es = old) ∧
      ((∀ t ctx, F.rules t ctx = none) ∧ F.entry = none ∧ F.leave = none → es = (parseQuery rt cfg q).2) := by
  obtain ⟨⟨N, hN⟩, -⟩ := C95_program L A hL hA m hm rt hrt cfg q
  obtain ⟨e, es, h1, ⟨h2, h3, h4⟩, h5, -, -⟩ := parseF_facts F old ((hN N (Nat.le_refl _)).trans (by rw [← parseQuery_pair]))
  refine ⟨e, es, ⟨N, fun n hn => parseF_mono hn h1⟩, fun n => ?_, ?_, ?_, h3, h4, h5, parseF_outside h1,
    parseF_late ((hN N (Nat.le_refl _)).trans (by rw [← parseQuery_pair])) h1⟩
  · cases hx : parseF L A m n rt.toPyRuntime cfg F old q with
    | none => exact .inl rfl
    | some x =>
      right
      have h6 := parseF_mono (Nat.le_max_left n N) hx
      rw [parseF_mono (Nat.le_max_right n N) h1] at h6
      exact h6.symm
  · rintro x rfl; exact h2
  · rintro x rfl; exact h2

/-- **C102.** `KeyboardInterrupt` and the like are never turned into another exception, and change nothing if they come too late: the
call ends with it, or as it would have ended. -/
theorem C102_interrupt (L A : Atn) (hL : deserialize lexerData = some L) (hA : deserialize parserData = some A) (m : Nat) (hm : 28 ≤ m)
    (rt : Runtime) (hrt : rt.Antlr) (cfg : Config) (F : Faults) (hF : F.Only .base) (old : List ErrorDetail) (q : PyStr) :
    ∃ N, ∀ n, N ≤ n → ∃ e es, parseF L A m n rt.toPyRuntime cfg F old q = some (e, es) ∧
      (e = .strike .base ∨ e = .of (parseQuery rt cfg q).1 ∧ es = (parseQuery rt cfg q).2) := by
  obtain ⟨⟨N, hN⟩, -⟩ := C95_program L A hL hA m hm rt hrt cfg q
  refine ⟨N, fun n hn => ?_⟩
  obtain ⟨e, es, h1, -, -, h2, -⟩ := parseF_facts F old ((hN n hn).trans (by rw [← parseQuery_pair]))
  exact ⟨e, es, h1, h2 hF⟩

/-- **C102.** Calls of `parse` on one object, any of them struck in any way: each of them ends as C102_parse says for its own query;
those that are not struck end as ever; `errors` are in the end a first part of those of one of the queries (of the last
one, and all, if it is not struck; as before the last one, if that is struck at once), or what they were at first. -/
theorem C102_history (L A : Atn) (hL : deserialize lexerData = some L) (hA : deserialize parserData = some A) (m : Nat) (hm : 28 ≤ m)
    (rt : Runtime) (hrt : rt.Antlr) (cfg : Config) (cs : List (PyStr × Faults)) :
    ∃ N, ∀ n, N ≤ n → ∀ old, ∃ rs es, parsesF L A m n rt.toPyRuntime cfg cs old = some (rs, es) ∧ rs.length = cs.length ∧
      (∀ (i : Nat) (q : PyStr) (F : Faults) (r : ParseEnd), cs[i]? = some (q, F) → rs[i]? = some r → r.Fair (parseQuery rt cfg q).1) ∧
      (∀ (i : Nat) (q : PyStr) (r : ParseEnd), cs[i]? = some (q, .none) → rs[i]? = some r → r = .of (parseQuery rt cfg q).1) ∧
      (es = old ∨ ∃ q F, (q, F) ∈ cs ∧ es <+: (parseQuery rt cfg q).2) ∧
      (∀ cs' q, cs = cs' ++ [(q, .none)] → es = (parseQuery rt cfg q).2) ∧
      ∀ cs' q F, cs = cs' ++ [(q, F)] → (F.entry.isSome = true ∨ F.leave.isSome = true) →
        ∃ rs', parsesF L A m n rt.toPyRuntime cfg cs' old = some (rs', es) := by
  induction cs with
  | nil =>
    refine ⟨0, fun n _ old => ⟨[], old, rfl, rfl, ?_, ?_, .inl rfl, ?_, ?_⟩⟩
    · intro i q F r h; simp at h
    · intro i q r h; simp at h
    · intro cs' q h; simp at h
    · intro cs' q F h; simp at h
  | cons c cs ih =>
    obtain ⟨q, F⟩ := c
    obtain ⟨N, hN⟩ := ih
    obtain ⟨⟨N', hN'⟩, -⟩ := C95_program L A hL hA m hm rt hrt cfg q
    refine ⟨max N N', fun n hn old => ?_⟩
    obtain ⟨e, es, h1, ⟨h2, h3, -⟩, -, -, h4⟩ := parseF_facts F old ((hN' n (by omega)).trans (by rw [← parseQuery_pair]))
    obtain ⟨rs, es', g1, g2, g3, g4, g5, g6, g7⟩ := hN n (by omega) es
    refine ⟨e :: rs, es', ?_, by simp [g2], ?_, ?_, ?_, ?_, ?_⟩
    · rw [parsesF, h1]
      simp only [g1]
    · intro i q' F' r hi hr
      cases i with
      | zero => simp only [List.getElem?_cons_zero, Option.some.injEq] at hi hr; cases hi; cases hr; exact h2
      | succ i => exact g3 i q' F' r (by simpa using hi) (by simpa using hr)
    · intro i q' r hi hr
      cases i with
      | zero => simp only [List.getElem?_cons_zero, Option.some.injEq] at hi hr; cases hi; cases hr; exact (h4 rfl).1
      | succ i => exact g4 i q' r (by simpa using hi) (by simpa using hr)
    · rcases g5 with rfl | ⟨q', F', h5, h6⟩
      · rcases h3 with ⟨k, -, rfl⟩ | h3
        · exact .inl rfl
        · exact .inr ⟨q, F, List.mem_cons_self .., h3⟩
      · exact .inr ⟨q', F', List.mem_cons_of_mem _ h5, h6⟩
    · intro cs' q' hcs
      cases cs' with
      | nil =>
        simp only [List.nil_append, List.cons.injEq, Prod.mk.injEq] at hcs
        obtain ⟨⟨rfl, rfl⟩, rfl⟩ := hcs
        rw [parsesF] at g1
        cases g1
        exact (h4 rfl).2
      | cons c cs' =>
        simp only [List.cons_append, List.cons.injEq] at hcs
        exact g6 cs' q' hcs.2
    · intro cs' q' F' hcs hF
      cases cs' with
      | nil =>
        simp only [List.nil_append, List.cons.injEq, Prod.mk.injEq] at hcs
        obtain ⟨⟨rfl, rfl⟩, rfl⟩ := hcs
        rw [parsesF] at g1
        cases g1
        rw [(parseF_outside h1 hF).2]
        exact ⟨[], rfl⟩
      | cons c cs' =>
        simp only [List.cons_append, List.cons.injEq] at hcs
        obtain ⟨rfl, hcs⟩ := hcs
        obtain ⟨rs', h6⟩ := g7 cs' q' F' hcs hF
        refine ⟨e :: rs', ?_⟩
        rw [parsesF, h1]
        simp only [h6]

/-! ### `antlr_parse` -/

theorem listeners_prefix : ∀ (cs calls : List ListenerCall), cs <+: calls →
    (∀ e, (antlrListeners cs).2 = some e → antlrListeners calls = antlrListeners cs) ∧
    ((antlrListeners cs).2 = none → (antlrListeners cs).1 <+: (antlrListeners calls).1) := by
  intro cs
  induction cs with
  | nil => exact fun calls _ => ⟨fun e h => by simp [antlrListeners] at h, fun _ => List.nil_prefix⟩
  | cons c cs ih =>
    intro calls h
    cases calls with
    | nil => simp at h
    | cons d calls =>
      obtain ⟨rfl, h'⟩ := List.cons_prefix_cons.1 h
      obtain ⟨h1, h2⟩ := ih calls h'
      cases c with
      | lexer r =>
        simp only [antlrListeners]
        exact ⟨fun e he => by rw [h1 e he], fun he => List.cons_prefix_cons.2 ⟨rfl, h2 he⟩⟩
      | parser t msg => exact ⟨fun _ _ => rfl, fun h => by simp [antlrListeners] at h⟩

/-- **C102.** Whatever arrives during a call of `antlr_parse`, and whenever: the call prints and ends as without it, or what has
arrived leaves it, and the lines printed by then are the first ones of those it would have printed. -/
theorem C102_antlr (L A : Atn) (hL : deserialize lexerData = some L) (hA : deserialize parserData = some A) (m : Nat) (hm : 28 ≤ m)
    (O : Strikes) (q : PyStr) :
    ∃ N, ∀ n, N ≤ n → ∃ out r, antlrProgram L A m n q = some (out, r) ∧
      (antlrF L A m n O q = some (out, .of r) ∨
        ∃ k out', antlrF L A m n O q = some (out', .strike k) ∧ out' <+: out ∧ ∃ t ctx j, O t ctx = some (k, j)) := by
  obtain ⟨out, r, ⟨N, hN⟩, -⟩ := C96_program L A hL hA m hm q
  refine ⟨N, fun n hn => ⟨out, r, hN n hn, ?_⟩⟩
  have h := hN n hn
  unfold antlrProgram at h
  unfold antlrF
  cases hc : callP L m q A code n .query with
  | none => rw [hc] at h; cases h
  | some x =>
    obtain ⟨f, calls⟩ := x
    rw [hc] at h
    simp only [antlrOutcome, Option.some.injEq] at h
    rcases callF_same (O := O) hc with h1 | ⟨k, cs, h1, h2, h3⟩
    · left
      rw [h1]
      simp only
      rcases hl : antlrListeners calls with ⟨o, e⟩
      rw [hl] at h
      cases e <;> (cases h; rfl)
    · rw [h1]
      simp only
      obtain ⟨g1, g2⟩ := listeners_prefix _ _ h2
      rcases hl : antlrListeners cs with ⟨o, e⟩
      rw [hl] at g1 g2
      cases e with
      | some e =>
        left
        rw [g1 e rfl] at h
        cases h
        rfl
      | none =>
        right
        refine ⟨k, o, rfl, ?_, h3⟩
        have := g2 rfl
        rcases hl' : antlrListeners calls with ⟨o', e'⟩
        rw [hl'] at h this
        cases e' <;> (cases h; exact this)

/-! ### The recursion limit -/

/-- **C102.** Whatever the recursion limit, and whatever the query: `parse` ends as it would without a limit, or with the
exception that says that something unexpected occurred, and `errors` are then a first part of what they would have been.  (C70 says
how much room a query of the language needs.) -/
theorem C102_recursion (L A : Atn) (hL : deserialize lexerData = some L) (hA : deserialize parserData = some A) (m : Nat) (hm : 28 ≤ m)
    (rt : Runtime) (hrt : rt.Antlr) (cfg : Config) (room : Nat) (B : Nat → Option Strike) (hB : ∀ i k, B i = some k → k = .exception)
    (old : List ErrorDetail) (q : PyStr) :
    ∃ N, ∀ n, N ≤ n → ∃ e es,
      parseF L A m n rt.toPyRuntime cfg { Faults.none with rules := recursionLimit room, builder := B } old q = some (e, es) ∧
      (e = .of (parseQuery rt cfg q).1 ∧ es = (parseQuery rt cfg q).2 ∨ e = .parserException unexpected ∧ es <+: (parseQuery rt cfg q).2) := by
  obtain ⟨⟨N, hN⟩, -⟩ := C95_program L A hL hA m hm rt hrt cfg q
  refine ⟨N, fun n hn => ?_⟩
  have h := hN n hn
  rw [parseQuery_pair rt cfg q] at h
  generalize hF : ({ Faults.none with rules := recursionLimit room, builder := B } : Faults) = F
  have hin : F.Inside := by subst hF; exact ⟨rfl, rfl, rfl⟩
  have hex : ∀ k, ((∃ t ctx j, F.rules t ctx = some (k, j)) ∨ F.after = some k ∨ ∃ i, F.builder i = some k) → k = .exception := by
    subst hF
    rintro k (⟨t, ctx, j, h1⟩ | h1 | ⟨i, h1⟩)
    · simp only [recursionLimit] at h1
      split at h1
      · cases h1; rfl
      · cases h1
    · cases h1
    · exact hB i k h1
  obtain ⟨e, es, h1, ⟨h2, h3, h4⟩, h5, -, -⟩ := parseF_facts F old h
  refine ⟨e, es, h1, ?_⟩
  cases e with
  | node x =>
    left
    have h2 : (parseQuery rt cfg q).1 = .ok x := h2
    refine ⟨by rw [h2]; rfl, h4 (by rw [h2]; rfl) (by rw [h2]; intro h; cases h)⟩
  | parserException x =>
    by_cases hx : x = unexpected
    · subst hx; exact .inr ⟨rfl, (h5 hin).2⟩
    · left
      have h2 : (parseQuery rt cfg q).1 = .error x := by
        rcases h2 with h2 | h2
        · exact h2
        · exact absurd h2 hx
      refine ⟨by rw [h2]; rfl, h4 (by rw [h2]; rfl) (by rw [h2]; intro h; cases h; exact hx rfl)⟩
  | strike k =>
    exfalso
    -- only `BaseException`s leave the call, and none arrives
    unfold parseF at h1
    rw [hin.1, hin.2.2] at h1
    simp only at h1
    rcases tryF_same L A m n rt.toPyRuntime cfg F q h with ⟨o, g1, g2⟩ | ⟨k', es', g1, -, g3, -⟩
    · rw [g1, hin.2.1] at h1
      simp only [Option.some.injEq, Prod.mk.injEq] at h1
      have h1 := h1.1
      rcases g2 with ⟨e, -, rfl⟩ | g2
      · cases h1
      · cases hr : (parseQuery rt cfg q).1 with
        | ok x => rw [hr] at g2; cases g2; cases h1
        | error x =>
          rw [hr] at g2
          rcases g2 with ⟨msg, rfl, -⟩ | ⟨rfl, -⟩ <;> cases h1
    · rw [g1, hin.2.1, hex k' g3] at h1
      simp only [Option.some.injEq, Prod.mk.injEq] at h1
      cases h1.1

/-! ### Examples -/

/-- How a call ended, in short. -/
def ParseEnd.brief : ParseEnd → Option (PyStr ⊕ Strike)
  | .node _ => none
  | .parserException e => some (.inl e.msg)
  | .strike k => some (.inr k)

/-- A call on an object with one old error, in short. -/
def struckCall (F : Faults) (q : PyStr) : Option (Option (PyStr ⊕ Strike) × List PyStr) :=
  (parseF lexerAtn parserAtn 28 60 rt0.toPyRuntime defaultConfig F
    [{ message := py!"old", type := none, position := .none, fragment := none }] q).map fun r => (r.1.brief, r.2.map ErrorDetail.message)

/-- Something arrives at the moment with this number in the rule functions, after `j` more calls on the listener. -/
def atMoment (k : Strike) (t j : Nat) : Faults :=
  { Faults.none with rules := fun t' _ => if t' = t then some (k, j) else none }

-- undisturbed: three errors
example : struckCall .none py!"'a' $ ) 'b' #" = some (some (.inl py!"unable to parse query: token recognition error at: '$'"),
    [py!"token recognition error at: '$'", py!"mismatched input ')' expecting {<EOF>, 'within'}", py!"token recognition error at: '#'"]) := by
  decide +kernel

-- struck before anything is reported; Ctrl-C leaves the call, an `Exception` does not
example : struckCall (atMoment .base 0 0) py!"'a' $ ) 'b' #" = some (some (.inr .base), []) := by decide +kernel
example : struckCall (atMoment .exception 0 0) py!"'a' $ ) 'b' #" = some (some (.inl py!"an unexpected exception occured while parsing"), []) := by
  decide +kernel

-- later: an error has been reported
example : struckCall (atMoment .exception 10 0) py!"'a' $ ) 'b' #" =
    some (some (.inl py!"an unexpected exception occured while parsing"), [py!"token recognition error at: '$'"]) := by
  decide +kernel

-- still later: the error strategy is at work
example : struckCall (atMoment .exception 21 1) py!"'a' $ ) 'b' #" =
    some (some (.inl py!"an unexpected exception occured while parsing"),
      [py!"token recognition error at: '$'", py!"mismatched input ')' expecting {<EOF>, 'within'}"]) := by
  decide +kernel

-- in the `finally` clause: the old errors remain
example : struckCall { Faults.none with leave := some .exception } py!"'a'" = some (some (.inr .exception), [py!"old"]) := by decide +kernel

-- in the tree builder; and too late
example : struckCall { Faults.none with builder := fun i => if i = 5 then some .exception else none } py!"'a'" =
    some (some (.inl py!"an unexpected exception occured while parsing"), []) := by decide +kernel
example : struckCall { Faults.none with builder := fun i => if i = 50 then some .exception else none } py!"'a'" = some (none, []) := by decide +kernel

-- not enough room for the rule functions, with a malformed query; enough room
example : struckCall { Faults.none with rules := recursionLimit 3 } py!"'a' $ ) 'b' #" =
    some (some (.inl py!"an unexpected exception occured while parsing"), [py!"token recognition error at: '$'"]) := by
  decide +kernel
example : struckCall { Faults.none with rules := recursionLimit 20 } py!"'a'" = some (none, []) := by decide +kernel

-- three calls on one object: struck in the rule functions, struck when it is left, not struck
example : (parsesF lexerAtn parserAtn 28 60 rt0.toPyRuntime defaultConfig
    [(py!"$ )", atMoment .base 3 0), (py!"'a'", { Faults.none with leave := some .base }), (py!"'a'", .none)] []).map
      (fun r => (r.1.map ParseEnd.brief, r.2.map ErrorDetail.message)) =
    some ([some (.inr .base), some (.inr .base), none], []) := by decide +kernel
example : (parsesF lexerAtn parserAtn 28 60 rt0.toPyRuntime defaultConfig
    [(py!"$ )", atMoment .base 3 0), (py!"'a'", { Faults.none with leave := some .base })] []).map (fun r => r.2.map ErrorDetail.message) =
    some [py!"token recognition error at: '$'"] := by decide +kernel

-- `antlr_parse`, struck after one line was printed
example : (antlrF lexerAtn parserAtn 28 60 (fun t _ => if t = 10 then some (.base, 0) else none) py!"'a' $ ) 'b' #").map (fun r => r.1) =
    some [py!"line 1:4 token recognition error at: '$'"] := by decide +kernel

end Fcsql
