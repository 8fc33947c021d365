/-
Threads that respect each other: what each of them comes to under every schedule.
-/
import Verif.Proofs.Process

set_option autoImplicit false
set_option linter.unusedSimpArgs false

namespace Fcsql

/-! ### All threads together -/

section
variable (right : (a : Key) → a.Val → Prop) (allowed : Nat → List ErrorDetail → Prop) (may own : Nat → Nat → Prop) (init : Nat → List ErrorDetail)

/-- The world of thread `j`. -/
def worldOf (j : Nat) : World := { right, may := may j, own := own j, allowed, init }

/-- What is true all the time: what is stored is right, and each thread is on its way (with at most `b j` actions left). -/
structure Process.Inv (Q : Nat → Option (List ThreadResult) → Errs → Prop) (b : Nat → Nat) (P : Process) : Prop where
  stored : ∀ a v, P.mem.stored a = some v → right a v
  errors : ∀ i, allowed i (P.mem.errors i) ∨ P.mem.errors i = init i
  runs : ∀ j p, P.threads[j]? = some p →
    ∃ e, (∀ i, own j i → P.mem.errors i = (e i).getD (init i)) ∧ (∀ i, e i ≠ none → allowed i (P.mem.errors i)) ∧
      Thread.Runs (worldOf right allowed may own init j) (b j) p e (Q j)

variable {right : (a : Key) → a.Val → Prop} {allowed : Nat → List ErrorDetail → Prop} {may own : Nat → Nat → Prop}
  {init : Nat → List ErrorDetail}
variable {Q : Nat → Option (List ThreadResult) → Errs → Prop} {b : Nat → Nat} {P : Process}

/-- An action keeps what is true, and is answered as the thread expects. -/
theorem Op.run_inv {o : Op} {j : Nat} {e : Errs} {R : o.Ans → Errs → Prop} {M : Mem} (miss : Bool)
    (h : o.Allows (worldOf right allowed may own init j) e R) (hs : ∀ a v, M.stored a = some v → right a v)
    (he : ∀ i, allowed i (M.errors i) ∨ M.errors i = init i) (ho : ∀ i, own j i → M.errors i = (e i).getD (init i))
    (hd : ∀ i, e i ≠ none → allowed i (M.errors i)) :
    (∀ a v, (o.run miss M).2.stored a = some v → right a v) ∧
      (∃ e', (∀ i, own j i → (o.run miss M).2.errors i = (e' i).getD (init i)) ∧
        (∀ i, e' i ≠ none → allowed i ((o.run miss M).2.errors i)) ∧ R (o.run miss M).1 e') ∧
      ∀ i, (o.run miss M).2.errors i ≠ M.errors i → may j i ∧ allowed i ((o.run miss M).2.errors i) := by
  cases o with
  | load a =>
    refine ⟨hs, ⟨e, ho, hd, ?_⟩, fun i h => absurd rfl h⟩
    cases hm : (if miss then none else M.stored a) with
    | none =>
      have : (Op.run miss (.load a) M).1 = none := hm
      rw [this]
      exact h.1
    | some v =>
      have : (Op.run miss (.load a) M).1 = some v := hm
      rw [this]
      cases miss with
      | true => cases hm
      | false => exact h.2 v (hs a v hm)
  | save a v =>
    refine ⟨fun a' v' h' => ?_, ⟨e, ho, hd, h.2⟩, fun i h => absurd rfl h⟩
    by_cases ha : a' = a
    · subst ha
      simp only [Op.run, Function.update_self] at h'
      cases h'
      exact h.1
    · simp only [Op.run, Function.update_of_ne ha] at h'
      exact hs _ _ h'
  | assign i es =>
    refine ⟨hs, ⟨_, fun i' hi' => ?_, fun i' hi' => ?_, h.2.2⟩, fun i' hi' => ?_⟩
    · by_cases hi : i' = i
      · subst hi
        simp only [Op.run, Function.update_self, Option.getD_some]
      · simp only [Op.run, Function.update_of_ne hi]
        exact ho _ hi'
    · by_cases hi : i' = i
      · subst hi
        simp only [Op.run, Function.update_self]
        exact h.2.1
      · simp only [Op.run, Function.update_of_ne hi] at hi' ⊢
        exact hd _ hi'
    · by_cases hi : i' = i
      · subst hi
        simp only [Op.run, Function.update_self]
        exact ⟨h.1, h.2.1⟩
      · simp only [Op.run, Function.update_of_ne hi] at hi'
        exact absurd rfl hi'
  | read i =>
    refine ⟨hs, ⟨e, ho, hd, h _ ?_ (ho i)⟩, fun i h => absurd rfl h⟩
    by_cases hn : e i = none
    · exact (he i).imp id fun h => ⟨h, hn⟩
    · exact .inl (hd i hn)

theorem Process.Inv.step (hom : ∀ j j' i, own j i → may j' i → j' = j) (h : P.Inv right allowed may own init Q b) (x : Nat × Bool) :
    (P.step x).Inv right allowed may own init Q fun j => if j = x.1 then b j - 1 else b j := by
  have skip : (∀ o k, P.threads[x.1]? ≠ some (.op o k)) → P.Inv right allowed may own init Q fun j => if j = x.1 then b j - 1 else b j := by
    intro hne
    refine ⟨h.stored, h.errors, fun j p hp => ?_⟩
    obtain ⟨e, h1, h0, h2⟩ := h.runs j p hp
    refine ⟨e, h1, h0, ?_⟩
    by_cases hj : j = x.1
    · rw [if_pos hj]
      cases p with
      | ret rs => exact Thread.runs_ret.2 (Thread.runs_ret.1 h2)
      | op o k => exact absurd (hj ▸ hp) (hne o k)
    · rw [if_neg hj]
      exact h2
  unfold Process.step
  cases hx : P.threads[x.1]? with
  | none => exact skip (by simp [hx])
  | some p =>
    cases p with
    | ret rs => exact skip (by simp [hx])
    | op o k =>
      obtain ⟨e, h1, h0, h2⟩ := h.runs _ _ hx
      obtain ⟨K, hK⟩ : ∃ K, b x.1 = K + 1 := by
        cases hb : b x.1 with
        | zero => rw [hb] at h2; exact h2.elim
        | succ K => exact ⟨K, rfl⟩
      rw [hK] at h2
      obtain ⟨h3, ⟨e', h5, h5', h6⟩, h7⟩ := Op.run_inv x.2 h2 h.stored h.errors h1 h0
      refine ⟨h3, fun i => ?_, fun j p hp => ?_⟩
      · by_cases hne : (o.run x.2 P.mem).2.errors i = P.mem.errors i
        · rw [hne]
          exact h.errors i
        · exact .inl (h7 i hne).2
      by_cases hj : j = x.1
      · subst hj
        have hlt : x.1 < P.threads.length := by
          rcases Nat.lt_or_ge x.1 P.threads.length with h | h
          · exact h
          · rw [List.getElem?_eq_none h] at hx; cases hx
        simp only [List.getElem?_set_self hlt, Option.some.injEq] at hp
        subst hp
        refine ⟨e', h5, h5', ?_⟩
        rw [if_pos rfl, hK]
        exact h6
      · rw [List.getElem?_set_ne (Ne.symm hj)] at hp
        obtain ⟨e'', h8, h8', h9⟩ := h.runs j p hp
        refine ⟨e'', fun i hi => ?_, fun i hi => ?_, by rw [if_neg hj]; exact h9⟩
        · by_cases hne : (o.run x.2 P.mem).2.errors i = P.mem.errors i
          · exact hne.trans (h8 i hi)
          · exact absurd (hom j x.1 i hi (h7 i hne).1).symm hj
        · by_cases hne : (o.run x.2 P.mem).2.errors i = P.mem.errors i
          · rw [hne]
            exact h8' i hi
          · exact (h7 i hne).2

theorem Process.Inv.run (hom : ∀ j j' i, own j i → may j' i → j' = j) (schedule : List (Nat × Bool)) :
    ∀ {b : Nat → Nat} {P : Process}, P.Inv right allowed may own init Q b →
      (P.run schedule).Inv right allowed may own init Q fun j => b j - schedule.countP fun x => x.1 = j := by
  induction schedule with
  | nil => intro b P h; exact h
  | cons x xs ih =>
    intro b P h
    have := ih (h.step hom x)
    refine ⟨this.stored, this.errors, fun j p hp => ?_⟩
    obtain ⟨e, h1, h0, h2⟩ := this.runs j p hp
    refine ⟨e, h1, h0, ?_⟩
    have hb : (b j - (x :: xs).countP fun x => x.1 = j) = (if j = x.1 then b j - 1 else b j) - xs.countP fun x => x.1 = j := by
      rw [List.countP_cons]
      by_cases hj : x.1 = j
      · simp only [hj, decide_true, if_true]
        omega
      · simp [hj, Ne.symm hj]
    rw [hb]
    exact h2

theorem Process.step_length (P : Process) (x : Nat × Bool) : (P.step x).threads.length = P.threads.length := by
  unfold Process.step
  split <;> simp

theorem Process.run_length (schedule : List (Nat × Bool)) : ∀ P : Process, (P.run schedule).threads.length = P.threads.length := by
  induction schedule with
  | nil => intro P; rfl
  | cons x xs ih => intro P; exact (ih _).trans (P.step_length x)

end

/-! ### One thread -/

/-- Nothing after the first complaint of the parser matters to `antlr_parse`. -/
theorem antlrOutcome_prefix {cs calls : List ListenerCall} {cs' : List ListenerCall} {t : RawTok} {msg : PyStr}
    (h : cs = cs' ++ [.parser t msg]) (hp : cs <+: calls) (f f' : List PTree) : antlrOutcome f cs = antlrOutcome f' calls := by
  obtain ⟨rest, rfl⟩ := hp
  subst h
  have key : ∀ (cs' rest : List ListenerCall), antlrListeners (cs' ++ [.parser t msg] ++ rest) = antlrListeners (cs' ++ [.parser t msg]) ∧
      ∃ out e, antlrListeners (cs' ++ [.parser t msg]) = (out, some e) := by
    intro cs' rest
    induction cs' with
    | nil => exact ⟨rfl, _, _, rfl⟩
    | cons c cs' ih =>
      obtain ⟨h1, out, e, h2⟩ := ih
      cases c with
      | lexer r =>
        simp only [List.cons_append, antlrListeners, h1, true_and]
        rw [h2]
        exact ⟨_, _, rfl⟩
      | parser t' msg' => exact ⟨rfl, _, _, rfl⟩
  obtain ⟨h1, out, e, h2⟩ := key cs' rest
  unfold antlrOutcome
  rw [h1, h2]

section
variable {L A : Atn} {m n : Nat} {rt : Runtime} {cfg : Nat → Config} {errs : Nat → List ErrorDetail}
  {calls : List (List ThreadCall)} {j : Nat}

/-- The world of thread `j`. -/
def procWorld (L A : Atn) (m : Nat) (rt : Runtime) (cfg : Nat → Config) (errs : Nat → List ErrorDetail) (calls : List (List ThreadCall)) (j : Nat) : World :=
  worldOf (RightVal L A m) (CallErrors rt cfg calls) (fun j i => ∃ cs, calls[j]? = some cs ∧ Parses i cs)
    (fun j i => j < calls.length ∧ Alone calls j i) errs j

/-- The bound `n` is enough for the call. -/
def Enough (L A : Atn) (m n : Nat) (rt : Runtime) (cfg : Nat → Config) : ThreadCall → Prop
  | .parse i q => parseProgram L A m n rt.toPyRuntime (cfg i) q = some (parseQuery rt (cfg i) q)
  | .antlr q => ∃ o, antlrProgram L A m n q = some o ∧ ∃ N, ∀ n, N ≤ n → antlrProgram L A m n q = some o
  | .errors _ => True

/-- As `RightResult`, when `errors` is known to be `e`. -/
def RightNow (L A : Atn) (m : Nat) (rt : Runtime) (cfg : Nat → Config) (errs : Nat → List ErrorDetail) (calls : List (List ThreadCall))
    (j : Nat) (e : Errs) : ThreadCall → ThreadResult → Prop
  | .parse i q, .node o => o = (parseQuery rt (cfg i) q).1
  | .antlr q, .tree o => ∃ N, ∀ n, N ≤ n → antlrProgram L A m n q = some o
  | .errors i, .errors es => (CallErrors rt cfg calls i es ∨ es = errs i ∧ e i = none) ∧ (Alone calls j i → es = (e i).getD (errs i))
  | _, _ => False

theorem call_runs {cs : List ThreadCall} (hj : calls[j]? = some cs) {c : ThreadCall} (hc : c ∈ cs) (hn : Enough L A m n rt cfg c) :
    ∃ K, ∀ e, Thread.Runs (procWorld L A m rt cfg errs calls j) K (c.acts L A m n rt.toPyRuntime cfg) e fun r e' =>
      ∃ x, r = some x ∧ RightNow L A m rt cfg errs calls j e c x ∧ e' = fun i => errorsStep rt cfg i (e i) c := by
  have hmem : cs ∈ calls := List.mem_of_getElem? hj
  have hlt : j < calls.length := by
    rcases Nat.lt_or_ge j calls.length with h | h
    · exact h
    · rw [List.getElem?_eq_none h] at hj; cases hj
  cases c with
  | parse i q =>
    obtain ⟨-, K, hK⟩ := callT_gives (W := procWorld L A m rt cfg errs calls j) (strict := false) (L := L) (A := A) (m := m) rfl (q := q) code n .query
    refine ⟨K + 1, fun e => (hK e).bind ?_⟩
    rintro o _ ⟨ho, rfl⟩
    have hn' : parseProgram L A m n rt.toPyRuntime (cfg i) q = some (parseQuery rt (cfg i) q) := hn
    unfold parseProgram at hn'
    rcases o with ⟨f, calls'⟩ | _ | cs'
    · have ho' : callP L m q A code n .query = some (f, calls') := ho
      rw [ho'] at hn'
      simp only [Option.some.injEq] at hn'
      refine ⟨⟨cs, hj, q, hc⟩, ?_, ?_⟩
      · rw [hn']
        exact ⟨cs, hmem, q, hc, rfl⟩
      · rw [hn']
        refine ⟨_, rfl, rfl, ?_⟩
        funext i'
        by_cases hi : i' = i
        · subst hi
          simp [errorsStep]
        · simp [errorsStep, Function.update_of_ne hi, Ne.symm hi]
    · have ho' : callP L m q A code n .query = none := ho
      rw [ho'] at hn'
      cases hn'
    · exact absurd ho.1 (by simp)
  | antlr q =>
    obtain ⟨-, K, hK⟩ := callT_gives (W := procWorld L A m rt cfg errs calls j) (strict := true) (L := L) (A := A) (m := m) rfl (q := q) code n .query
    refine ⟨K + 0, fun e => (hK e).bind ?_⟩
    obtain ⟨out, hn', hN⟩ := hn
    rintro o _ ⟨ho, rfl⟩
    unfold antlrProgram at hn'
    rcases o with ⟨f, calls'⟩ | _ | cs'
    · have ho' : callP L m q A code n .query = some (f, calls') := ho
      rw [ho'] at hn'
      simp only [Option.some.injEq] at hn'
      refine ⟨_, rfl, ?_, rfl⟩
      rw [hn']
      exact hN
    · have ho' : callP L m q A code n .query = none := ho
      rw [ho'] at hn'
      cases hn'
    · obtain ⟨-, ⟨cs1, t, msg, h1⟩, h2⟩ := ho
      cases hx : callP L m q A code n .query with
      | none => rw [hx] at hn'; cases hn'
      | some r =>
        rw [hx] at hn'
        simp only [Option.some.injEq] at hn'
        refine ⟨_, rfl, ?_, rfl⟩
        rw [antlrOutcome_prefix h1 (h2 r hx) [] r.1, hn']
        exact hN
  | errors i =>
    refine ⟨1, fun e es h1 h2 => ⟨_, rfl, ⟨h1, fun h => h2 ⟨hlt, h⟩⟩, rfl⟩⟩

theorem thread_runs {all : List ThreadCall} (hj : calls[j]? = some all) (cs : List ThreadCall) (hc : ∀ c ∈ cs, c ∈ all)
    (hn : ∀ c ∈ cs, Enough L A m n rt cfg c) :
    ∃ K, ∀ e, Thread.Runs (procWorld L A m rt cfg errs calls j) K (threadActs L A m n rt.toPyRuntime cfg cs) e fun r e' =>
      ∃ rs, r = some rs ∧ rs.length = cs.length ∧
        (∀ k c x, cs[k]? = some c → rs[k]? = some x →
          RightNow L A m rt cfg errs calls j (fun i => (cs.take k).foldl (errorsStep rt cfg i) (e i)) c x) ∧
        e' = fun i => cs.foldl (errorsStep rt cfg i) (e i) := by
  induction cs with
  | nil => exact ⟨0, fun e => ⟨[], rfl, rfl, fun k c x h => by simp at h, rfl⟩⟩
  | cons c cs ih =>
    obtain ⟨K, hK⟩ := ih (fun c h => hc c (List.mem_cons_of_mem _ h)) fun c h => hn c (List.mem_cons_of_mem _ h)
    obtain ⟨K', hK'⟩ := call_runs hj (hc c (List.mem_cons_self ..)) (hn c (List.mem_cons_self ..))
    refine ⟨K' + (K + 0), fun e => (hK' e).bind ?_⟩
    rintro _ e' ⟨x, rfl, hx, rfl⟩
    refine (hK _).bind ?_
    rintro _ e' ⟨rs, rfl, h1, h2, rfl⟩
    refine ⟨x :: rs, rfl, by simp [h1], ?_, rfl⟩
    intro k c' x' h3 h4
    cases k with
    | zero =>
      simp only [List.getElem?_cons_zero, Option.some.injEq] at h3 h4
      subst h3
      subst h4
      exact hx
    | succ k =>
      simp only [List.getElem?_cons_succ] at h3 h4
      exact h2 k c' x' h3 h4

end

end Fcsql
