/-
What a thread comes to, whatever the other threads do: a small logic for `Thread`.
-/
import Verif.Spec.Process

set_option autoImplicit false
set_option linter.unusedSimpArgs false

namespace Fcsql

/-- What a thread knows about `errors` attributes: what it has put there itself, if it has. -/
abbrev Errs := Nat → Option (List ErrorDetail)

/-- What a thread relies on and has to respect: what is stored in the caches is `right`; it assigns `errors` only of objects it
`may`, only with lists that are `allowed`, and finds there such a list or what was there at first (`init`); nobody else assigns
those it owns. -/
structure World where
  right : (a : Key) → a.Val → Prop
  may : Nat → Prop
  own : Nat → Prop
  allowed : Nat → List ErrorDetail → Prop
  init : Nat → List ErrorDetail

/-- The action respects the world, and with all answers it can get there things are as `Q` says. -/
def Op.Allows (W : World) : (o : Op) → Errs → (o.Ans → Errs → Prop) → Prop
  | .load a, e, Q => Q (none : Option a.Val) e ∧ ∀ v : a.Val, W.right a v → Q (some v : Option a.Val) e
  | .save a v, e, Q => W.right a v ∧ Q () e
  | .assign i es, e, Q => W.may i ∧ W.allowed i es ∧ Q () (Function.update e i (some es))
  | .read i, e, Q => ∀ es : List ErrorDetail, (W.allowed i es ∨ es = W.init i ∧ e i = none) → (W.own i → es = (e i).getD (W.init i)) → Q es e

/-- After at most `K` actions the thread has come to an end as `Q` says. -/
def Thread.Runs {α : Type} (W : World) : Nat → Thread α → Errs → (α → Errs → Prop) → Prop
  | _, .ret a, e, Q => Q a e
  | 0, .op _ _, _, _ => False
  | K + 1, .op o k, e, Q => o.Allows W e fun ans e' => (k ans).Runs W K e' Q

theorem Thread.runs_ret {α : Type} {W : World} {K : Nat} {a : α} {e : Errs} {Q : α → Errs → Prop} : Thread.Runs W K (.ret a) e Q ↔ Q a e := by
  cases K <;> exact Iff.rfl

theorem Op.Allows.mono {W : World} {o : Op} {e : Errs} {Q R : o.Ans → Errs → Prop} (h : o.Allows W e Q) (hQ : ∀ a e, Q a e → R a e) :
    o.Allows W e R := by
  cases o with
  | load a => exact ⟨hQ _ _ h.1, fun v hv => hQ _ _ (h.2 v hv)⟩
  | save a v => exact ⟨h.1, hQ _ _ h.2⟩
  | assign i es => exact ⟨h.1, h.2.1, hQ _ _ h.2.2⟩
  | read i => exact fun es h1 h2 => hQ _ _ (h es h1 h2)

theorem Thread.Runs.mono {α : Type} {W : World} {K K' : Nat} {p : Thread α} {e : Errs} {Q R : α → Errs → Prop} (h : p.Runs W K e Q)
    (hK : K ≤ K') (hQ : ∀ a e, Q a e → R a e) : p.Runs W K' e R := by
  induction K generalizing p e K' with
  | zero =>
    cases p with
    | ret a => cases K' <;> exact hQ _ _ h
    | op o k => exact h.elim
  | succ K ih =>
    cases p with
    | ret a => cases K' <;> exact hQ _ _ h
    | op o k =>
      obtain ⟨K', rfl⟩ : ∃ n, K' = n + 1 := ⟨K' - 1, by omega⟩
      exact Op.Allows.mono h fun a e h => ih h (by omega)

theorem Thread.Runs.bind {α β : Type} {W : World} {K K' : Nat} {p : Thread α} {f : α → Thread β} {e : Errs} {Q : α → Errs → Prop}
    {R : β → Errs → Prop} (h : p.Runs W K e Q) (hf : ∀ a e', Q a e' → (f a).Runs W K' e' R) : (p.bind f).Runs W (K + K') e R := by
  induction K generalizing p e with
  | zero =>
    cases p with
    | ret a => exact (hf _ _ h).mono (by omega) fun _ _ h => h
    | op o k => exact h.elim
  | succ K ih =>
    cases p with
    | ret a => exact (hf _ _ h).mono (by omega) fun _ _ h => h
    | op o k =>
      rw [Nat.add_right_comm]
      exact Op.Allows.mono h fun a e h => ih h

/-! ### The lexer -/

/-- A computation of the lexer comes to the result `x`. -/
def LexM.Gives {α : Type} (W : World) (p : LexM α) (x : Option α) : Prop := ∃ K, ∀ e, Thread.Runs W K p e fun o e' => o = x ∧ e' = e

section
variable {W : World} {α β : Type}

theorem LexM.Gives.pure (a : α) : LexM.Gives W (Pure.pure a : LexM α) (some a) := ⟨0, fun _ => ⟨rfl, rfl⟩⟩

theorem LexM.Gives.stuck : LexM.Gives W (LexM.stuck : LexM α) none := ⟨0, fun _ => ⟨rfl, rfl⟩⟩

theorem LexM.Gives.of (x : Option α) : LexM.Gives W (LexM.of x) x := ⟨0, fun _ => ⟨rfl, rfl⟩⟩

theorem LexM.Gives.bind {p : LexM α} {x : Option α} {f : α → LexM β} {y : Option β} (h : p.Gives W x) (h0 : x = none → y = none)
    (h1 : ∀ a, x = some a → (f a).Gives W y) : (p >>= f).Gives W y := by
  obtain ⟨K, hK⟩ := h
  cases x with
  | none =>
    refine ⟨K + 0, fun e => (hK e).bind ?_⟩
    rintro _ _ ⟨rfl, rfl⟩
    exact ⟨(h0 rfl).symm, rfl⟩
  | some a =>
    obtain ⟨K', hK'⟩ := h1 a rfl
    refine ⟨K + K', fun e => (hK e).bind ?_⟩
    rintro _ _ ⟨rfl, rfl⟩
    exact hK' _

end

/-- What may be stored: what the simulators compute. -/
def RightVal (L A : Atn) (m : Nat) : (a : Key) → a.Val → Prop
  | .lexStart, v => ∃ mode, L.modes.head? = some mode ∧ L.lexStart m mode = some v
  | .lexEdge cs k, v => L.lexReach m cs k = some v
  | .start d, v => v = A.startConfigs false d []
  | .edge _ S k, v => v = A.reachSet false S k

section
variable {W : World} {L A : Atn} {m : Nat} (hW : W.right = RightVal L A m) {q : PyStr}
include hW

theorem startT_gives {mode : Nat} {rest : List Nat} (hm : L.modes = mode :: rest) : (startT L m mode).Gives W (L.lexStart m mode) := by
  have hh : L.modes.head? = some mode := by rw [hm]; rfl
  refine ⟨2, fun e => ⟨?_, ?_⟩⟩
  · cases hs : L.lexStart m mode with
    | none => exact ⟨rfl, rfl⟩
    | some cs => exact ⟨by rw [hW]; exact ⟨mode, hh, hs⟩, rfl, rfl⟩
  · intro v hv
    rw [hW] at hv
    obtain ⟨mode', h1, h2⟩ := hv
    rw [hh] at h1
    cases h1
    exact ⟨h2.symm, rfl⟩

theorem reachT_gives (cs : List LConf) (k : Int) : (reachT L m cs k).Gives W (L.lexReach m cs k) := by
  unfold reachT
  split
  · refine ⟨2, fun e => ⟨?_, ?_⟩⟩
    · cases hs : L.lexReach m cs k with
      | none => exact ⟨rfl, rfl⟩
      | some cs' => exact ⟨by rw [hW]; exact hs, rfl, rfl⟩
    · intro v hv
      rw [hW] at hv
      exact ⟨hv.symm, rfl⟩
  · exact .of _

theorem lexExecT_gives (n : Nat) (cs : List LConf) (prev : Option SimState) (p : LexPos) :
    (lexExecT L m q n cs prev p).Gives W (lexExec L m q n cs prev p) := by
  induction n generalizing cs prev p with
  | zero => exact .stuck
  | succ n ih =>
    rw [lexExecT, lexExec]
    refine (reachT_gives hW _ _).bind (fun h => by rw [h]) fun a h => ?_
    rw [h]
    cases a with
    | nil => exact .pure _
    | cons c cs' =>
      dsimp only
      split
      · exact .pure _
      · exact ih _ _ _

theorem lexMatchT_gives (p : LexPos) : (lexMatchT L m q p).Gives W (lexMatch L m q p) := by
  rw [lexMatchT.eq_def, lexMatch.eq_def]
  cases hm : L.modes with
  | nil => exact .stuck
  | cons mode rest =>
    dsimp only
    refine (startT_gives hW hm).bind (fun h => by rw [h]) fun s0 h => ?_
    rw [h]
    dsimp only
    refine (lexExecT_gives hW _ _ _ _).bind (fun h => by rw [h]) fun a h => ?_
    rw [h]
    obtain ⟨_ | st, e⟩ := a
    · dsimp only
      split <;> exact .pure _
    · exact .pure _

theorem lexNextTokenT_gives (n : Nat) (lx : LexObj) : (lexNextTokenT L m q n lx).Gives W (lexNextToken L m q n lx) := by
  induction n generalizing lx with
  | zero => exact .stuck
  | succ n ih =>
    rw [lexNextTokenT, lexNextToken]
    split
    · exact .pure _
    · refine (lexMatchT_gives hW _).bind (fun h => by rw [h]) fun a h => ?_
      rw [h]
      cases a with
      | failed e =>
        dsimp only
        refine (ih _).bind (fun h => by rw [h]) fun a h => ?_
        rw [h]
        exact .pure _
      | accepted ttype set p =>
        cases set <;>
        · dsimp only
          split
          · exact ih _
          · exact .pure _

end

/-! ### The parser -/

/-- The end of a computation of the parser is that of the computation without caches; or a listener has raised, and what it had
been called with is what it is called with first without caches. -/
def Out.Ok {α : Type} (strict : Bool) (c : α → List ListenerCall) (x : Option α) : Out α → Prop
  | .val a => x = some a
  | .stuck => x = none
  | .raised cs => strict = true ∧ (∃ cs' t msg, cs = cs' ++ [.parser t msg]) ∧ ∀ a, x = some a → cs <+: c a

/-- A computation of the parser comes to the result `x`; `c` are the calls of the listener up to then, and `cs` those up to
now. -/
structure ParM.Gives {α : Type} (W : World) (strict : Bool) (p : ParM α) (cs : List ListenerCall) (c : α → List ListenerCall)
    (x : Option α) : Prop where
  calls : ∀ a, x = some a → cs <+: c a
  runs : ∃ K, ∀ e, Thread.Runs W K p e fun o e' => o.Ok strict c x ∧ e' = e

section
variable {W : World} {strict : Bool} {α β : Type} {cs : List ListenerCall} {c : α → List ListenerCall} {c' : β → List ListenerCall}

theorem ParM.Gives.pure {a : α} (h : cs <+: c a) : ParM.Gives W strict (Pure.pure a : ParM α) cs c (some a) :=
  ⟨fun _ h' => by cases h'; exact h, 0, fun _ => ⟨rfl, rfl⟩⟩

theorem ParM.Gives.stuck : ParM.Gives W strict (ParM.stuck : ParM α) cs c none := ⟨fun _ h => (by cases h), 0, fun _ => ⟨rfl, rfl⟩⟩

theorem ParM.Gives.bind {p : ParM α} {x : Option α} {f : α → ParM β} {y : Option β} (h : p.Gives W strict cs c x)
    (h0 : x = none → y = none) (h1 : ∀ a, x = some a → (f a).Gives W strict (c a) c' y) : (p >>= f).Gives W strict cs c' y := by
  obtain ⟨hc, K, hK⟩ := h
  cases x with
  | none =>
    have := h0 rfl
    subst this
    refine ⟨fun _ h => (by cases h), K + 0, fun e => (hK e).bind ?_⟩
    rintro (a | _ | cs') _ ⟨ho, rfl⟩
    · cases ho
    · exact ⟨rfl, rfl⟩
    · exact ⟨⟨ho.1, ho.2.1, fun _ h => (by cases h)⟩, rfl⟩
  | some a =>
    obtain ⟨hc', K', hK'⟩ := h1 a rfl
    refine ⟨fun b hb => (hc a rfl).trans (hc' b hb), K + K', fun e => (hK e).bind ?_⟩
    rintro (a' | _ | cs') _ ⟨ho, rfl⟩
    · cases ho
      exact hK' _
    · cases ho
    · show Thread.Runs W K' (.ret _) _ _
      have : (Out.raised (α := β) cs').Ok strict c' y := ⟨ho.1, ho.2.1, fun b hb => (ho.2.2 a rfl).trans (hc' b hb)⟩
      cases K' <;> exact ⟨this, rfl⟩

theorem LexM.Gives.toParM {p : LexM α} {x : Option α} (h : p.Gives W x) : p.toParM.Gives W strict cs (fun _ => cs) x := by
  obtain ⟨K, hK⟩ := h
  refine ⟨fun _ _ => List.prefix_rfl, K + 0, fun e => (hK e).bind ?_⟩
  rintro (_ | a) _ ⟨rfl, rfl⟩
  · exact ⟨rfl, rfl⟩
  · exact ⟨rfl, rfl⟩

end

/-! ### The functions of the parser -/

/-- What the listener has been called with when a statement is done. -/
def PStep.calls : PStep → List ListenerCall
  | .go _ s => s.calls
  | .stop _ s => s.calls

/-- What the listener has been called with when statements are done. -/
def POut.calls : POut → List ListenerCall
  | .ok _ s => s.calls
  | .raised _ s => s.calls

theorem POut.calls_prepend (f : List PTree) (o : POut) : (o.prepend f).calls = o.calls := by cases o <;> rfl

theorem PState.calls_advance (s : PState) : s.advance.calls = s.calls := by
  unfold PState.advance
  split <;> rfl

section
variable {W : World} {strict : Bool} {L A : Atn} {m : Nat} (hW : W.right = RightVal L A m) {q : PyStr}

/-- The calls of the listener have been made when this state is reached. -/
abbrev GivesState (W : World) (strict : Bool) (p : ParM PState) (cs : List ListenerCall) (x : Option PState) : Prop :=
  p.Gives W strict cs PState.calls x

theorem reportT_gives (t : RawTok) (msg : PyStr) (s : PState) : GivesState W strict (reportT strict t msg s) s.calls (some (s.report t msg)) := by
  unfold reportT
  by_cases hr : s.recovering = true
  · rw [if_pos hr]
    have : s.report t msg = s := by simp [PState.report, hr]
    rw [this]
    exact .pure List.prefix_rfl
  · have h1 : s.calls <+: (s.report t msg).calls := by simp [PState.report, hr]
    rw [if_neg hr]
    by_cases hs : strict = true
    · rw [if_pos hs]
      refine ⟨fun _ h => by cases h; exact h1, 0, fun e => ⟨⟨hs, ⟨s.calls, t, msg, by simp [PState.report, hr]⟩, ?_⟩, rfl⟩⟩
      rintro _ h
      cases h
      exact List.prefix_rfl
    · rw [if_neg hs]
      exact .pure h1

include hW

theorem fetchT_gives (s : PState) : GivesState W strict (fetchT L m q s) s.calls (s.fetch L m q) := by
  unfold fetchT PState.fetch
  by_cases h : s.fetchedEOF = true
  · rw [if_pos h, if_pos h]
    exact .pure List.prefix_rfl
  · rw [if_neg h, if_neg h]
    refine ((lexNextTokenT_gives hW _ _).toParM (cs := s.calls)).bind (fun h => by rw [h]) fun a h => ?_
    rw [h]
    exact .pure (List.prefix_append _ _)

theorem fetchNT_gives (n : Nat) (s : PState) : GivesState W strict (fetchNT L m q n s) s.calls (s.fetchN L m q n) := by
  induction n generalizing s with
  | zero => exact .pure List.prefix_rfl
  | succ n ih =>
    rw [fetchNT, PState.fetchN]
    refine (fetchT_gives hW s).bind (fun h => by rw [h]) fun a h => ?_
    rw [h]
    exact ih a

theorem lookT_gives (k : Nat) (s : PState) : GivesState W strict (lookT L m q k s) s.calls (s.look L m q k) := fetchNT_gives hW _ _

theorem consumeT_gives (s : PState) : GivesState W strict (consumeT L m q s) s.calls (s.consume L m q) := by
  unfold consumeT PState.consume
  split
  · exact .pure List.prefix_rfl
  · have := lookT_gives (strict := strict) (q := q) hW 0 s.advance
    rwa [PState.calls_advance] at this

theorem matchedT_gives (s : PState) : GivesState W strict (matchedT L m q s) s.calls (s.matched L m q) := by
  have := lookT_gives (strict := strict) (q := q) hW 0 s.advance.endError
  rw [show s.advance.endError.calls = s.calls from PState.calls_advance s] at this
  exact this

theorem untilT_gives (set : Int → Bool) (n : Nat) (s : PState) :
    GivesState W strict (untilT L m q set n s) s.calls (s.until L m q set n) := by
  induction n generalizing s with
  | zero => exact .stuck
  | succ n ih =>
    rw [untilT, PState.until]
    split
    · exact .pure List.prefix_rfl
    · refine (consumeT_gives hW s).bind (fun h => by rw [h]) fun a h => ?_
      rw [h]
      exact ih a

theorem fullT_gives (n : Nat) (S : AConfigSet) (k : Nat) (s : PState) :
    (fullT L m q A n S k s).Gives W strict s.calls (fun r => r.2.calls) (fullP L m q A n S k s) := by
  induction n generalizing S k s with
  | zero => exact .stuck
  | succ n ih =>
    rw [fullT, fullP]
    refine (lookT_gives hW k s).bind (fun h => by rw [h]) fun s h => ?_
    rw [h]
    dsimp only
    cases (s.toks q)[k]? with
    | none => exact .pure List.prefix_rfl
    | some x =>
      dsimp only
      split
      · exact .pure List.prefix_rfl
      · cases (A.reachSet true S x.type.num).uniqueAlt with
        | some i => exact .pure List.prefix_rfl
        | none =>
          dsimp only
          cases AConfigSet.resolves (A.reachSet true S x.type.num).conflictingAltSubsets with
          | some i => exact .pure List.prefix_rfl
          | none => exact ih _ _ _

theorem edgeT_gives (d : Nat) (S : AConfigSet) (k : Int) (cs : List ListenerCall) :
    (edgeT A d S k).Gives W strict cs (fun _ => cs) (some (A.reachSet false S k)) := by
  refine ⟨fun _ _ => List.prefix_rfl, 2, fun e => ⟨⟨by rw [hW]; rfl, rfl, rfl⟩, ?_⟩⟩
  intro v hv
  rw [hW] at hv
  cases hv
  exact ⟨rfl, rfl⟩

theorem startStateT_gives (d : Nat) (cs : List ListenerCall) :
    (startStateT A d).Gives W strict cs (fun _ => cs) (some (A.startConfigs false d [])) := by
  refine ⟨fun _ _ => List.prefix_rfl, 2, fun e => ⟨⟨by rw [hW]; rfl, rfl, rfl⟩, ?_⟩⟩
  intro v hv
  rw [hW] at hv
  cases hv
  exact ⟨rfl, rfl⟩

theorem walkT_gives (d : Nat) (ctx : List Nat) (n : Nat) (S : AConfigSet) (k : Nat) (s : PState) :
    (walkT L m q A d ctx n S k s).Gives W strict s.calls (fun r => r.2.calls) (walkP L m q A d ctx n S k s) := by
  induction n generalizing S k s with
  | zero => exact .stuck
  | succ n ih =>
    rw [walkT, walkP]
    refine (lookT_gives hW k s).bind (fun h => by rw [h]) fun s h => ?_
    rw [h]
    dsimp only
    cases (s.toks q)[k]? with
    | none => exact fullT_gives hW _ _ _ _
    | some x =>
      dsimp only
      refine (edgeT_gives hW d S x.type.num s.calls).bind (fun h => by cases h) fun S' h => ?_
      cases h
      cases A.sllVerdict (A.reachSet false S x.type.num) with
      | alt i => exact .pure List.prefix_rfl
      | fail => exact .pure List.prefix_rfl
      | full => exact fullT_gives hW _ _ _ _
      | more => exact ih _ _ _

theorem predictT_gives (d : Nat) (ctx : List Nat) (s : PState) :
    (predictT L m q A d ctx s).Gives W strict s.calls (fun r => r.2.calls) (predictP L m q A d ctx s) := by
  refine (startStateT_gives hW d s.calls).bind (fun h => by cases h) fun S' h => ?_
  cases h
  exact walkT_gives hW _ _ _ _ _ _

theorem reportFailureT_gives (ctx : List Nat) (f : Failure) (s : PState) :
    GivesState W strict (reportFailureT strict L m q A ctx f s) s.calls (reportFailureP L m q A ctx f s) := by
  unfold reportFailureT reportFailureP
  split
  · exact .pure List.prefix_rfl
  · cases f with
    | noViable k =>
      refine (fetchNT_gives hW _ s).bind (fun h => by rw [h]) fun s h => ?_
      rw [h]
      exact reportT_gives _ _ _
    | mismatch => exact reportT_gives _ _ _

theorem recoverT_gives (ctx : List Nat) (s : PState) :
    GivesState W strict (recoverT L m q A ctx s) s.calls (recoverP L m q A ctx s) := by
  unfold recoverT recoverP
  have h1 : GivesState W strict (if s.lastIndex = some s.index ∧ s.state ∈ s.lastStates then consumeT L m q s else pure s) s.calls
      (if s.lastIndex = some s.index ∧ s.state ∈ s.lastStates then s.consume L m q else some s) := by
    split
    · exact consumeT_gives hW s
    · exact .pure List.prefix_rfl
  refine h1.bind (fun h => by rw [h]) fun s h => ?_
  rw [h]
  exact untilT_gives hW _ _ _

theorem syncT_gives (ctx : List Nat) (s : PState) :
    (syncT strict L m q A ctx s).Gives W strict s.calls PStep.calls (syncP L m q A ctx s) := by
  unfold syncT syncP
  split
  · exact .pure List.prefix_rfl
  · dsimp only
    split
    · exact .pure List.prefix_rfl
    · split
      · refine (lookT_gives hW 1 s).bind (fun h => by rw [h]) fun s h => ?_
        rw [h]
        dsimp only
        split
        · refine (reportT_gives _ _ s).bind (fun h => by cases h) fun s' h => ?_
          cases h
          refine (consumeT_gives hW _).bind (fun h => by unfold reportUnwantedP; rw [h]) fun s' h => ?_
          unfold reportUnwantedP
          rw [h]
          exact .pure List.prefix_rfl
        · exact .pure List.prefix_rfl
      · split
        · refine (reportT_gives _ _ s).bind (fun h => by cases h) fun s' h => ?_
          cases h
          refine (untilT_gives hW _ _ _).bind (fun h => by unfold reportUnwantedP; rw [h]) fun s' h => ?_
          unfold reportUnwantedP
          rw [h]
          exact .pure List.prefix_rfl
        · exact .pure List.prefix_rfl

theorem inlineT_gives (ctx : List Nat) (s : PState) :
    (inlineT strict L m q A ctx s).Gives W strict s.calls PStep.calls (inlineP L m q A ctx s) := by
  unfold inlineT inlineP
  refine (lookT_gives hW 1 s).bind (fun h => by rw [h]) fun s h => ?_
  rw [h]
  dsimp only
  split
  · refine (reportT_gives _ _ s).bind (fun h => by cases h) fun s' h => ?_
    cases h
    refine (consumeT_gives hW _).bind (fun h => by unfold reportUnwantedP; rw [h]) fun s' h => ?_
    unfold reportUnwantedP
    rw [h]
    refine (matchedT_gives hW _).bind (fun h => by dsimp only; rw [h]) fun s' h => ?_
    dsimp only
    rw [h]
    exact .pure List.prefix_rfl
  · split
    · refine (reportT_gives _ _ s).bind (fun h => by cases h) fun s' h => ?_
      cases h
      exact .pure List.prefix_rfl
    · exact .pure List.prefix_rfl

theorem matchT_gives (ctx : List Nat) (ok : Int → Bool) (s : PState) :
    (matchT strict L m q A ctx ok s).Gives W strict s.calls PStep.calls (matchP L m q A ctx ok s) := by
  unfold matchT matchP
  cases s.toks q with
  | nil => exact inlineT_gives hW _ _
  | cons x xs =>
    dsimp only
    split
    · refine (matchedT_gives hW _).bind (fun h => by rw [h]) fun s' h => ?_
      rw [h]
      exact .pure List.prefix_rfl
    · exact inlineT_gives hW _ _

theorem caughtT_gives (ctx : List Nat) (f : Failure) (s : PState) :
    GivesState W strict (caughtT strict L m q A ctx f s) s.calls (caughtP L m q A ctx f s) := by
  unfold caughtT caughtP
  refine (reportFailureT_gives hW _ _ _).bind (fun h => by rw [h]) fun s' h => ?_
  rw [h]
  exact recoverT_gives hW _ _

omit hW in
theorem prepend_gives {p : ParM POut} {cs : List ListenerCall} {x : Option POut} (f : List PTree)
    (h : p.Gives W strict cs POut.calls x) : (p >>= fun o => pure (o.prepend f)).Gives W strict cs POut.calls (x.map (.prepend f)) := by
  refine h.bind (fun h => by rw [h]; rfl) fun o h => ?_
  rw [h]
  exact .pure (by rw [POut.calls_prepend]; exact List.prefix_rfl)

omit hW in
theorem andThenT_gives {p : ParM PStep} {cs : List ListenerCall} {x : Option PStep} {next : PState → ParM POut}
    {next' : PState → Option POut} (h : p.Gives W strict cs PStep.calls x)
    (hn : ∀ s, (next s).Gives W strict s.calls POut.calls (next' s)) :
    (p >>= fun e => e.andThenT next).Gives W strict cs POut.calls (x.bind fun e => e.andThen next') := by
  refine h.bind (fun h => by rw [h]; rfl) fun e h => ?_
  rw [h]
  cases e with
  | go f s => exact prepend_gives f (hn s)
  | stop f s => exact .pure List.prefix_rfl

theorem execT_gives (prog : Rule → List Stmt) (n : Nat) (ctx : List Nat) (ss : List Stmt) (s : PState) :
    (execT strict L m q A prog n ctx ss s).Gives W strict s.calls POut.calls (execP L m q A prog n ctx ss s) := by
  induction n generalizing ctx ss s with
  | zero => cases ss <;> exact .stuck
  | succ n ih =>
    cases ss with
    | nil => exact .pure List.prefix_rfl
    | cons c ss =>
      cases c with
      | sync st => exact andThenT_gives (syncT_gives hW ctx (s.at st)) (ih ctx ss)
      | matchTok st k => exact andThenT_gives (matchT_gives hW ctx _ (s.at st)) (ih ctx ss)
      | matchSet st t => exact andThenT_gives (matchT_gives hW ctx _ (s.at st)) (ih ctx ss)
      | call st r =>
        rw [execT, execP]
        refine (ih (st :: ctx) (prog r) (s.at st)).bind (fun h => by rw [h]) fun o h => ?_
        rw [h]
        cases o with
        | ok f s' => exact prepend_gives _ (ih ctx ss (s'.at st))
        | raised f s' =>
          dsimp only
          refine (caughtT_gives hW (st :: ctx) f s').bind (fun h => by rw [h]) fun s' h => ?_
          rw [h]
          exact prepend_gives _ (ih ctx ss (s'.at st))
      | predict d bs =>
        rw [execT, execP]
        refine (predictT_gives hW d ctx s).bind (fun h => by rw [h]) fun r h => ?_
        rw [h]
        obtain ⟨⟨_ | a, k⟩, s⟩ := r
        · exact .pure List.prefix_rfl
        · exact ih _ _ _
      | switchLA cs =>
        rw [execT, execP]
        cases switchCase (la (s.toks q)) cs with
        | none => exact .pure List.prefix_rfl
        | some b => exact ih _ _ _
      | ifLA t b => exact ih _ _ _
      | whileLA b st t => exact ih _ _ _
      | whilePredict b st d => exact ih _ _ _
      | loopPredict b st d =>
        rw [execT, execP]
        refine (predictT_gives hW d ctx s).bind (fun h => by rw [h]) fun r h => ?_
        rw [h]
        obtain ⟨⟨_ | a, k⟩, s⟩ := r
        · exact .pure List.prefix_rfl
        · dsimp only
          split
          · exact ih _ _ _
          · split
            · exact ih _ _ _
            · exact .pure List.prefix_rfl

theorem callT_gives (prog : Rule → List Stmt) (n : Nat) (r : Rule) :
    (callT strict L m q A prog n r).Gives W strict [] Prod.snd (callP L m q A prog n r) := by
  unfold callT callP
  refine (lookT_gives hW 0 PState.new).bind (fun h => by rw [h]) fun s h => ?_
  rw [h]
  dsimp only
  refine (execT_gives hW prog n [] (prog r) s).bind (fun h => by rw [h]) fun o h => ?_
  rw [h]
  cases o with
  | ok f s => exact .pure List.prefix_rfl
  | raised f s =>
    dsimp only
    refine (caughtT_gives hW [] f s).bind (fun h => by rw [h]) fun s h => ?_
    rw [h]
    exact .pure List.prefix_rfl

end

end Fcsql
