/-
C103: verdicts when an exception arrives from outside.
-/
import Verif.Model.FaultsApi
import Verif.Props.Faults

set_option autoImplicit false
set_option linter.unusedSimpArgs false

namespace Fcsql

attribute [local irreducible] parserAtn parseQuery lexerAtn lexPieces

/-- The record of `ErrorDetail("an unexpected exception occured while parsing")`. -/
def unexpectedDetail : ErrorDetail :=
  { message := py!"an unexpected exception occured while parsing", type := none, position := .none, fragment := none }

/-- **C103.** Whatever arrives during a call of `can_parse`, and whenever: it answers `True` only if the query can be parsed (with
exactly the answer of C04 if nothing but `KeyboardInterrupt` and the like arrives and does not leave the call).  An `Exception` that
arrives inside the `try` statement of `parse` does not leave it. -/
theorem C103_can_parse (L A : Atn) (hL : deserialize lexerData = some L) (hA : deserialize parserData = some A) (m : Nat) (hm : 28 ≤ m)
    (rt : Runtime) (hrt : rt.Antlr) (F : Faults) (q : PyStr) :
    ∃ N, ∀ n, N ≤ n → ∃ r, canParseF L A m n rt.toPyRuntime F q = some r ∧
      (r = .returns true → canParse rt q = true) ∧
      (F.Only .base → ∀ b, r = .returns b → b = canParse rt q) ∧
      (F.Inside → r ≠ .strike .exception) ∧
      (F = .none → r = .returns (canParse rt q)) := by
  obtain ⟨⟨N, hN⟩, -⟩ := C95_program L A hL hA m hm rt hrt { defaultConfig with enableSourceLocations := true } q
  refine ⟨N, fun n hn => ?_⟩
  obtain ⟨e, es, h1, ⟨h2, -, -⟩, h5, h3, h4⟩ := parseF_facts F [] ((hN n hn).trans (by rw [← parseQuery_pair]))
  have hc : canParse rt q = (match (parseQuery rt { defaultConfig with enableSourceLocations := true } q).1 with
      | .ok _ => true
      | .error _ => false) := rfl
  unfold canParseF fcsqlParseF
  rw [h1, hc]
  cases e with
  | node x =>
    have h2 : (parseQuery rt { defaultConfig with enableSourceLocations := true } q).1 = .ok x := h2
    rw [h2]
    exact ⟨_, rfl, fun _ => rfl, fun _ b h => by cases h; rfl, fun _ h => (by cases h), fun _ => rfl⟩
  | parserException x =>
    refine ⟨_, rfl, ?_, ?_, ?_, ?_⟩
    · intro h; cases h
    · intro hb b h
      cases h
      rcases h3 hb with h3 | ⟨h3, -⟩
      · cases h3
      · cases hr : (parseQuery rt { defaultConfig with enableSourceLocations := true } q).1 with
        | ok y => rw [hr] at h3; cases h3
        | error y => rfl
    · intro _ h; cases h
    · intro hF
      have h4 := (h4 hF).1
      cases hr : (parseQuery rt { defaultConfig with enableSourceLocations := true } q).1 with
      | ok y => rw [hr] at h4; cases h4
      | error y => rfl
  | strike k =>
    refine ⟨_, rfl, ?_, ?_, ?_, ?_⟩
    · intro h; cases h
    · intro _ b h; cases h
    · intro hF h; cases h; exact (h5 hF).1 rfl
    · intro hF
      have h4 := (h4 hF).1
      cases hr : (parseQuery rt { defaultConfig with enableSourceLocations := true } q).1 with
      | ok y => rw [hr] at h4; cases h4
      | error y => rw [hr] at h4; cases h4

/-- **C103.** Whatever arrives during a call of `validate`, and whenever: what it returns (or its `ValueError`) is what it would have
been, or, if an `Exception` arrived while the query was parsed, `False`, or a list that begins with a record that says so,
followed by a first part of the records of syntax errors.  An `Exception` that arrives inside the `try` statement of `parse` does not
leave it. -/
theorem C103_validate (L A : Atn) (hL : deserialize lexerData = some L) (hA : deserialize parserData = some A) (m : Nat) (hm : 28 ≤ m)
    (rt : Runtime) (hrt : rt.Antlr) (reg : Registry) (F : Faults) (V : Option Strike) (q version : PyStr) (re wae : Bool) :
    ∃ N, ∀ n, N ≤ n → ∃ r, validateF L A m n rt.toPyRuntime reg F V q version re wae = some r ∧
      (∀ v, r = .returns v → v = validateIn rt reg q version re wae ∨ re = false ∧ v = .ok (.bool false) ∨
        re = true ∧ ∃ es, es <+: (parseQuery rt { defaultConfig with enableSourceLocations := true } q).2 ∧
          v = .ok (.list (unexpectedDetail :: es))) ∧
      (F.Only .base → ∀ v, r = .returns v → v = validateIn rt reg q version re wae) ∧
      (F.Inside → V = none → r ≠ .strike .exception) ∧
      (F = .none → V = none → r = .returns (validateIn rt reg q version re wae)) := by
  obtain ⟨⟨N, hN⟩, -⟩ := C95_program L A hL hA m hm rt hrt { defaultConfig with enableSourceLocations := true } q
  refine ⟨N, fun n hn => ?_⟩
  obtain ⟨e, es, h1, ⟨h2, h3, h4⟩, h7, h5, h6⟩ := parseF_facts F [] ((hN n hn).trans (by rw [← parseQuery_pair]))
  unfold validateF validateIn
  cases hreg : reg.get version with
  | none => exact ⟨_, rfl, fun v h => by cases h; exact .inl rfl, fun _ v h => by cases h; rfl, fun _ _ h => (by cases h), fun _ _ => rfl⟩
  | some cls =>
    simp only
    rw [h1]
    simp only [QueryParser.new, QueryParser.parse]
    cases e with
    | node x =>
      have h2 : (parseQuery rt { defaultConfig with enableSourceLocations := true } q).1 = .ok x := h2
      rw [h2]
      simp only
      cases V with
      | some k =>
        refine ⟨.strike k, rfl, ?_, ?_, ?_, ?_⟩
        · intro v h; cases h
        · intro _ v h; cases h
        · intro _ h; cases h
        · intro _ h; cases h
      | none =>
        simp only
        rcases validateWith cls.visitor x none (VState.new (some q) (!re) wae cls.own) with ⟨o, s⟩
        cases o with
        | error y => exact ⟨_, rfl, fun v h => by cases h; exact .inl rfl, fun _ v h => by cases h; rfl, fun _ _ h => (by cases h), fun _ _ => rfl⟩
        | ok y => exact ⟨_, rfl, fun v h => by cases h; exact .inl rfl, fun _ v h => by cases h; rfl, fun _ _ h => (by cases h), fun _ _ => rfl⟩
    | strike k =>
      refine ⟨.strike k, rfl, ?_, ?_, ?_, ?_⟩
      · intro v h; cases h
      · intro _ v h; cases h
      · intro hF _ h; cases h; exact (h7 hF).1 rfl
      intro hF
      have h6 := (h6 hF).1
      cases hr : (parseQuery rt { defaultConfig with enableSourceLocations := true } q).1 with
      | ok y => rw [hr] at h6; cases h6
      | error y => rw [hr] at h6; cases h6
    | parserException x =>
      have hsame : (parseQuery rt { defaultConfig with enableSourceLocations := true } q).1 = .error x →
          es = (parseQuery rt { defaultConfig with enableSourceLocations := true } q).2 →
          (if (!re) = true then some (Attempt.returns (Except.ok (ValidateResult.bool false) : Except PyStr ValidateResult))
          else some (.returns (.ok (.list ((if startsWith x.msg py!"unable to parse query: " then []
            else [{ message := x.msg, type := none, position := .none, fragment := none }]) ++ es))))) =
          some (.returns (match (parseQuery rt { defaultConfig with enableSourceLocations := true } q).1 with
            | .error ex =>
              if (!re) = true then .ok (.bool false)
              else .ok (.list ((if startsWith ex.msg py!"unable to parse query: " then []
                else [{ message := ex.msg, type := none, position := .none, fragment := none }]) ++
                  (parseQuery rt { defaultConfig with enableSourceLocations := true } q).2))
            | .ok qn =>
              match validateWith cls.visitor qn none (VState.new (some q) (!re) wae cls.own) with
              | (.error _, _) => .ok (.bool false)
              | (.ok _, s) =>
                .ok (if re then .list (if wae then s.errors ++ s.warnings else s.errors)
                  else .bool (if wae then s.errors ++ s.warnings else s.errors).isEmpty))) := by
        intro g1 g2
        rw [g1, g2]
        cases re <;> rfl
      by_cases hx : (parseQuery rt { defaultConfig with enableSourceLocations := true } q).1 = .error x ∧
          es = (parseQuery rt { defaultConfig with enableSourceLocations := true } q).2
      · have := hsame hx.1 hx.2
        exact ⟨_, this, fun v h => by cases h; exact .inl rfl, fun _ v h => by cases h; rfl, fun _ _ h => (by cases h), fun _ _ => rfl⟩
      · have hun : x = unexpected := by
          rcases h2 with h2 | h2
          · by_cases hu : x = unexpected
            · exact hu
            · exact absurd ⟨h2, h4 (by rw [h2]; rfl) (by rw [h2]; intro h; cases h; exact hu rfl)⟩ hx
          · exact h2
        have hof : ParseEnd.parserException x = .of (parseQuery rt { defaultConfig with enableSourceLocations := true } q).1 →
            (parseQuery rt { defaultConfig with enableSourceLocations := true } q).1 = .error x := by
          intro h
          cases hr : (parseQuery rt { defaultConfig with enableSourceLocations := true } q).1 with
          | ok y => rw [hr] at h; cases h
          | error y => rw [hr] at h; cases h; rfl
        have hpre : es <+: (parseQuery rt { defaultConfig with enableSourceLocations := true } q).2 := by
          rcases h3 with ⟨k, h3, -⟩ | h3
          · cases h3
          · exact h3
        have hb : F.Only .base → False := by
          intro h
          rcases h5 h with h5 | ⟨h5, h5'⟩
          · cases h5
          · exact hx ⟨hof h5, h5'⟩
        have hn : F = .none → False := fun h => hx ⟨hof (h6 h).1, (h6 h).2⟩
        subst hun
        cases re with
        | false => exact ⟨_, rfl, fun v h => by cases h; exact .inr (.inl ⟨rfl, rfl⟩), fun h => (hb h).elim, fun _ _ h => (by cases h), fun h => (hn h).elim⟩
        | true =>
          refine ⟨_, rfl, fun v h => ?_, fun h => (hb h).elim, fun _ _ h => (by cases h), fun h => (hn h).elim⟩
          cases h
          exact .inr (.inr ⟨rfl, es, hpre, rfl⟩)

/-- **C103.** A query is never called valid, and its list of issues is never empty, because something arrived. -/
theorem C103_never_wrongly_valid (L A : Atn) (hL : deserialize lexerData = some L) (hA : deserialize parserData = some A) (m : Nat)
    (hm : 28 ≤ m) (rt : Runtime) (hrt : rt.Antlr) (reg : Registry) (F : Faults) (V : Option Strike) (q version : PyStr) (re wae : Bool)
    (n : Nat) (v : ValidateResult) (hv : v = .bool true ∨ v = .list [])
    (h : validateF L A m n rt.toPyRuntime reg F V q version re wae = some (.returns (.ok v))) :
    validateIn rt reg q version re wae = .ok v := by
  obtain ⟨N, hN⟩ := C103_validate L A hL hA m hm rt hrt reg F V q version re wae
  obtain ⟨r, h1, h2, -⟩ := hN (max n N) (Nat.le_max_right ..)
  have hmono : validateF L A m (max n N) rt.toPyRuntime reg F V q version re wae = some (.returns (.ok v)) := by
    unfold validateF at h ⊢
    cases hreg : reg.get version with
    | none => rw [hreg] at h; exact h
    | some cls =>
      rw [hreg] at h
      simp only at h ⊢
      cases hp : parseF L A m n rt.toPyRuntime { defaultConfig with enableSourceLocations := true } F [] q with
      | none => rw [hp] at h; cases h
      | some x => rw [parseF_mono (Nat.le_max_left n N) hp]; rw [hp] at h; exact h
  rw [hmono] at h1
  cases h1
  rcases h2 _ rfl with h2 | ⟨-, h2⟩ | ⟨-, es, -, h2⟩
  · exact h2.symm
  · cases h2; rcases hv with hv | hv <;> cases hv
  · cases h2; rcases hv with hv | hv <;> cases hv

/-! ### Examples -/

-- `'a'` can be parsed; with little room `can_parse` says no, with Ctrl-C nothing
example : canParseF lexerAtn parserAtn 28 60 rt0.toPyRuntime .none py!"'a'" = some (.returns true) := by decide +kernel
example : canParseF lexerAtn parserAtn 28 60 rt0.toPyRuntime { Faults.none with rules := recursionLimit 3 } py!"'a'" = some (.returns false) := by
  decide +kernel
example : canParseF lexerAtn parserAtn 28 60 rt0.toPyRuntime (atMoment .base 7 0) py!"'a'" = some (.strike .base) := by decide +kernel

-- likewise `validate`
example : validateF lexerAtn parserAtn 28 60 rt0.toPyRuntime (initialRegistry rt0.toPyRuntime) .none none py!"'a'" py!"2.2" true false =
    some (.returns (.ok (.list []))) := by decide +kernel
example : validateF lexerAtn parserAtn 28 60 rt0.toPyRuntime (initialRegistry rt0.toPyRuntime) { Faults.none with rules := recursionLimit 3 } none
    py!"'a'" py!"2.2" true false = some (.returns (.ok (.list [unexpectedDetail]))) := by decide +kernel
example : validateF lexerAtn parserAtn 28 60 rt0.toPyRuntime (initialRegistry rt0.toPyRuntime) .none (some .exception) py!"'a'" py!"2.2" true false =
    some (.strike .exception) := by decide +kernel

end Fcsql
