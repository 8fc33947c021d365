/-
C62: what of its environment `parse` depends on; C22: the default settings.
-/
import Verif.Proofs.Environment
import Verif.Props.RoundTrip

set_option autoImplicit false
set_option linter.unusedSimpArgs false

namespace Fcsql

attribute [local irreducible] parseQuery

/-! ### C62 -/

/-- The digit limit of environment `rt'` is not stricter (0 means no limit). -/
def LimitLe (a b : Nat) : Prop := b = 0 ∨ (a ≠ 0 ∧ a ≤ b)

/-- **C62.** Between two environments whose normalisation (for the parser's form, if it has one) is the same and
whose integer digit limit is the same or laxer, a query that gives a tree in the first gives the same tree in the
second.  Everything else of the environment is irrelevant for successful parses. -/
theorem C62_environment (rt rt' : Runtime) (cfg : Config) (q : PyStr) (n : Node)
    (hn : ∀ F, cfg.normForm = some F → ∀ s, rt.normalize F s = rt'.normalize F s)
    (hl : LimitLe rt.intMaxStrDigits rt'.intMaxStrDigits) (h : (parseQuery rt cfg q).1 = .ok n) :
    (parseQuery rt' cfg q).1 = .ok n := by
  refine parse_env ?_ ?_ h
  · intro s
    rw [Config.norm, Config.norm]
    cases hF : cfg.normForm with
    | none => rfl
    | some F => exact hn F hF s
  · rintro x m ⟨h1, h2⟩
    refine ⟨?_, h2⟩
    rcases hl with hl | ⟨hl, hl'⟩
    · exact .inl hl
    · rcases h1 with h1 | h1
      · exact absurd h1 hl
      · exact .inr (Nat.le_trans h1 hl')

/-- **C62.** Queries without integers do not depend on the digit limit either: without normalisation, they give the
same tree in every environment. -/
theorem C62_any_environment (rt rt' : Runtime) (cfg : Config) (q : PyStr) (n : Node) (hn : cfg.normForm = none)
    (hq : ∀ t ∈ lexTokens q, t.type ≠ .INTEGER) (h : (parseQuery rt cfg q).1 = .ok n) :
    (parseQuery rt' cfg q).1 = .ok n := by
  -- accepted in the second environment, and then by `C62_environment` the same tree as with no limit
  have hacc : ∃ n', (parseQuery rt' cfg q).1 = .ok n' := by
    obtain ⟨h1, h2, h3⟩ := (accepted_iff rt cfg q).1 ⟨n, h⟩
    refine (accepted_iff rt' cfg q).2 ⟨h1, h2, h3.literals, h3.flags, ?_, h3.ranges⟩
    intro t ht hty
    rw [tokenStream, List.mem_append] at ht
    rcases ht with ht | ht
    · exact absurd hty (hq t ht)
    · simp [eofTok] at ht
      subst ht
      cases hty
  obtain ⟨n', h'⟩ := hacc
  let free : Runtime := { rt with intMaxStrDigits := 0 }
  have hN : ∀ (a b : Runtime) (F : NormForm), cfg.normForm = some F → ∀ s, a.normalize F s = b.normalize F s := by
    intro a b F hF; rw [hn] at hF; cases hF
  have e1 := C62_environment rt free cfg q n (hN _ _) (.inl rfl) h
  have e2 := C62_environment rt' free cfg q n' (hN _ _) (.inl rfl) h'
  rw [e1] at e2
  cases e2
  exact h'

/-- Another environment: no digit limit, another normalisation, other error reports. -/
def rtOther : Runtime where
  normalize := fun _ s => s.reverse
  intMaxStrDigits := 0
  chrOverflowIsValueError := true
  unicodeDecimal := fun _ => some 7
  strRepr := id
  syntaxErrors := fun q => (.parser (eofTok q) py!"?", [.parser (eofTok q) py!"!"])

example : (parseQuery rt0 { defaultConfig with normForm := none } py!"[a='b' | c='d']+").1.toOption.isSome = true ∧
    (parseQuery rtOther { defaultConfig with normForm := none } py!"[a='b' | c='d']+").1 =
      (parseQuery rt0 { defaultConfig with normForm := none } py!"[a='b' | c='d']+").1 ∧
    LimitLe rt0.intMaxStrDigits rtOther.intMaxStrDigits ∧
    (∀ t ∈ lexTokens py!"[a='b' | c='d']+", t.type ≠ .INTEGER) := by
  refine ⟨by decide +kernel, by decide +kernel, .inl rfl, by decide +kernel⟩

/-! ### C22: the default settings -/

/-- **C22.** `fcsql.parse` of a bare string literal gives the comparison `text = <NFC of the string>`: the default
identifier is `text`, the default operator is equality, the default normalisation form is NFC. -/
theorem C22_default_settings (rt : Runtime) (s : PyStr) (hs : ValidStr s) (q : Nat) (hq : q = 34 ∨ q = 39) (locations : Bool) :
    ∃ n, fcsqlParse rt (quoteStr q s) locations = .ok n ∧ n.unlocated = .mk (.segment 1 1)
      [.mk (.expression none py!"text" .EQUALS (rt.normalize .NFC s) none) [] none] none :=
  C18_literal_located rt { defaultConfig with enableSourceLocations := locations } s hs q hq

/-- **C24.** A `QueryParser()` records no source locations, `fcsql.parse(query)` does. -/
theorem C24_default_settings (rt : Runtime) (q : PyStr) (n : Node) :
    (((QueryParser.new defaultConfig).parse rt q).1 = .ok n → ∀ m ∈ n.subnodes, m.loc = none) ∧
    (fcsqlParse rt q = .ok n → ∀ m ∈ n.subnodes, m.loc ≠ none) :=
  ⟨fun h => (C24_all_or_none rt defaultConfig q n h).2 rfl,
   fun h => (C24_all_or_none rt { defaultConfig with enableSourceLocations := true } q n h).1 rfl⟩

example : ∃ n, fcsqlParse rt0 py!"'x'" = .ok n ∧ n.subnodes.length = 2 ∧ ∀ m ∈ n.subnodes, m.loc ≠ none := by
  have h : fcsqlParse rt0 py!"'x'" = .ok (.mk (.segment 1 1)
      [.mk (.expression none py!"text" .EQUALS py!"x" none) [] (some ⟨0, 3⟩)] (some ⟨0, 3⟩)) := by decide +kernel
  exact ⟨_, h, rfl, (C24_default_settings rt0 _ _).2 h⟩

end Fcsql
