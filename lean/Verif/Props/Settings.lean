/-
C21, C22, C24: how the returned tree depends on the settings of the parser.
-/
import Verif.Proofs.Rel
import Verif.Proofs.Covers
import Verif.Props.Examples

set_option autoImplicit false
set_option linter.unusedSimpArgs false

namespace Fcsql

attribute [local irreducible] parseQuery

/-! ### C21 -/

/-- Equal attributes, except that the regex of an `Expression` may be changed by `f`. -/
inductive RegexMapped (f : PyStr → PyStr) : Kind → Kind → Prop
  | expression {q : Option PyStr} {i : PyStr} {o : Operator} {v : PyStr} {fl : Option FlagSet} :
      RegexMapped f (.expression q i o v fl) (.expression q i o (f v) fl)
  | other {k : Kind} : (∀ q i o v fl, k ≠ .expression q i o v fl) → RegexMapped f k k

/-- **C21.** If a query is accepted without normalisation, it is accepted with normalisation form `F`, and
the tree is the same except that every regex is normalised (once). -/
theorem C21_normalized_once (rt : Runtime) (cfg : Config) (F : NormForm) (q : PyStr) (n : Node)
    (h : (parseQuery rt { cfg with normForm := none } q).1 = .ok n) :
    ∃ n', (parseQuery rt { cfg with normForm := some F } q).1 = .ok n' ∧
      NodeRel (RegexMapped (rt.normalize F)) Eq n n' := by
  have hc : Compat rt.toPyRuntime { cfg with normForm := none } { cfg with normForm := some F }
      (RegexMapped (rt.normalize F)) Eq := by
    refine ⟨?_, fun k hk => .other hk, fun _ => rfl⟩
    rintro r v fl ⟨⟨raw, h1, rfl⟩, h2⟩
    exact ⟨rt.normalize F v, ⟨⟨v, h1, rfl⟩, h2⟩, fun _ _ _ => .expression, .expression⟩
  exact parse_rel hc h

/-- **C21.** Acceptance does not depend on the normalisation form. -/
theorem C21_acceptance (rt : Runtime) (cfg : Config) (F F' : Option NormForm) (q : PyStr) :
    (∃ n, (parseQuery rt { cfg with normForm := F } q).1 = .ok n) ↔
    (∃ n, (parseQuery rt { cfg with normForm := F' } q).1 = .ok n) := by
  have key : ∀ G G' : Option NormForm, (∃ n, (parseQuery rt { cfg with normForm := G } q).1 = .ok n) →
      ∃ n, (parseQuery rt { cfg with normForm := G' } q).1 = .ok n := by
    rintro G G' ⟨n, h⟩
    have hc : Compat rt.toPyRuntime { cfg with normForm := G } { cfg with normForm := G' } (fun _ _ => True)
        (fun _ _ => True) := by
      refine ⟨?_, fun _ _ => trivial, fun _ => trivial⟩
      rintro r v fl ⟨⟨raw, h1, rfl⟩, h2⟩
      exact ⟨_, ⟨⟨raw, h1, rfl⟩, h2⟩, fun _ _ _ => trivial, trivial⟩
    obtain ⟨n', h1, -⟩ := parse_rel hc h
    exact ⟨n', h1⟩
  exact ⟨key F F', key F' F⟩

/-- An environment whose normalisation is visible. -/
def rtUpper : Runtime := { rt0 with normalize := fun _ s => s ++ s }

example : (parseQuery rtUpper { defaultConfig with normForm := none } py!"[x='a\\n']").1 = .ok (.mk (.segment 1 1)
      [.mk (.expression none py!"x" .EQUALS (py!"a" ++ [10]) none) [] none] none) ∧
    (parseQuery rtUpper defaultConfig py!"[x='a\\n']").1 = .ok (.mk (.segment 1 1)
      [.mk (.expression none py!"x" .EQUALS (py!"a" ++ [10] ++ py!"a" ++ [10]) none) [] none] none) := by
  decide +kernel

/-! ### C22 -/

/-- Equal attributes, except that unqualified `Expression`s with the old defaults may have the new ones. -/
inductive DefaultsReplaced (i : PyStr) (o : Operator) (i' : PyStr) (o' : Operator) : Kind → Kind → Prop
  | replaced {v : PyStr} {fl : Option FlagSet} :
      DefaultsReplaced i o i' o' (.expression none i o v fl) (.expression none i' o' v fl)
  | same {k : Kind} : DefaultsReplaced i o i' o' k k

/-- **C22.** Changing the defaults changes nothing but identifier and operator of `Expression`s that have the
defaults (by `C22_expression_as_written`, these come from bare literals). -/
theorem C22_defaults_only (rt : Runtime) (cfg : Config) (i' : PyStr) (o' : Operator) (q : PyStr) (n : Node)
    (h : (parseQuery rt cfg q).1 = .ok n) :
    ∃ n', (parseQuery rt { cfg with defaultIdentifier := i', defaultOperator := o' } q).1 = .ok n' ∧
      NodeRel (DefaultsReplaced cfg.defaultIdentifier cfg.defaultOperator i' o') Eq n n' := by
  have hc : Compat rt.toPyRuntime cfg { cfg with defaultIdentifier := i', defaultOperator := o' }
      (DefaultsReplaced cfg.defaultIdentifier cfg.defaultOperator i' o') Eq := by
    refine ⟨?_, fun k _ => .same, fun _ => rfl⟩
    intro r v fl hr
    exact ⟨v, hr, fun _ _ _ => .same, .replaced⟩
  exact parse_rel hc h

example : (parseQuery rt0 { defaultConfig with defaultIdentifier := py!"lemma", defaultOperator := .NOT_EQUALS }
      py!"'a' [text='b']").1 = .ok (.mk .sequence
      [.mk (.segment 1 1) [.mk (.expression none py!"lemma" .NOT_EQUALS py!"a" none) [] none] none,
       .mk (.segment 1 1) [.mk (.expression none py!"text" .EQUALS py!"b" none) [] none] none] none) := by
  decide +kernel

/-! ### C24 -/

theorem span_isSome {cfg : Config} {u : List Tok} (hne : u ≠ []) (h : cfg.enableSourceLocations = true) :
    ∃ l, cfg.span u = some l := by
  cases u with
  | nil => exact absurd rfl hne
  | cons a u =>
    rw [Config.span, if_pos h]
    cases hu : (a :: u).getLast? with
    | none => simp at hu
    | some b => exact ⟨_, rfl⟩

/-- **C24.** With source locations every node has one; without, no node has one. -/
theorem C24_all_or_none (rt : Runtime) (cfg : Config) (q : PyStr) (n : Node) (h : (parseQuery rt cfg q).1 = .ok n) :
    (cfg.enableSourceLocations = true → ∀ m ∈ n.subnodes, m.loc ≠ none) ∧
    (cfg.enableSourceLocations = false → ∀ m ∈ n.subnodes, m.loc = none) := by
  have hc := Covers.all rt.toPyRuntime cfg (parse_covers rt cfg q n h)
  constructor
  · intro he m hm
    obtain ⟨u, -, h1⟩ := hc m hm
    obtain ⟨k, cs, l⟩ := m
    obtain ⟨l', hl⟩ := span_isSome h1.1 he
    rw [Node.loc, h1.2.1, hl]; simp
  · intro he m hm
    obtain ⟨u, -, h1⟩ := hc m hm
    obtain ⟨k, cs, l⟩ := m
    rw [Node.loc, h1.2.1, Config.span, he]; simp

/-- **C24.** Apart from the locations the trees with and without source locations are the same, and one is
returned if and only if the other is. -/
theorem C24_same_tree (rt : Runtime) (cfg : Config) (on : Bool) (q : PyStr) (n : Node)
    (h : (parseQuery rt cfg q).1 = .ok n) :
    ∃ n', (parseQuery rt { cfg with enableSourceLocations := on } q).1 = .ok n' ∧ n'.unlocated = n.unlocated := by
  have hc : Compat rt.toPyRuntime cfg { cfg with enableSourceLocations := on } Eq (fun _ _ => True) := by
    refine ⟨?_, fun _ _ => rfl, fun _ => trivial⟩
    intro r v fl hr
    exact ⟨v, hr, fun _ _ _ => rfl, rfl⟩
  obtain ⟨n', h1, h2⟩ := parse_rel hc h
  exact ⟨n', h1, unlocated_of_rel n n' h2⟩

example : ∃ n, (parseQuery rt0 locConfig py!"'a' | [b='c' & d='e']").1 = .ok n ∧ 7 = n.subnodes.length ∧
    ∀ m ∈ n.subnodes, m.loc ≠ none := by
  have h : (parseQuery rt0 locConfig py!"'a' | [b='c' & d='e']").1 = .ok (.mk .disjunction
      [.mk (.segment 1 1) [.mk (.expression none py!"text" .EQUALS py!"a" none) [] (some ⟨0, 3⟩)] (some ⟨0, 3⟩),
       .mk (.segment 1 1) [.mk .and [.mk (.expression none py!"b" .EQUALS py!"c" none) [] (some ⟨7, 12⟩),
         .mk (.expression none py!"d" .EQUALS py!"e" none) [] (some ⟨15, 20⟩)] (some ⟨7, 20⟩)] (some ⟨6, 21⟩)]
      (some ⟨0, 21⟩)) := by decide +kernel
  exact ⟨_, h, by decide +kernel, (C24_all_or_none _ _ _ _ h).1 rfl⟩

end Fcsql
