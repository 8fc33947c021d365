/-
C69: what the verdict of `FCSQLValidator.is_valid` depends on.
-/
import Verif.Props.Validation
import Verif.Spec.Rel

set_option autoImplicit false
set_option linter.unusedSimpArgs false

namespace Fcsql

variable {X : Type}

/-- `FCSQLValidator(...).is_valid(node, query=...)`, for a validator object in any state. -/
theorem is_valid_iff (rt : PyRuntime) (o : FcsqlOptions) (n : Node) (query : Option PyStr) (s : VState X) :
    (isValidWith (fcsqlValidator rt o) n query s).1 = true ↔
      (∀ m ∈ n.subnodes, ¬ ExprBad o m) ∧ (s.warningsAsErrors = true → ∀ m ∈ n.subnodes, ¬ ExprDubious o m) := by
  have key : ∀ t : VState X, t.raiseAtFirst = false → ((isValidWith (fcsqlValidator rt o) n query t).1 = true ↔
      (∀ m ∈ n.subnodes, ¬ ExprBad o m) ∧ (t.warningsAsErrors = true → ∀ m ∈ n.subnodes, ¬ ExprDubious o m)) := by
    intro t ht
    obtain ⟨b, s', h1, h2, -⟩ := C34_verdict rt o n query t ht
    unfold isValidWith
    rw [h1]
    exact h2
  cases h : s.raiseAtFirst with
  | false => exact key s h
  | true =>
    rw [C35_is_valid rt o n query s { s with raiseAtFirst := false } h rfl rfl]
    exact key _ rfl

/-! ### The tree -/

mutual
theorem Node.subnodes_unlocated : ∀ n : Node, n.unlocated.subnodes = n.subnodes.map Node.unlocated
  | .mk k cs l => by simp [Node.unlocated, Node.subnodes, Node.subnodesL_unlocated cs]
theorem Node.subnodesL_unlocated : ∀ ns : List Node, Node.subnodesL (Node.unlocatedL ns) = (Node.subnodesL ns).map Node.unlocated
  | [] => rfl
  | n :: ns => by simp [Node.unlocatedL, Node.subnodesL, Node.subnodes_unlocated n, Node.subnodesL_unlocated ns]
end

theorem Node.kind_unlocated (n : Node) : n.unlocated.kind = n.kind := by cases n; rfl

theorem bad_unlocated (o : FcsqlOptions) (n : Node) :
    ((∀ m ∈ n.unlocated.subnodes, ¬ ExprBad o m) ↔ ∀ m ∈ n.subnodes, ¬ ExprBad o m) ∧
    ((∀ m ∈ n.unlocated.subnodes, ¬ ExprDubious o m) ↔ ∀ m ∈ n.subnodes, ¬ ExprDubious o m) := by
  rw [Node.subnodes_unlocated]
  simp only [List.mem_map, forall_exists_index, and_imp, forall_apply_eq_imp_iff₂, ExprBad, ExprDubious, Node.kind_unlocated]
  exact ⟨trivial, trivial⟩

/-- **C69.** The verdict does not depend on the query text, on the locations in the tree, on whether the validator raises, or on what the
object was used for before: only on the tree, the options and `warnings_as_errors`. -/
theorem C69_depends_on (rt rt' : PyRuntime) (o : FcsqlOptions) (n n' : Node) (hn : n.unlocated = n'.unlocated) (query query' : Option PyStr) (s s' : VState X)
    (hs : s.warningsAsErrors = s'.warningsAsErrors) :
    (isValidWith (fcsqlValidator rt o) n query s).1 = (isValidWith (fcsqlValidator rt' o) n' query' s').1 := by
  rw [Bool.eq_iff_iff, is_valid_iff, is_valid_iff, hs, ← (bad_unlocated o n).1, ← (bad_unlocated o n).2, hn, (bad_unlocated o n').1, (bad_unlocated o n').2]

/-- **C69.** A tree is valid exactly if its root alone and its subtrees are valid. -/
theorem C69_by_parts (rt : PyRuntime) (o : FcsqlOptions) (k : Kind) (cs : List Node) (l : Option Loc) (query : Option PyStr) (s : VState X) :
    (isValidWith (fcsqlValidator rt o) (.mk k cs l) query s).1 = true ↔
      (isValidWith (fcsqlValidator rt o) (.mk k [] l) query s).1 = true ∧ ∀ c ∈ cs, (isValidWith (fcsqlValidator rt o) c query s).1 = true := by
  simp only [is_valid_iff, Node.subnodes, List.mem_cons, mem_subnodesL, Node.subnodesL, List.not_mem_nil, or_false, forall_eq]
  have h1 : ¬ ExprBad o (.mk k cs l) ↔ ¬ ExprBad o (.mk k [] l) := Iff.rfl
  have h2 : ¬ ExprDubious o (.mk k cs l) ↔ ¬ ExprDubious o (.mk k [] l) := Iff.rfl
  constructor
  · rintro ⟨a, b⟩
    exact ⟨⟨h1.1 (a _ (.inl rfl)), fun h => h2.1 (b h _ (.inl rfl))⟩, fun c hc => ⟨fun m hm => a m (.inr ⟨c, hc, hm⟩), fun h m hm => b h m (.inr ⟨c, hc, hm⟩)⟩⟩
  · rintro ⟨⟨a, b⟩, c⟩
    constructor
    · rintro m (rfl | ⟨x, hx, hm⟩)
      · exact h1.2 a
      · exact (c x hx).1 m hm
    · rintro h m (rfl | ⟨x, hx, hm⟩)
      · exact h2.2 (b h)
      · exact (c x hx).2 h m hm

/-- **C69.** Only `Expression`s matter: any other node without children is valid. -/
theorem C69_only_expressions (rt : PyRuntime) (o : FcsqlOptions) (k : Kind) (hk : ∀ q i op r fl, k ≠ .expression q i op r fl) (l : Option Loc)
    (query : Option PyStr) (s : VState X) : (isValidWith (fcsqlValidator rt o) (.mk k [] l) query s).1 = true := by
  simp only [is_valid_iff, Node.subnodes, Node.subnodesL, List.mem_singleton, forall_eq, ExprBad, ExprDubious, Node.kind]
  exact ⟨by rintro ⟨q, i, op, r, fl, h, -⟩; exact hk _ _ _ _ _ h, by rintro - ⟨q, i, op, r, fl, h, -⟩; exact hk _ _ _ _ _ h⟩

/-! ### The options -/

theorem valid_mono {rt : PyRuntime} {o o' : FcsqlOptions} (hi : ∀ i, BadIdentifier o' i → BadIdentifier o i) (hq : ∀ q i, BadQualifier o' q i → BadQualifier o q i)
    (hd : ∀ i, DubiousIdentifier o' i → DubiousIdentifier o i ∨ BadIdentifier o i) {n : Node} {query : Option PyStr} {s : VState X}
    (h : (isValidWith (fcsqlValidator rt o) n query s).1 = true) : (isValidWith (fcsqlValidator rt o') n query s).1 = true := by
  rw [is_valid_iff] at h ⊢
  refine ⟨?_, ?_⟩
  · rintro m hm ⟨q, i, op, r, fl, e, hb⟩
    exact h.1 m hm ⟨q, i, op, r, fl, e, hb.imp (hi i) (hq q i)⟩
  · rintro hw m hm ⟨q, i, op, r, fl, e, hb⟩
    rcases hb with hb | hb
    · rcases hd i hb with hb | hb
      · exact h.2 hw m hm ⟨q, i, op, r, fl, e, .inl hb⟩
      · exact h.1 m hm ⟨q, i, op, r, fl, e, .inl hb⟩
    · exact h.2 hw m hm ⟨q, i, op, r, fl, e, .inr hb⟩

/-- **C69.** Allowing more layers makes no tree invalid. -/
theorem C69_more_layers (rt : PyRuntime) (as bs : List PyStr) (ha : as ≠ []) (hab : ∀ i ∈ as, i ∈ bs) (qs : Option (List (PyStr × Option (List PyStr))))
    (n : Node) (query : Option PyStr) (s : VState X) (h : (isValidWith (fcsqlValidator rt ⟨some as, qs⟩) n query s).1 = true) :
    (isValidWith (fcsqlValidator rt ⟨some bs, qs⟩) n query s).1 = true := by
  obtain ⟨a, as, rfl⟩ := List.exists_cons_of_ne_nil ha
  have hb : bs ≠ [] := by rintro rfl; simpa using hab a (by simp)
  obtain ⟨b, bs, rfl⟩ := List.exists_cons_of_ne_nil hb
  refine valid_mono (o := ⟨some (a :: as), qs⟩) (o' := ⟨some (b :: bs), qs⟩) ?_ (fun _ _ h => h) ?_ h
  · rintro i (⟨b', bs', e, hi⟩ | ⟨e | e, -⟩)
    · cases e
      exact .inl ⟨a, as, rfl, fun h => hi (hab i h)⟩
    · cases e
    · cases e
  · rintro i ⟨e | e, -⟩ <;> cases e

/-- **C69.** Restricting the layers to (some of) those of the specification is stricter than giving no list. -/
theorem C69_known_layers (rt : PyRuntime) (as : List PyStr) (ha : as ≠ []) (hab : ∀ i ∈ as, i ∈ [py!"text", py!"lemma", py!"pos", py!"orth", py!"norm", py!"phonetic"])
    (qs : Option (List (PyStr × Option (List PyStr))))
    (n : Node) (query : Option PyStr) (s : VState X) (h : (isValidWith (fcsqlValidator rt ⟨some as, qs⟩) n query s).1 = true) :
    (isValidWith (fcsqlValidator rt ⟨none, qs⟩) n query s).1 = true := by
  obtain ⟨a, as, rfl⟩ := List.exists_cons_of_ne_nil ha
  refine valid_mono (o := ⟨some (a :: as), qs⟩) (o' := ⟨none, qs⟩) ?_ (fun _ _ h => h) ?_ h
  · rintro i (⟨b', bs', e, hi⟩ | ⟨-, h1, h2, h3⟩)
    · cases e
    · exact .inl ⟨a, as, rfl, fun h => h1 (hab i h)⟩
  · rintro i ⟨-, hi⟩
    refine .inr (.inl ⟨a, as, rfl, fun h => ?_⟩)
    have := hab i h
    rcases hi with rfl | hi
    · revert this; decide
    · simp only [List.mem_cons, List.not_mem_nil, or_false] at this
      rcases this with rfl | rfl | rfl | rfl | rfl | rfl <;> revert hi <;> decide

/-- **C69.** Allowing more qualifiers makes no tree invalid: every layer with a list of qualifiers (its first entry) gets a list with at
least these. -/
theorem C69_more_qualifiers (rt : PyRuntime) (is : Option (List PyStr)) (as bs : List (PyStr × Option (List PyStr))) (ha : as ≠ [])
    (hab : ∀ i qs, as.find? (fun p => p.1 = i) = some (i, some qs) → ∃ qs', bs.find? (fun p => p.1 = i) = some (i, some qs') ∧ ∀ q ∈ qs, q ∈ qs')
    (n : Node) (query : Option PyStr) (s : VState X) (h : (isValidWith (fcsqlValidator rt ⟨is, some as⟩) n query s).1 = true) :
    (isValidWith (fcsqlValidator rt ⟨is, some bs⟩) n query s).1 = true := by
  refine valid_mono (o := ⟨is, some as⟩) (o' := ⟨is, some bs⟩) (fun _ h => h) ?_ (fun _ h => .inl h) h
  rintro q i ⟨x, cs, h1, h2, e, -, h4⟩
  cases e
  refine ⟨x, as, h1, h2, rfl, ha, ?_⟩
  intro qs hq hx
  obtain ⟨qs', e1, e2⟩ := hab i qs hq
  exact h4 qs' e1 (e2 x hx)

/-- **C69.** Without a list of qualifiers every qualifier is allowed. -/
theorem C69_no_qualifiers (rt : PyRuntime) (is : Option (List PyStr)) (as : Option (List (PyStr × Option (List PyStr))))
    (n : Node) (query : Option PyStr) (s : VState X) (h : (isValidWith (fcsqlValidator rt ⟨is, as⟩) n query s).1 = true) :
    (isValidWith (fcsqlValidator rt ⟨is, none⟩) n query s).1 = true := by
  refine valid_mono (o := ⟨is, as⟩) (o' := ⟨is, none⟩) (fun _ h => h) ?_ (fun _ h => .inl h) h
  rintro q i ⟨x, cs, h1, h2, e, -⟩
  cases e

/-- **C69.** An empty list is the same as no list: the same outcome, exception, errors and warnings. -/
theorem C69_empty_lists (rt : PyRuntime) (is : Option (List PyStr)) (qs : Option (List (PyStr × Option (List PyStr)))) (n : Node) (query : Option PyStr)
    (s : VState X) :
    validateWith (fcsqlValidator rt ⟨some [], qs⟩) n query s = validateWith (fcsqlValidator rt ⟨none, qs⟩) n query s ∧
    validateWith (fcsqlValidator rt ⟨is, some []⟩) n query s = validateWith (fcsqlValidator rt ⟨is, none⟩) n query s := by
  have h1 : fcsqlValidator (X := X) rt ⟨some [], qs⟩ = fcsqlValidator rt ⟨none, qs⟩ := by
    unfold fcsqlValidator fcsqlCheckExpression checkIdentifier checkQualifier
    rfl
  have h2 : fcsqlValidator (X := X) rt ⟨is, some []⟩ = fcsqlValidator rt ⟨is, none⟩ := by
    unfold fcsqlValidator
    congr 1
    funext name m
    split
    · unfold fcsqlCheckExpression
      split
      · rename_i q i op r fl _
        have : ∀ q, checkQualifier (X := X) rt ⟨is, some []⟩ m i q = checkQualifier rt ⟨is, none⟩ m i q := by
          intro q
          unfold checkQualifier
          rcases q with _ | ⟨_ | ⟨c, cs⟩⟩ <;> rfl
        rw [this]
        rfl
      · rfl
    · rfl
  exact ⟨by rw [h1], by rw [h2]⟩

/-! ### Examples -/

/-- `[x:foo='a']`, as a tree. -/
def fooNode : Node := .mk (.segment 1 1) [.mk (.expression (some py!"x") py!"foo" .EQUALS py!"a" none) [] none] none

-- allowed / not allowed / more allowed
example : (isValidWith (fcsqlValidator (X := Unit) rt0.toPyRuntime ⟨some [py!"foo"], none⟩) fooNode none (VState.new none true true ())).1 = true ∧
    (isValidWith (fcsqlValidator (X := Unit) rt0.toPyRuntime ⟨some [py!"bar"], none⟩) fooNode none (VState.new none true true ())).1 = false ∧
    (isValidWith (fcsqlValidator (X := Unit) rt0.toPyRuntime ⟨none, none⟩) fooNode none (VState.new none true true ())).1 = false := by decide +kernel

example : (isValidWith (fcsqlValidator (X := Unit) rt0.toPyRuntime ⟨some [py!"bar", py!"foo"], none⟩) fooNode none (VState.new none true true ())).1 = true :=
  C69_more_layers _ [py!"foo"] _ (by simp) (by decide) _ _ _ _ (by decide +kernel)

-- qualifiers: the entry of the layer gets longer
example : (isValidWith (fcsqlValidator (X := Unit) rt0.toPyRuntime ⟨some [py!"foo"], some [(py!"foo", some [py!"y"])]⟩) fooNode none (VState.new none true true ())).1 = false ∧
    (isValidWith (fcsqlValidator (X := Unit) rt0.toPyRuntime ⟨some [py!"foo"], some [(py!"foo", some [py!"x"])]⟩) fooNode none (VState.new none true true ())).1 = true := by
  decide +kernel

example : (isValidWith (fcsqlValidator (X := Unit) rt0.toPyRuntime ⟨some [py!"foo"], some [(py!"bar", none), (py!"foo", some [py!"y", py!"x"])]⟩) fooNode none
    (VState.new none true true ())).1 = true := by
  refine C69_more_qualifiers _ _ [(py!"foo", some [py!"x"])] _ (by simp) ?_ _ _ _ (by decide +kernel)
  intro i qs h
  have : i = py!"foo" := by
    have h1 := List.mem_of_find?_eq_some h
    simp at h1
    exact h1.1
  subst this
  simp at h
  subst h
  exact ⟨[py!"y", py!"x"], by decide, by decide⟩

end Fcsql
