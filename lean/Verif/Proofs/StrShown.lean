/-
What `str` shows of a tree: the tree with newline, carriage return and tab in the values written as escapes.
-/
import Verif.Proofs.Str
import Verif.Spec.Rel

set_option autoImplicit false
set_option linter.unusedSimpArgs false

namespace Fcsql

/-- The attributes as shown. -/
def Kind.shown : Kind → Kind
  | .expression q i o r f => .expression q i o (translateWs r) f
  | k => k

mutual
/-- The tree as shown. -/
def Node.shown : Node → Node
  | .mk k cs l => .mk k.shown (Node.shownL cs) l
/-- The trees as shown. -/
def Node.shownL : List Node → List Node
  | [] => []
  | c :: cs => c.shown :: Node.shownL cs
end

theorem shownL_map (cs : List Node) : Node.shownL cs = cs.map Node.shown := by
  induction cs with
  | nil => rfl
  | cons c cs ih => rw [Node.shownL, ih, List.map_cons]

theorem translateWs_chars (v : PyStr) : ∀ c ∈ translateWs v, (c ≠ 10 ∧ c ≠ 13 ∧ c ≠ 9) ∧ (c = 34 → c ∈ v) := by
  intro c hc
  simp only [translateWs, List.mem_flatMap] at hc
  obtain ⟨a, ha, hc⟩ := hc
  split at hc
  · simp at hc; omega
  · split at hc
    · simp at hc; omega
    · split at hc
      · simp at hc; omega
      · simp at hc
        subst hc
        exact ⟨⟨by assumption, by assumption, by assumption⟩, fun _ => ha⟩

theorem translateWs_idem (v : PyStr) : translateWs (translateWs v) = translateWs v := by
  have : ∀ w : PyStr, (∀ c ∈ w, c ≠ 10 ∧ c ≠ 13 ∧ c ≠ 9) → translateWs w = w := by
    intro w
    induction w with
    | nil => intro _; rfl
    | cons a w ih =>
      intro h
      have h1 := h a (by simp)
      have h2 := ih fun c hc => h c (by simp [hc])
      simp only [translateWs, List.flatMap_cons] at h2 ⊢
      rw [if_neg h1.1, if_neg h1.2.1, if_neg h1.2.2, h2]
      rfl
  exact this _ fun c hc => (translateWs_chars v c hc).1

theorem shown_nodeType (k : Kind) : k.shown.nodeType = k.nodeType := by cases k <;> rfl

mutual
theorem str_of_shown : ∀ n : Node, n.shown.str = n.str
  | .mk k cs l => by
    have h := strs_of_shown cs
    rw [Node.shown]
    cases k <;> simp only [Kind.shown, Node.str, h, translateWs_idem] <;> rfl
theorem strs_of_shown : ∀ cs : List Node, Node.strs (Node.shownL cs) = Node.strs cs
  | [] => rfl
  | c :: cs => by rw [Node.shownL, Node.strs, Node.strs, str_of_shown c, strs_of_shown cs]
end

mutual
theorem subnodes_shown : ∀ n : Node, n.shown.subnodes = n.subnodes.map Node.shown
  | .mk k cs l => by
    rw [Node.shown, Node.subnodes, Node.subnodes, List.map_cons, subnodesL_shown cs, Node.shown]
theorem subnodesL_shown : ∀ cs : List Node, Node.subnodesL (Node.shownL cs) = (Node.subnodesL cs).map Node.shown
  | [] => rfl
  | c :: cs => by
    rw [Node.shownL, Node.subnodesL, Node.subnodesL, List.map_append, subnodes_shown c, subnodesL_shown cs]
end

theorem shapeAt_shown {k : Kind} {cs : List Kind} (h : ShapeAt k cs) : ShapeAt k.shown (cs.map Kind.shown) := by
  have e1 : ∀ c : Kind, c.isExpr → c.shown.isExpr := by intro c h; cases c <;> simp_all [Kind.isExpr, Kind.shown]
  have e2 : ∀ c : Kind, c.isQuery → c.shown.isQuery := by intro c h; cases c <;> simp_all [Kind.isQuery, Kind.shown]
  have e3 : ∀ c : Kind, c.isItem → c.shown.isItem := by intro c h; cases c <;> simp_all [Kind.isItem, Kind.shown]
  have e4 : ∀ c d : Kind, (∀ q i o r f, d ≠ .expression q i o r f) → c ≠ d → c.shown ≠ d := by
    intro c d hd h
    cases c <;> first | exact h | (intro e; exact hd _ _ _ _ _ e.symm)
  cases k with
  | expression => simp_all [ShapeAt, Kind.shown]
  | wildcard => simp_all [ShapeAt, Kind.shown]
  | within => simp_all [ShapeAt, Kind.shown]
  | group => obtain ⟨c, rfl, hc⟩ := h; exact ⟨_, rfl, e1 _ hc⟩
  | not => obtain ⟨c, rfl, hc⟩ := h; exact ⟨_, rfl, e1 _ hc⟩
  | and =>
    refine ⟨by simpa using h.1, ?_, ?_⟩
    · intro c hc
      obtain ⟨d, hd, rfl⟩ := List.mem_map.1 hc
      exact ⟨e1 _ (h.2.1 d hd).1, e4 _ _ (by simp) (h.2.1 d hd).2⟩
    · have h3 := h.2.2
      cases cs with
      | nil => simp
      | cons d cs =>
        simp only [List.head?_cons, List.map_cons, ne_eq, Option.some.injEq] at h3 ⊢
        exact e4 _ _ (by simp) h3
  | or =>
    refine ⟨by simpa using h.1, ?_⟩
    intro c hc
    obtain ⟨d, hd, rfl⟩ := List.mem_map.1 hc
    exact ⟨e1 _ (h.2 d hd).1, e4 _ _ (by simp) (h.2 d hd).2⟩
  | segment mn mx =>
    obtain ⟨c, rfl, hc⟩ := h
    exact ⟨_, rfl, hc.imp (e1 _) (by rintro rfl; rfl)⟩
  | qgroup mn mx =>
    obtain ⟨c, rfl, hc⟩ := h
    exact ⟨_, rfl, hc.imp (by rintro rfl; rfl) (by rintro rfl; rfl)⟩
  | sequence =>
    refine ⟨by simpa using h.1, ?_⟩
    intro c hc
    obtain ⟨d, hd, rfl⟩ := List.mem_map.1 hc
    exact e3 _ (h.2 d hd)
  | disjunction =>
    refine ⟨by simpa using h.1, ?_⟩
    intro c hc
    obtain ⟨d, hd, rfl⟩ := List.mem_map.1 hc
    exact ⟨e2 _ (h.2 d hd).1, e4 _ _ (by simp) (h.2 d hd).2⟩
  | withWithin =>
    obtain ⟨m, s, rfl, hm⟩ := h
    exact ⟨_, s, rfl, e2 _ hm⟩

theorem shape_shown {n : Node} (h : ∀ m ∈ n.subnodes, ShapeAt m.kind (m.children.map Node.kind)) :
    ∀ m ∈ n.shown.subnodes, ShapeAt m.kind (m.children.map Node.kind) := by
  intro m hm
  rw [subnodes_shown] at hm
  obtain ⟨⟨k, cs, l⟩, hd, rfl⟩ := List.mem_map.1 hm
  have h1 := shapeAt_shown (h _ hd)
  simp only [Node.shown, Node.kind, Node.children, shownL_map, List.map_map] at h1 ⊢
  have e : (Kind.shown ∘ Node.kind) = (Node.kind ∘ Node.shown) := by funext x; cases x; rfl
  rwa [e] at h1

theorem shown_eq_iff (n : Node) : ∀ n', n.shown = n'.shown ↔ NodeRel (fun k k' => k.shown = k'.shown) Eq n n' := by
  apply Node.rec (motive_1 := fun n => ∀ n', n.shown = n'.shown ↔ NodeRel (fun k k' => k.shown = k'.shown) Eq n n')
    (motive_2 := fun cs => ∀ cs', Node.shownL cs = Node.shownL cs' ↔ NodeRelL (fun k k' => k.shown = k'.shown) Eq cs cs')
  · intro k cs l ih n'
    obtain ⟨k', cs', l'⟩ := n'
    rw [NodeRel, Node.shown, Node.shown, Node.mk.injEq, ih]
    constructor
    · rintro ⟨h1, h2, h3⟩; exact ⟨_, _, _, rfl, h1, h3, h2⟩
    · rintro ⟨k'', cs'', l'', h, h1, h2, h3⟩
      cases h
      exact ⟨h1, h3, h2⟩
  · intro cs'
    rw [NodeRelL]
    cases cs' <;> simp [Node.shownL]
  · intro c cs ih1 ih2 cs'
    rw [NodeRelL]
    cases cs' with
    | nil => simp [Node.shownL]
    | cons c' cs' =>
      rw [Node.shownL, Node.shownL, List.cons.injEq, ih1, ih2]
      constructor
      · rintro ⟨h1, h2⟩; exact ⟨_, _, rfl, h1, h2⟩
      · rintro ⟨_, _, h, h1, h2⟩; cases h; exact ⟨h1, h2⟩

end Fcsql
