/-
`str` of a query tree: reading it back.
-/
import Verif.Spec.Tree
import Verif.Spec.Literal

set_option autoImplicit false
set_option linter.unusedSimpArgs false

namespace Fcsql

/-- Two strings that stop at the first character satisfying `P`. -/
theorem until_inj (P : Nat → Prop) : ∀ {a b x y : PyStr}, (∀ c ∈ a, ¬ P c) → (∀ c ∈ b, ¬ P c) →
    (∀ c, x.head? = some c → P c) → (∀ c, y.head? = some c → P c) → a ++ x = b ++ y → a = b ∧ x = y
  | [], [], x, y, _, _, _, _, h => ⟨rfl, h⟩
  | [], d :: b, x, y, _, hb, hx, _, h => by
    simp only [List.nil_append, List.cons_append] at h
    exact absurd (hx d (by rw [h]; rfl)) (hb d (by simp))
  | c :: a, [], x, y, ha, _, _, hy, h => by
    simp only [List.nil_append, List.cons_append] at h
    exact absurd (hy c (by rw [← h]; rfl)) (ha c (by simp))
  | c :: a, d :: b, x, y, ha, hb, hx, hy, h => by
    simp only [List.cons_append, List.cons.injEq] at h
    obtain ⟨rfl, h⟩ := h
    obtain ⟨e1, e2⟩ := until_inj P (fun z hz => ha z (by simp [hz])) (fun z hz => hb z (by simp [hz])) hx hy h
    exact ⟨by rw [e1], e2⟩

/-! ### Numbers -/

theorem decDigitsAux_spec : ∀ (fuel n : Nat) (acc : PyStr), n < fuel → ∃ ds, decDigitsAux fuel n acc = ds ++ acc ∧
    (∀ c ∈ ds, 48 ≤ c ∧ c ≤ 57) ∧ decValue ds = n
  | 0, n, acc, h => absurd h (by omega)
  | fuel + 1, n, acc, h => by
    unfold decDigitsAux
    split
    · refine ⟨[48 + n], rfl, by simp; omega, by simp [decValue]⟩
    · obtain ⟨ds, e, hd, hv⟩ := decDigitsAux_spec fuel (n / 10) ((48 + n % 10) :: acc) (by omega)
      refine ⟨ds ++ [48 + n % 10], by simp [e], ?_, ?_⟩
      · intro c hc
        rcases List.mem_append.1 hc with hc | hc
        · exact hd c hc
        · simp only [List.mem_singleton] at hc; omega
      · rw [decValue, List.foldl_append, ← decValue, hv]
        simp; omega

theorem decValue_foldl (s : PyStr) (a : Nat) :
    s.foldl (fun a c => a * 10 + (c - 48)) a = a * 10 ^ s.length + decimalValue s := by
  induction s generalizing a with
  | nil => simp [decimalValue]
  | cons c s ih =>
    simp only [List.foldl_cons, ih, List.length_cons, decimalValue, Nat.pow_succ, Nat.add_mul]
    rw [Nat.mul_assoc, Nat.mul_comm 10, Nat.add_assoc]

theorem decValue_eq (s : PyStr) : decValue s = decimalValue s := by
  rw [decValue, decValue_foldl, Nat.zero_mul, Nat.zero_add]

theorem decStr_spec (n : Nat) : (∀ c ∈ decStr n, 48 ≤ c ∧ c ≤ 57) ∧ decValue (decStr n) = n := by
  obtain ⟨ds, e, hd, hv⟩ := decDigitsAux_spec (n + 1) n [] (by omega)
  rw [decStr, e, List.append_nil]
  exact ⟨hd, hv⟩

theorem decStr_inj {n m : Nat} (h : decStr n = decStr m) : n = m := by
  rw [← (decStr_spec n).2, h, (decStr_spec m).2]

theorem intStr_chars (i : Int) : ∀ c ∈ intStr i, c = 45 ∨ (48 ≤ c ∧ c ≤ 57) := by
  intro c hc
  unfold intStr at hc
  split at hc
  · rcases List.mem_cons.1 hc with rfl | hc
    · exact .inl rfl
    · exact .inr ((decStr_spec _).1 c hc)
  · exact .inr ((decStr_spec _).1 c hc)

theorem intStr_inj {i j : Int} (h : intStr i = intStr j) : i = j := by
  unfold intStr at h
  have key : ∀ {n : Nat} {w : PyStr}, 45 :: w ≠ decStr n := by
    intro n w h
    have := (decStr_spec n).1 45 (by rw [← h]; simp)
    omega
  split at h <;> split at h
  · simp only [List.cons.injEq, true_and] at h
    have := decStr_inj h; omega
  · exact absurd h key
  · exact absurd h.symm key
  · have := decStr_inj h; omega

/-! ### Parts of the string -/

/-- What may follow the string of a node. -/
def Cont (x : PyStr) : Prop := ∀ c, x.head? = some c → c = 32 ∨ c = 41

theorem loc_inj {l l' : Option Loc} {x y : PyStr} (hx : Cont x) (hy : Cont y)
    (h : locSuffix l ++ x = locSuffix l' ++ y) : l = l' ∧ x = y := by
  cases l with
  | none =>
    cases l' with
    | none => exact ⟨rfl, h⟩
    | some l' =>
      have := hx 64 (by simp only [locSuffix, List.nil_append] at h; rw [h]; rfl)
      omega
  | some l =>
    cases l' with
    | none =>
      have := hy 64 (by simp only [locSuffix, List.nil_append] at h; rw [← h]; rfl)
      omega
    | some l' =>
      simp only [locSuffix, List.append_assoc, List.cons_append, List.nil_append, List.cons.injEq, true_and] at h
      obtain ⟨e1, h⟩ := until_inj (fun c => c = 58) (fun c hc => by have := intStr_chars _ c hc; omega)
        (fun c hc => by have := intStr_chars _ c hc; omega) (by simp) (by simp) h
      simp only [List.cons.injEq, true_and] at h
      obtain ⟨e2, h⟩ := until_inj (fun c => c = 32 ∨ c = 41) (fun c hc => by have := intStr_chars _ c hc; omega)
        (fun c hc => by have := intStr_chars _ c hc; omega) hx hy h
      obtain ⟨a, b⟩ := l
      obtain ⟨a', b'⟩ := l'
      have e3 : a = a' := intStr_inj e1
      have e4 : b = b' := intStr_inj e2
      exact ⟨by rw [e3, e4], by assumption⟩

theorem occurs_inj {label : PyStr} {n m : Int} {x y : PyStr} (hx : ¬ label <+: x) (hy : ¬ label <+: y)
    (h : occursStr label n ++ x = occursStr label m ++ y) : n = m ∧ x = y := by
  unfold occursStr at h
  by_cases hn : n = 1
  · by_cases hm : m = 1
    · simp only [hn, hm, ne_eq, not_true_eq_false, if_false, List.nil_append] at h
      exact ⟨hn.trans hm.symm, h⟩
    · exfalso
      apply hx
      simp only [hn, ne_eq, not_true_eq_false, if_false, List.nil_append, hm, not_false_eq_true, if_true,
        List.append_assoc] at h
      rw [h]; exact List.prefix_append _ _
  · by_cases hm : m = 1
    · exfalso
      apply hy
      simp only [hn, ne_eq, not_true_eq_false, if_false, List.nil_append, hm, not_false_eq_true, if_true,
        List.append_assoc] at h
      rw [← h]; exact List.prefix_append _ _
    · simp only [hn, hm, ne_eq, not_false_eq_true, if_true, List.append_assoc, List.append_cancel_left_eq] at h
      have hc : ∀ k : Int, ∀ c ∈ (if k = OCCURS_UNBOUNDED then py!"*" else intStr k), ¬ c = 32 := by
        intro k c hc
        split at hc
        · simp at hc; omega
        · have := intStr_chars _ c hc; omega
      obtain ⟨e, h⟩ := until_inj (fun c => c = 32) (hc n) (hc m) (by simp) (by simp) h
      simp only [List.cons_append, List.nil_append, List.cons.injEq, true_and] at h
      refine ⟨?_, h⟩
      by_cases h1 : n = OCCURS_UNBOUNDED <;> by_cases h2 : m = OCCURS_UNBOUNDED
      · exact h1.trans h2.symm
      · rw [if_pos h1, if_neg h2] at e
        have := intStr_chars m 42 (by rw [← e]; simp); omega
      · rw [if_neg h1, if_pos h2] at e
        have := intStr_chars n 42 (by rw [e]; simp); omega
      · rw [if_neg h1, if_neg h2] at e
        exact intStr_inj e

/-- The attributes of an `Expression` can be read off its string: names without space and colon, a value without
double quote, newline, carriage return and tab, and flags that are not an empty set. -/
structure Readable (q : Option PyStr) (i r : PyStr) (fl : Option FlagSet) : Prop where
  qualifier : ∀ s, q = some s → s ≠ [] ∧ ∀ c ∈ s, c ≠ 32 ∧ c ≠ 58
  identifier : ∀ c ∈ i, c ≠ 32 ∧ c ≠ 58
  regex : ∀ c ∈ r, c ≠ 34 ∧ c ≠ 10 ∧ c ≠ 13 ∧ c ≠ 9
  flags : ∀ fs, fl = some fs → fs.isEmpty = false

theorem translateWs_eq {r : PyStr} (h : ∀ c ∈ r, c ≠ 34 ∧ c ≠ 10 ∧ c ≠ 13 ∧ c ≠ 9) : translateWs r = r := by
  induction r with
  | nil => rfl
  | cons c r ih =>
    have hc := h c (by simp)
    have : translateWs (c :: r) = c :: translateWs r := by
      simp [translateWs, hc.2.1, hc.2.2.1, hc.2.2.2]
    rw [this, ih fun d hd => h d (by simp [hd])]

theorem flagsStr_chars (fl : Option FlagSet) : ∀ c ∈ flagsStr fl, ¬ c = 41 := by
  cases fl with
  | none => simp [flagsStr]
  | some fs =>
    obtain ⟨a, b, c, d⟩ := fs
    cases a <;> cases b <;> cases c <;> cases d <;> decide

theorem flagsStr_inj {fl fl' : Option FlagSet} (h1 : ∀ fs, fl = some fs → fs.isEmpty = false)
    (h2 : ∀ fs, fl' = some fs → fs.isEmpty = false) (h : flagsStr fl = flagsStr fl') : fl = fl' := by
  have key : ∀ a b c d a' b' c' d' : Bool, FlagSet.isEmpty ⟨a, b, c, d⟩ = false → FlagSet.isEmpty ⟨a', b', c', d'⟩ = false →
      flagsStr (some ⟨a, b, c, d⟩) = flagsStr (some ⟨a', b', c', d'⟩) →
      (⟨a, b, c, d⟩ : FlagSet) = ⟨a', b', c', d'⟩ := by decide
  have key0 : ∀ a b c d : Bool, FlagSet.isEmpty ⟨a, b, c, d⟩ = false → flagsStr (some ⟨a, b, c, d⟩) ≠ [] := by decide
  cases fl with
  | none =>
    cases fl' with
    | none => rfl
    | some fs => exact absurd h.symm (key0 _ _ _ _ (h2 _ rfl))
  | some fs =>
    cases fl' with
    | none => exact absurd h (key0 _ _ _ _ (h1 _ rfl))
    | some fs' => exact congrArg some (key _ _ _ _ _ _ _ _ (h1 _ rfl) (h2 _ rfl) h)

theorem operator_inj {o o' : Operator} {x y : PyStr} (h : o.value ++ x = o'.value ++ y) : o = o' ∧ x = y := by
  cases o <;> cases o' <;> simp [Operator.value] at h ⊢ <;> exact h

/-- The part of the string of an `Expression` after its type. -/
def exprStr (q : Option PyStr) (i : PyStr) (o : Operator) (r : PyStr) (fl : Option FlagSet) : PyStr :=
  (match q with | some q => if q.isEmpty then [] else q ++ py!":" | none => []) ++
    (i ++ (py!" " ++ (o.value ++ (py!" \"" ++ (translateWs r ++ (py!"\"" ++ (flagsStr fl ++ py!")")))))))

theorem expr_inj {q q' : Option PyStr} {i i' r r' : PyStr} {o o' : Operator} {fl fl' : Option FlagSet} {x y : PyStr}
    (h1 : Readable q i r fl) (h2 : Readable q' i' r' fl')
    (h : exprStr q i o r fl ++ x = exprStr q' i' o' r' fl' ++ y) :
    q = q' ∧ i = i' ∧ o = o' ∧ r = r' ∧ fl = fl' ∧ x = y := by
  have tail : ∀ {i i' x y : PyStr}, (∀ c ∈ i, c ≠ 32 ∧ c ≠ 58) → (∀ c ∈ i', c ≠ 32 ∧ c ≠ 58) →
      (i ++ (py!" " ++ (o.value ++ (py!" \"" ++ (translateWs r ++ (py!"\"" ++ (flagsStr fl ++ py!")"))))))) ++ x =
      (i' ++ (py!" " ++ (o'.value ++ (py!" \"" ++ (translateWs r' ++ (py!"\"" ++ (flagsStr fl' ++ py!")"))))))) ++ y →
      i = i' ∧ o = o' ∧ r = r' ∧ fl = fl' ∧ x = y := by
    intro i i' x y hi hi' h
    simp only [List.append_assoc] at h
    obtain ⟨e1, h⟩ := until_inj (fun c => c = 32) (fun c hc => (hi c hc).1) (fun c hc => (hi' c hc).1) (by simp) (by simp) h
    simp only [List.append_cancel_left_eq] at h
    obtain ⟨e2, h⟩ := operator_inj h
    rw [translateWs_eq h1.regex, translateWs_eq h2.regex] at h
    simp only [List.append_cancel_left_eq] at h
    obtain ⟨e3, h⟩ := until_inj (fun c => c = 34) (fun c hc => (h1.regex c hc).1) (fun c hc => (h2.regex c hc).1)
      (by simp) (by simp) h
    simp only [List.append_cancel_left_eq] at h
    obtain ⟨e4, h⟩ := until_inj (fun c => c = 41) (flagsStr_chars _) (flagsStr_chars _) (by simp) (by simp) h
    simp only [List.append_cancel_left_eq] at h
    exact ⟨e1, e2, e3, flagsStr_inj h1.flags h2.flags e4, h⟩
  cases q with
  | none =>
    cases q' with
    | none =>
      simp only [exprStr, List.nil_append] at h
      obtain ⟨e1, e2, e3, e4, e5⟩ := tail h1.identifier h2.identifier h
      exact ⟨rfl, e1, e2, e3, e4, e5⟩
    | some s =>
      exfalso
      obtain ⟨hne, hs⟩ := h2.qualifier s rfl
      have he : s.isEmpty = false := by simpa using hne
      simp only [exprStr, List.nil_append, he, Bool.false_eq_true, if_false, List.append_assoc] at h
      obtain ⟨-, h⟩ := until_inj (fun c => c = 32 ∨ c = 58) (fun c hc => by have := h1.identifier c hc; omega)
        (fun c hc => by have := hs c hc; omega) (by simp) (by simp) h
      simp at h
  | some s =>
    obtain ⟨hne, hs⟩ := h1.qualifier s rfl
    have he : s.isEmpty = false := by simpa using hne
    cases q' with
    | none =>
      exfalso
      simp only [exprStr, List.nil_append, he, Bool.false_eq_true, if_false, List.append_assoc] at h
      obtain ⟨-, h⟩ := until_inj (fun c => c = 32 ∨ c = 58) (fun c hc => by have := hs c hc; omega)
        (fun c hc => by have := h2.identifier c hc; omega) (by simp) (by simp) h
      simp at h
    | some s' =>
      obtain ⟨hne', hs'⟩ := h2.qualifier s' rfl
      have he' : s'.isEmpty = false := by simpa using hne'
      simp only [exprStr, he, he', Bool.false_eq_true, if_false] at h
      simp only [List.append_assoc] at h
      obtain ⟨e0, h⟩ := until_inj (fun c => c = 58) (fun c hc => (hs c hc).2) (fun c hc => (hs' c hc).2)
        (by simp) (by simp) h
      rw [List.append_cancel_left_eq] at h
      obtain ⟨e1, e2, e3, e4, e5⟩ := tail h1.identifier h2.identifier (by simpa only [List.append_assoc] using h)
      exact ⟨by rw [e0], e1, e2, e3, e4, e5⟩

theorem nodeType_chars (t : NodeType) : ∀ c ∈ t.value, ¬ (c = 32 ∨ c = 41) := by
  cases t <;> decide

theorem nodeType_inj {t t' : NodeType} (h : t.value = t'.value) : t = t' := by
  cases t <;> cases t' <;> first | rfl | (exfalso; revert h; decide)

/-- The string of a node: type, attributes and children, location. -/
theorem str_split (k : Kind) (cs : List Node) (l : Option Loc) : ∃ rest, Cont rest ∧
    (Node.mk k cs l).str = py!"(" ++ (k.nodeType.value ++ (rest ++ locSuffix l)) ∧
    (match k with
      | .expression q i o r fl => rest = 32 :: exprStr q i o r fl
      | .group => rest = 32 :: (((Node.strs cs).head?.getD py!"None") ++ py!")")
      | .not => rest = 32 :: (((Node.strs cs).head?.getD py!"None") ++ py!")")
      | .segment mn mx => rest = 32 :: (occursStr py!"@min=" mn ++ (occursStr py!"@max=" mx ++ (((Node.strs cs).head?.getD []) ++ py!")")))
      | .qgroup mn mx => rest = 32 :: (occursStr py!"@min=" mn ++ (occursStr py!"@max=" mx ++ (((Node.strs cs).head?.getD []) ++ py!")")))
      | .within s => rest = 32 :: (s.value ++ py!")")
      | _ => rest = (if (joinStr py!" " (Node.strs cs)).isEmpty then [] else 32 :: joinStr py!" " (Node.strs cs)) ++ py!")") := by
  cases k <;> refine ⟨_, ?_, ?_, rfl⟩
  all_goals first
    | (intro c hc; split at hc <;> simp at hc <;> omega)
    | (intro c hc; simp at hc; omega)
    | (simp [Node.str, exprStr]; done)
    | (simp only [Node.str]; split <;> simp [exprStr]; done)

/-! ### Reading a tree back -/

/-- The `Expression`s of a node list are readable. -/
def AllReadable (ns : List Node) : Prop :=
  ∀ m ∈ ns, ∀ q i o r fl, m.kind = .expression q i o r fl → Readable q i r fl

/-- Right shape and readable. -/
structure StrOk (n : Node) : Prop where
  shape : ∀ m ∈ n.subnodes, ShapeAt m.kind (m.children.map Node.kind)
  readable : AllReadable n.subnodes

theorem str_head (n : Node) : ∃ w, n.str = 40 :: w := by
  obtain ⟨k, cs, l⟩ := n
  obtain ⟨rest, -, e, -⟩ := str_split k cs l
  exact ⟨_, e⟩

theorem StrOk.child {k : Kind} {cs : List Node} {l : Option Loc} (h : StrOk (.mk k cs l)) : ∀ c ∈ cs, StrOk c := by
  have hsub : ∀ cs : List Node, ∀ c ∈ cs, ∀ m ∈ c.subnodes, m ∈ Node.subnodesL cs := by
    intro cs
    induction cs with
    | nil => simp
    | cons d cs ih =>
      intro c hc m hm
      rw [Node.subnodesL, List.mem_append]
      rcases List.mem_cons.1 hc with rfl | hc
      · exact .inl hm
      · exact .inr (ih c hc m hm)
  intro c hc
  have h' : ∀ m ∈ c.subnodes, m ∈ (Node.mk k cs l).subnodes := fun m hm => by
    rw [Node.subnodes]; exact List.mem_cons_of_mem _ (hsub cs c hc m hm)
  exact ⟨fun m hm => h.shape m (h' m hm), fun m hm => h.readable m (h' m hm)⟩

theorem join_head (c : Node) (cs : List Node) : ∃ w, joinStr py!" " (Node.strs (c :: cs)) = 40 :: w := by
  obtain ⟨w, e⟩ := str_head c
  cases cs with
  | nil => exact ⟨w, by simp [Node.strs, joinStr, e]⟩
  | cons d ds => exact ⟨w ++ py!" " ++ joinStr py!" " (Node.strs (d :: ds)), by simp [Node.strs, joinStr, e]⟩

theorem joined_eq (cs : List Node) : (if (joinStr py!" " (Node.strs cs)).isEmpty then [] else 32 :: joinStr py!" " (Node.strs cs)) =
    cs.flatMap fun c => 32 :: c.str := by
  have key : ∀ (c : Node) (cs : List Node), 32 :: joinStr py!" " (Node.strs (c :: cs)) = (c :: cs).flatMap fun c => 32 :: c.str := by
    intro c cs
    induction cs generalizing c with
    | nil => simp [Node.strs, joinStr]
    | cons d ds ih =>
      rw [List.flatMap_cons, ← ih d]
      simp [Node.strs, joinStr]
  cases cs with
  | nil => rfl
  | cons c cs =>
    obtain ⟨w, e⟩ := join_head c cs
    rw [← key c cs, if_neg (by rw [e]; simp)]

/-- The kinds with any number of children. -/
def Kind.many : Kind → Prop
  | .wildcard => True
  | .and => True
  | .or => True
  | .sequence => True
  | .disjunction => True
  | .withWithin => True
  | _ => False

/-- What the string of a node looks like, for a node of the right shape. -/
inductive Shown : Kind → List Node → PyStr → Prop
  | expression {q : Option PyStr} {i r : PyStr} {o : Operator} {fl : Option FlagSet} :
      Shown (.expression q i o r fl) [] (32 :: exprStr q i o r fl)
  | group {c : Node} : Shown .group [c] (32 :: (c.str ++ py!")"))
  | not {c : Node} : Shown .not [c] (32 :: (c.str ++ py!")"))
  | segment {mn mx : Int} {c : Node} : c.kind.isExpr ∨ c.kind = .wildcard →
      Shown (.segment mn mx) [c] (32 :: (occursStr py!"@min=" mn ++ (occursStr py!"@max=" mx ++ (c.str ++ py!")"))))
  | qgroup {mn mx : Int} {c : Node} : c.kind = .sequence ∨ c.kind = .disjunction →
      Shown (.qgroup mn mx) [c] (32 :: (occursStr py!"@min=" mn ++ (occursStr py!"@max=" mx ++ (c.str ++ py!")"))))
  | within {s : Scope} : Shown (.within s) [] (32 :: (s.value ++ py!")"))
  | many {k : Kind} {cs : List Node} : k.many → Shown k cs ((cs.flatMap fun c => 32 :: c.str) ++ py!")")

theorem str_shown {k : Kind} {cs : List Node} {l : Option Loc} (h : ShapeAt k (cs.map Node.kind)) :
    ∃ rest, Cont rest ∧ (Node.mk k cs l).str = py!"(" ++ (k.nodeType.value ++ (rest ++ locSuffix l)) ∧ Shown k cs rest := by
  obtain ⟨rest, h1, h2, h3⟩ := str_split k cs l
  refine ⟨rest, h1, h2, ?_⟩
  cases k with
  | expression q i o r fl =>
    have : cs = [] := by simpa [ShapeAt] using h
    subst this; subst h3; exact .expression
  | within s =>
    have : cs = [] := by simpa [ShapeAt] using h
    subst this; subst h3; exact .within
  | group =>
    obtain ⟨c, e, hc⟩ := h
    obtain ⟨d, rfl, rfl⟩ := List.map_eq_singleton_iff.1 e
    subst h3; exact .group
  | not =>
    obtain ⟨c, e, hc⟩ := h
    obtain ⟨d, rfl, rfl⟩ := List.map_eq_singleton_iff.1 e
    subst h3; exact .not
  | segment mn mx =>
    obtain ⟨c, e, hc⟩ := h
    obtain ⟨d, rfl, rfl⟩ := List.map_eq_singleton_iff.1 e
    subst h3; exact .segment hc
  | qgroup mn mx =>
    obtain ⟨c, e, hc⟩ := h
    obtain ⟨d, rfl, rfl⟩ := List.map_eq_singleton_iff.1 e
    subst h3; exact .qgroup hc
  | _ =>
    simp only [joined_eq] at h3
    subst h3; exact .many trivial

theorem scope_inj {s s' : Scope} {x y : PyStr} (h : s.value ++ (py!")" ++ x) = s'.value ++ (py!")" ++ y)) : s = s' ∧ x = y := by
  have hc : ∀ s : Scope, ∀ c ∈ s.value, ¬ c = 41 := by intro s; cases s <;> decide
  obtain ⟨e, h⟩ := until_inj (fun c => c = 41) (hc s) (hc s') (by simp) (by simp) h
  simp only [List.append_cancel_left_eq] at h
  refine ⟨?_, h⟩
  cases s <;> cases s' <;> first | rfl | (exfalso; revert e; decide)

/-- Reading back the string of a node followed by something. -/
def ReadBack (n : Node) : Prop := StrOk n → ∀ m, StrOk m → ∀ x y, Cont x → Cont y → n.str ++ x = m.str ++ y → n = m ∧ x = y

theorem cont_paren (x : PyStr) : Cont (py!")" ++ x) := by intro c hc; simp at hc; omega

theorem readBack_list : ∀ (cs ds : List Node), (∀ c ∈ cs, ReadBack c) → (∀ c ∈ cs, StrOk c) → (∀ d ∈ ds, StrOk d) →
    ∀ x y, (cs.flatMap fun c => 32 :: c.str) ++ (py!")" ++ x) = (ds.flatMap fun c => 32 :: c.str) ++ (py!")" ++ y) →
    cs = ds ∧ x = y
  | [], [], _, _, _, x, y, h => ⟨rfl, by simpa using h⟩
  | [], d :: ds, _, _, _, x, y, h => by simp at h
  | c :: cs, [], _, _, _, x, y, h => by simp at h
  | c :: cs, d :: ds, hr, h1, h2, x, y, h => by
    simp only [List.flatMap_cons, List.cons_append, List.cons.injEq, true_and, List.append_assoc] at h
    have hcont : ∀ (cs : List Node) (x : PyStr), Cont ((cs.flatMap fun c => 32 :: c.str) ++ (41 :: ([] ++ x))) := by
      intro cs x c hc
      cases cs with
      | nil => simp at hc; omega
      | cons _ _ => simp at hc; omega
    obtain ⟨e1, e2⟩ := hr c (by simp) (h1 c (by simp)) d (h2 d (by simp)) _ _ (hcont _ _) (hcont _ _) h
    obtain ⟨e3, e4⟩ := readBack_list cs ds (fun c hc => hr c (by simp [hc])) (fun c hc => h1 c (by simp [hc]))
      (fun c hc => h2 c (by simp [hc])) x y e2
    exact ⟨by rw [e1, e3], e4⟩

theorem no_min {mx : Int} {c : Node} {z : PyStr} : ¬ py!"@min=" <+: occursStr py!"@max=" mx ++ (c.str ++ z) := by
  obtain ⟨w, e⟩ := str_head c
  unfold occursStr
  rintro ⟨t, h⟩
  split at h <;> simp [e] at h

theorem no_max {c : Node} {z : PyStr} : ¬ py!"@max=" <+: c.str ++ z := by
  obtain ⟨w, e⟩ := str_head c
  rintro ⟨t, h⟩
  simp [e] at h

theorem readBack (n : Node) : ReadBack n := by
  apply Node.rec (motive_1 := ReadBack) (motive_2 := fun cs => ∀ c ∈ cs, ReadBack c)
  · intro k cs l ih h1 m h2 x y hx hy h
    obtain ⟨k', ds, l'⟩ := m
    obtain ⟨r, c1, e1, s1⟩ := str_shown (k := k) (cs := cs) (l := l) (h1.shape (.mk k cs l) (by rw [Node.subnodes]; simp))
    obtain ⟨r', c2, e2, s2⟩ := str_shown (k := k') (cs := ds) (l := l') (h2.shape (.mk k' ds l') (by rw [Node.subnodes]; simp))
    rw [e1, e2] at h
    simp only [List.append_assoc, List.append_cancel_left_eq] at h
    have hl : ∀ (l : Option Loc) {x : PyStr}, Cont x → ∀ {r : PyStr}, Cont r → r ≠ [] → Cont (r ++ (locSuffix l ++ x)) := by
      intro l x hx r hr hne c hc
      cases r with
      | nil => exact absurd rfl hne
      | cons d r => exact hr c (by simpa using hc)
    have hn1 : r ≠ [] := by cases s1 <;> simp
    have hn2 : r' ≠ [] := by cases s2 <;> simp
    obtain ⟨et0, h'⟩ := until_inj (fun c => c = 32 ∨ c = 41) (nodeType_chars _) (nodeType_chars _) (hl l hx c1 hn1)
      (hl l' hy c2 hn2) h
    clear h
    have h := h'
    clear h'
    have et := nodeType_inj et0
    clear et0
    have hc1 := h1.child
    have hc2 := h2.child
    -- after the rest: location and what follows
    have fin : ∀ {k k' : Kind} {cs ds : List Node}, k = k' → cs = ds → locSuffix l ++ x = locSuffix l' ++ y →
        Node.mk k cs l = Node.mk k' ds l' ∧ x = y := by
      rintro k _ cs _ rfl rfl h
      obtain ⟨e, h'⟩ := loc_inj hx hy h
      exact ⟨by rw [e], h'⟩
    cases s1 with
    | expression =>
      cases s2 with
      | expression =>
        simp only [List.cons_append, List.cons.injEq, true_and] at h
        obtain ⟨rfl, rfl, rfl, rfl, rfl, hz⟩ := expr_inj (h1.readable _ (by rw [Node.subnodes]; exact List.mem_cons_self) _ _ _ _ _ rfl)
          (h2.readable _ (by rw [Node.subnodes]; exact List.mem_cons_self) _ _ _ _ _ rfl) h
        exact fin rfl rfl hz
      | many hm => exfalso; cases k' <;> simp [Kind.nodeType, Kind.many] at et hm
      | _ => simp [Kind.nodeType] at et
    | within =>
      cases s2 with
      | within =>
        simp only [List.cons_append, List.cons.injEq, true_and, List.append_assoc] at h
        obtain ⟨rfl, hz⟩ := scope_inj h
        exact fin rfl rfl hz
      | many hm => exfalso; cases k' <;> simp [Kind.nodeType, Kind.many] at et hm
      | _ => simp [Kind.nodeType] at et
    | group =>
      rename_i c
      cases s2 with
      | group =>
        rename_i d
        simp only [List.cons_append, List.cons.injEq, true_and, List.append_assoc] at h
        obtain ⟨rfl, hz⟩ := ih c (by simp) (hc1 c (by simp)) d (hc2 d (by simp)) _ _ (cont_paren _) (cont_paren _) h
        exact fin rfl rfl (by simpa using hz)
      | many hm => exfalso; cases k' <;> simp [Kind.nodeType, Kind.many] at et hm
      | _ => simp [Kind.nodeType] at et
    | not =>
      rename_i c
      cases s2 with
      | not =>
        rename_i d
        simp only [List.cons_append, List.cons.injEq, true_and, List.append_assoc] at h
        obtain ⟨rfl, hz⟩ := ih c (by simp) (hc1 c (by simp)) d (hc2 d (by simp)) _ _ (cont_paren _) (cont_paren _) h
        exact fin rfl rfl (by simpa using hz)
      | many hm => exfalso; cases k' <;> simp [Kind.nodeType, Kind.many] at et hm
      | _ => simp [Kind.nodeType] at et
    | segment hk =>
      rename_i mn mx c
      have step : ∀ {mn' mx' : Int} {d : Node}, StrOk d →
          (32 :: (occursStr py!"@min=" mn ++ (occursStr py!"@max=" mx ++ (c.str ++ py!")")))) ++ (locSuffix l ++ x) =
          (32 :: (occursStr py!"@min=" mn' ++ (occursStr py!"@max=" mx' ++ (d.str ++ py!")")))) ++ (locSuffix l' ++ y) →
          mn = mn' ∧ mx = mx' ∧ c = d ∧ locSuffix l ++ x = locSuffix l' ++ y := by
        intro mn' mx' d hd h
        simp only [List.cons_append, List.cons.injEq, true_and, List.append_assoc] at h
        obtain ⟨rfl, ha⟩ := occurs_inj no_min no_min h
        obtain ⟨rfl, hb⟩ := occurs_inj no_max no_max ha
        obtain ⟨rfl, hz⟩ := ih c (by simp) (hc1 c (by simp)) d hd _ _ (cont_paren _) (cont_paren _) hb
        exact ⟨rfl, rfl, rfl, by simpa using hz⟩
      cases s2 with
      | segment hk' =>
        obtain ⟨rfl, rfl, rfl, hz⟩ := step (hc2 _ (by simp)) h
        exact fin rfl rfl hz
      | qgroup hk' =>
        exfalso
        obtain ⟨rfl, rfl, rfl, h⟩ := step (hc2 _ (by simp)) h
        rcases hk' with e | e <;> rw [e] at hk <;> simp [Kind.isExpr] at hk
      | many hm => exfalso; cases k' <;> simp [Kind.nodeType, Kind.many] at et hm
      | _ => simp [Kind.nodeType] at et
    | qgroup hk =>
      rename_i mn mx c
      have step : ∀ {mn' mx' : Int} {d : Node}, StrOk d →
          (32 :: (occursStr py!"@min=" mn ++ (occursStr py!"@max=" mx ++ (c.str ++ py!")")))) ++ (locSuffix l ++ x) =
          (32 :: (occursStr py!"@min=" mn' ++ (occursStr py!"@max=" mx' ++ (d.str ++ py!")")))) ++ (locSuffix l' ++ y) →
          mn = mn' ∧ mx = mx' ∧ c = d ∧ locSuffix l ++ x = locSuffix l' ++ y := by
        intro mn' mx' d hd h
        simp only [List.cons_append, List.cons.injEq, true_and, List.append_assoc] at h
        obtain ⟨rfl, ha⟩ := occurs_inj no_min no_min h
        obtain ⟨rfl, hb⟩ := occurs_inj no_max no_max ha
        obtain ⟨rfl, hz⟩ := ih c (by simp) (hc1 c (by simp)) d hd _ _ (cont_paren _) (cont_paren _) hb
        exact ⟨rfl, rfl, rfl, by simpa using hz⟩
      cases s2 with
      | qgroup hk' =>
        obtain ⟨rfl, rfl, rfl, hz⟩ := step (hc2 _ (by simp)) h
        exact fin rfl rfl hz
      | segment hk' =>
        exfalso
        obtain ⟨rfl, rfl, rfl, h⟩ := step (hc2 _ (by simp)) h
        rcases hk with e | e <;> rw [e] at hk' <;> simp [Kind.isExpr] at hk'
      | many hm => exfalso; cases k' <;> simp [Kind.nodeType, Kind.many] at et hm
      | _ => simp [Kind.nodeType] at et
    | many hm =>
      cases s2 with
      | many hm' =>
        have hk : k = k' := by
          cases k <;> cases k' <;> simp [Kind.nodeType, Kind.many] at et hm hm' ⊢
        simp only [List.append_assoc] at h
        obtain ⟨e1, h⟩ := readBack_list cs ds ih hc1 hc2 _ _ h
        exact fin hk e1 h
      | _ => exfalso; cases k <;> simp [Kind.nodeType, Kind.many] at et hm
  · simp
  · intro c cs ih1 ih2 d hd
    rcases List.mem_cons.1 hd with rfl | hd
    · exact ih1
    · exact ih2 d hd

theorem str_inj {n m : Node} (h1 : StrOk n) (h2 : StrOk m) (h : n.str = m.str) : n = m :=
  (readBack n h1 m h2 [] [] (by intro c hc; simp at hc) (by intro c hc; simp at hc) (by rw [h])).1

end Fcsql
