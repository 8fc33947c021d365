/-
C22: the effect of the parser's defaults, exactly.
-/
import Verif.Props.Settings
import Verif.Props.Tree
import Verif.Props.Locations

set_option autoImplicit false
set_option linter.unusedSimpArgs false

namespace Fcsql

attribute [local irreducible] parseQuery

/-- The location is that of a piece of text that starts with a quote, i.e. of a bare literal. -/
def Loc.quoteAt (q : PyStr) (l : Loc) : Bool :=
  match substring q l.start l.stop with
  | c :: _ => c = 34 || c = 39
  | [] => false

/-- The attributes after a change of the defaults. -/
def Kind.redefault (q : PyStr) (i' : PyStr) (o' : Operator) (l : Option Loc) : Kind → Kind
  | .expression ql i o v fl =>
    match l with
    | some l => if l.quoteAt q then .expression ql i' o' v fl else .expression ql i o v fl
    | none => .expression ql i o v fl
  | k => k

mutual
/-- The tree in which exactly the expressions of bare literals have another identifier and operator. -/
def Node.redefault (q : PyStr) (i' : PyStr) (o' : Operator) : Node → Node
  | .mk k cs l => .mk (k.redefault q i' o' l) (Node.redefaultL q i' o' cs) l
/-- Each tree of a list. -/
def Node.redefaultL (q : PyStr) (i' : PyStr) (o' : Operator) : List Node → List Node
  | [] => []
  | c :: cs => c.redefault q i' o' :: Node.redefaultL q i' o' cs
end

/-- What is known of an expression of a tree with locations: what is written in its range. -/
def WrittenIn (rt : PyRuntime) (cfg : Config) (q : PyStr) (m : Node) : Prop :=
  ∀ ql i o v fl, m.kind = .expression ql i o v fl → ∃ l a, m.loc = some l ∧ (tokensIn q l).head? = some a ∧
    a.text <+: substring q l.start l.stop ∧ ExpressionWritten rt cfg ((tokensIn q l).map Tok.text) ql i o v fl

theorem writtenIn_of_parse (rt : Runtime) (cfg : Config) (he : cfg.enableSourceLocations = true) (q : PyStr) (n : Node)
    (h : (parseQuery rt cfg q).1 = .ok n) (m : Node) (hm : m ∈ n.subnodes) : WrittenIn rt.toPyRuntime cfg q m := by
  intro ql i o v fl hk
  obtain ⟨u, hne, hi, hl, hw⟩ := C22_expression_as_written rt cfg q n h m hm ql i o v fl hk
  obtain ⟨a, b, ha, hb⟩ := ends_of_ne hne
  rw [span_eq cfg he ha hb] at hl
  obtain ⟨⟨a', b', ha', -, -, -, hp, -⟩, -, -, -⟩ := C26_fragment rt cfg q n h m hm _ hl
  have hin : tokensIn q ⟨a.start, b.stop + 1⟩ = u := by
    obtain ⟨x, y, hxy⟩ := hi
    rw [tokensIn, ← hxy]
    exact filter_infix (by rw [hxy]; exact tokens_pairwise q) (by rw [hxy]; exact fun t ht => (token_bounds ht).2.1) ha hb
  exact ⟨_, a', hl, ha', hp, by rw [hin]; exact hw⟩

theorem isLetter_not_quote {c : Nat} (h : isLetter c = true) : ¬ (c = 34 ∨ c = 39) := by
  rintro (rfl | rfl) <;> simp [isLetter] at h

theorem quoteAt_of_prefix {q w : PyStr} {l : Loc} {c : Nat} (h : c :: w <+: substring q l.start l.stop) :
    l.quoteAt q = true ↔ c = 34 ∨ c = 39 := by
  obtain ⟨y, hy⟩ := h
  simp only [Loc.quoteAt, ← hy]
  simp

theorem valueWritten_head {val : List PyStr} {v : PyStr} {fl : Option FlagSet} (h : ValueWritten val v fl) :
    ∃ c w vs, val = (c :: w) :: vs ∧ (c = 34 ∨ c = 39) := by
  have key : ∀ {lit v : PyStr}, LitValue lit v → ∃ c w, lit = c :: w ∧ (c = 34 ∨ c = 39) := by
    rintro lit v ⟨c, ps, ⟨hq, hwf, rfl⟩, -⟩
    exact ⟨c, _, rfl, hq⟩
  cases h with
  | plain h1 => obtain ⟨c, w, rfl, hc⟩ := key h1; exact ⟨c, w, _, rfl, hc⟩
  | flags h1 => obtain ⟨c, w, rfl, hc⟩ := key h1; exact ⟨c, w, _, rfl, hc⟩

theorem isName_head {s : PyStr} (h : IsName s) : ∃ c w, s = c :: w ∧ isLetter c = true := by
  rcases h with ⟨c, rfl, hc⟩ | ⟨a, m, z, rfl, ha, -, -⟩
  · exact ⟨c, [], rfl, hc⟩
  · exact ⟨a, _, rfl, ha⟩

/-- What the range of an expression says about it. -/
theorem expressionWritten_cases {rt : PyRuntime} {cfg : Config} {q : PyStr} {l : Loc} {a : Tok} {ql : Option PyStr} {i v : PyStr} {o : Operator}
    {fl : Option FlagSet} (ha : (tokensIn q l).head? = some a) (hp : a.text <+: substring q l.start l.stop)
    (hw : ExpressionWritten rt cfg ((tokensIn q l).map Tok.text) ql i o v fl) :
    (l.quoteAt q = true ∧ ql = none ∧ i = cfg.defaultIdentifier ∧ o = cfg.defaultOperator) ∨
    (l.quoteAt q = false ∧ ∀ cfg' ql' i' o' v' fl', ExpressionWritten rt cfg' ((tokensIn q l).map Tok.text) ql' i' o' v' fl' →
      ql' = ql ∧ i' = i ∧ o' = o) := by
  obtain ⟨rest, hrest⟩ : ∃ r, tokensIn q l = a :: r := by
    cases hx : tokensIn q l with
    | nil => rw [hx] at ha; cases ha
    | cons b r => rw [hx] at ha; simp only [List.head?_cons, Option.some.injEq] at ha; subst ha; exact ⟨r, rfl⟩
  rw [hrest, List.map_cons] at hw ⊢
  have hval : ∀ {s : PyStr} {rs : List PyStr} {v : PyStr} {fl : Option FlagSet}, IsName s → ¬ ValueWritten (s :: rs) v fl := by
    intro s rs v fl hn hv
    obtain ⟨c, w, hs, hl⟩ := isName_head hn
    obtain ⟨c', w', vs, h1, h2⟩ := valueWritten_head hv
    rw [hs] at h1
    simp only [List.cons.injEq] at h1
    obtain ⟨⟨rfl, -⟩, -⟩ := h1
    exact isLetter_not_quote hl h2
  have hname : IsName a.text → l.quoteAt q = false := by
    intro hn
    obtain ⟨c, w, hs, hl⟩ := isName_head hn
    rw [hs] at hp
    cases hb : l.quoteAt q with
    | false => rfl
    | true => exact absurd ((quoteAt_of_prefix hp).1 hb) (isLetter_not_quote hl)
  generalize ha' : a.text = t at hw hp hname
  generalize hr' : rest.map Tok.text = r at hw
  have hcolon : ∀ {op : PyStr} {o : Operator}, (op, o) ∈ [(py!"=", Operator.EQUALS), (py!"!=", .NOT_EQUALS)] → op ≠ py!":" := by
    intro op o h he
    subst he
    simp at h
  have hop : ∀ {op : PyStr} {o o' : Operator}, (op, o) ∈ [(py!"=", Operator.EQUALS), (py!"!=", .NOT_EQUALS)] →
      (op, o') ∈ [(py!"=", Operator.EQUALS), (py!"!=", .NOT_EQUALS)] → o' = o := by
    intro op o o' h h'
    simp only [List.mem_cons, Prod.mk.injEq, List.not_mem_nil, or_false] at h h'
    rcases h with ⟨rfl, rfl⟩ | ⟨rfl, rfl⟩ <;> rcases h' with ⟨h, rfl⟩ | ⟨h, rfl⟩ <;> first | rfl | simp at h
  generalize htr : t :: r = tr at hw
  cases hw with
  | implicit hv =>
    subst htr
    obtain ⟨c, w, vs, h1, h2⟩ := valueWritten_head hv
    simp only [List.cons.injEq] at h1
    rw [h1.1] at hp
    exact .inl ⟨(quoteAt_of_prefix hp).2 h2, rfl, rfl, rfl⟩
  | plain hn ho hv =>
    simp only [List.cons.injEq] at htr
    obtain ⟨rfl, rfl⟩ := htr
    refine .inr ⟨hname hn, ?_⟩
    intro cfg' ql' i' o' v' fl' hw'
    generalize htr : t :: _ :: _ = tr at hw'
    cases hw' with
    | implicit hv' => subst htr; exact absurd hv' (hval hn)
    | plain hn' ho' hv' =>
      simp only [List.cons.injEq] at htr
      obtain ⟨rfl, rfl, rfl⟩ := htr
      exact ⟨rfl, rfl, hop ho ho'⟩
    | qualified hn' hn'' ho' hv' =>
      simp only [List.cons.injEq] at htr
      exact absurd htr.2.1 (hcolon ho)
  | qualified hn hn2 ho hv =>
    simp only [List.cons.injEq] at htr
    obtain ⟨rfl, rfl⟩ := htr
    refine .inr ⟨hname hn, ?_⟩
    intro cfg' ql' i' o' v' fl' hw'
    generalize htr : t :: _ = tr at hw'
    cases hw' with
    | implicit hv' => subst htr; exact absurd hv' (hval hn)
    | plain hn' ho' hv' =>
      simp only [List.cons.injEq] at htr
      exact absurd htr.2.1.symm (hcolon ho')
    | qualified hn' hn'' ho' hv' =>
      simp only [List.cons.injEq] at htr
      obtain ⟨rfl, -, rfl, rfl, rfl⟩ := htr
      exact ⟨rfl, rfl, hop ho ho'⟩

theorem redefault_of_rel (rt : PyRuntime) (cfg : Config) (i' : PyStr) (o' : Operator) (q : PyStr) (n : Node) : ∀ n',
    NodeRel (DefaultsReplaced cfg.defaultIdentifier cfg.defaultOperator i' o') Eq n n' → (∀ m ∈ n.subnodes, WrittenIn rt cfg q m) →
    (∀ m ∈ n'.subnodes, WrittenIn rt { cfg with defaultIdentifier := i', defaultOperator := o' } q m) → n' = n.redefault q i' o' := by
  refine Node.rec (motive_1 := fun n => ∀ n', NodeRel (DefaultsReplaced cfg.defaultIdentifier cfg.defaultOperator i' o') Eq n n' →
      (∀ m ∈ n.subnodes, WrittenIn rt cfg q m) →
      (∀ m ∈ n'.subnodes, WrittenIn rt { cfg with defaultIdentifier := i', defaultOperator := o' } q m) → n' = n.redefault q i' o')
    (motive_2 := fun ns => ∀ ns', NodeRelL (DefaultsReplaced cfg.defaultIdentifier cfg.defaultOperator i' o') Eq ns ns' →
      (∀ m ∈ Node.subnodesL ns, WrittenIn rt cfg q m) →
      (∀ m ∈ Node.subnodesL ns', WrittenIn rt { cfg with defaultIdentifier := i', defaultOperator := o' } q m) → ns' = Node.redefaultL q i' o' ns)
    ?_ ?_ ?_ n
  · intro k cs l ih n' hr h1 h2
    rw [NodeRel] at hr
    obtain ⟨k', cs', l', rfl, hk, rfl, hc⟩ := hr
    rw [Node.redefault]
    rw [Node.subnodes] at h1 h2
    rw [ih cs' hc (fun m hm => h1 m (List.mem_cons_of_mem _ hm)) (fun m hm => h2 m (List.mem_cons_of_mem _ hm))]
    have w1 := h1 _ List.mem_cons_self
    have w2 := h2 _ List.mem_cons_self
    have hkk : k' = k.redefault q i' o' l := by
      cases hk with
      | replaced =>
        obtain ⟨l1, a, hl, ha, hp, hw⟩ := w1 _ _ _ _ _ rfl
        obtain ⟨l2, a2, hl2, -, -, hw2⟩ := w2 _ _ _ _ _ rfl
        simp only [Node.loc] at hl hl2
        rw [hl] at hl2
        cases hl2
        simp only [hl, Kind.redefault]
        rcases expressionWritten_cases ha hp hw with ⟨hb, -⟩ | ⟨hb, hu⟩
        · rw [if_pos hb]
        · obtain ⟨-, h3, h4⟩ := hu _ _ _ _ _ _ hw2
          rw [if_neg (by simp [hb]), h3, h4]
      | same =>
        cases k with
        | expression ql i o v fl =>
          obtain ⟨l2, a2, hl2, ha2, hp2, hw2⟩ := w2 _ _ _ _ _ rfl
          simp only [Node.loc] at hl2
          simp only [hl2, Kind.redefault]
          rcases expressionWritten_cases ha2 hp2 hw2 with ⟨hb, -, h3, h4⟩ | ⟨hb, -⟩
          · rw [if_pos hb, h3, h4]
          · rw [if_neg (by simp [hb])]
        | _ => rfl
    rw [hkk]
  · intro ns' hr _ _
    rw [NodeRelL] at hr
    rw [hr, Node.redefaultL]
  · intro c cs ih1 ih2 ns' hr h1 h2
    rw [NodeRelL] at hr
    obtain ⟨c', cs', rfl, hc, hcs⟩ := hr
    rw [Node.subnodesL] at h1 h2
    rw [Node.redefaultL, ih1 c' hc (fun m hm => h1 m (List.mem_append_left _ hm)) (fun m hm => h2 m (List.mem_append_left _ hm)),
      ih2 cs' hcs (fun m hm => h1 m (List.mem_append_right _ hm)) (fun m hm => h2 m (List.mem_append_right _ hm))]

/-- **C22.** With other defaults, the tree is the same except that exactly the `Expression`s of bare literals (those whose
text begins with a quote) have the other identifier and operator. -/
theorem C22_defaults_exact (rt : Runtime) (cfg : Config) (he : cfg.enableSourceLocations = true) (i' : PyStr) (o' : Operator) (q : PyStr)
    (n : Node) (h : (parseQuery rt cfg q).1 = .ok n) :
    (parseQuery rt { cfg with defaultIdentifier := i', defaultOperator := o' } q).1 = .ok (n.redefault q i' o') := by
  obtain ⟨n', h', hr⟩ := C22_defaults_only rt cfg i' o' q n h
  rw [h', redefault_of_rel rt.toPyRuntime cfg i' o' q n n' hr (fun m hm => writtenIn_of_parse rt cfg he q n h m hm)
    (fun m hm => writtenIn_of_parse rt { cfg with defaultIdentifier := i', defaultOperator := o' } he q n' h' m hm)]

-- the second one has the default identifier and operator as well, but not from the defaults
example : (parseQuery rt0 locConfig py!"'a' [text='b']").1 = .ok (.mk .sequence
      [.mk (.segment 1 1) [.mk (.expression none py!"text" .EQUALS py!"a" none) [] (some ⟨0, 3⟩)] (some ⟨0, 3⟩),
       .mk (.segment 1 1) [.mk (.expression none py!"text" .EQUALS py!"b" none) [] (some ⟨5, 13⟩)] (some ⟨4, 14⟩)] (some ⟨0, 14⟩)) ∧
    (Node.mk .sequence
      [.mk (.segment 1 1) [.mk (.expression none py!"text" .EQUALS py!"a" none) [] (some ⟨0, 3⟩)] (some ⟨0, 3⟩),
       .mk (.segment 1 1) [.mk (.expression none py!"text" .EQUALS py!"b" none) [] (some ⟨5, 13⟩)] (some ⟨4, 14⟩)] (some ⟨0, 14⟩)).redefault
        py!"'a' [text='b']" py!"lemma" .NOT_EQUALS = .mk .sequence
      [.mk (.segment 1 1) [.mk (.expression none py!"lemma" .NOT_EQUALS py!"a" none) [] (some ⟨0, 3⟩)] (some ⟨0, 3⟩),
       .mk (.segment 1 1) [.mk (.expression none py!"text" .EQUALS py!"b" none) [] (some ⟨5, 13⟩)] (some ⟨4, 14⟩)] (some ⟨0, 14⟩) := by
  decide +kernel

end Fcsql
