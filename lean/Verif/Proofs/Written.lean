/-
The attributes of nodes, from the token texts.
-/
import Verif.Proofs.Covers
import Verif.Spec.Written

set_option autoImplicit false
set_option linter.unusedSimpArgs false

namespace Fcsql

section
variable {rt : PyRuntime} {cfg : Config}

theorem isInt_of {t : Tok} (h : t.Lexed) (hty : t.type = .INTEGER) {n : Int} (hn : IntText rt t.text n) :
    IsInt rt t.text n := ⟨(lexed_integer h hty).1, (lexed_integer h hty).2, hn⟩

theorem valueWritten {r : CRegexp} {v : PyStr} {fl : Option FlagSet} (hwf : r.WF)
    (hl : ∀ x ∈ r.toTree.leaves, x.Lexed) (h : r.Denotes rt cfg v fl) :
    ∃ raw, ValueWritten (r.toTree.leaves.map Tok.text) raw fl ∧ v = cfg.norm rt raw := by
  obtain ⟨pat, f⟩ := r
  obtain ⟨⟨raw, h1, h2⟩, h3⟩ := h
  refine ⟨raw, ?_, h2⟩
  rcases f with _ | ⟨s, f⟩
  · simp only at h3
    subst h3
    simp only [CRegexp.toTree, PTree.leaves, PTree.leavesL, List.append_nil, List.map_cons, List.map_nil]
    exact .plain h1
  · simp only at h3
    obtain ⟨fs, h4, h5, rfl⟩ := h3
    have hs := lexed_sym (hl s (by simp [CRegexp.toTree, PTree.leaves, PTree.leavesL])) (hwf.2 s f rfl).1 rfl
    have hf := lexed_flags (hl f (by simp [CRegexp.toTree, PTree.leaves, PTree.leavesL])) (hwf.2 s f rfl).2
    simp only [CRegexp.toTree, PTree.leaves, PTree.leavesL, List.append_nil, List.map_cons, List.map_nil,
      List.cons_append, List.nil_append, hs]
    exact .flags h1 hf.1 hf.2 h4 h5

theorem nameWritten {t : Tok} (h : t.Lexed) (ht : isNameTok t) : IsName t.text := lexed_name h ht

theorem opWritten {t : Tok} (h : t.Lexed) {o : Operator} (ho : opSpec t o) :
    (t.text, o) ∈ [(py!"=", Operator.EQUALS), (py!"!=", .NOT_EQUALS)] := by
  rcases ho with ⟨h1, rfl⟩ | ⟨h1, rfl⟩
  · rw [lexed_sym h h1 rfl]; simp
  · rw [lexed_sym h h1 rfl]; simp

theorem last_text {w : List Tok} {P : PyStr → Prop} (h : ∀ t, w.getLast? = some t → P t.text) :
    ∀ x, (w.map Tok.text).getLast? = some x → P x := by
  intro x hx
  rw [List.getLast?_map] at hx
  cases hw : w.getLast? with
  | none => simp [hw] at hx
  | some t =>
    simp only [hw, Option.map_some, Option.some.injEq] at hx
    exact hx ▸ h t hw

theorem quantified {oq : Option CQuant} {w : List Tok} {mn mx : Int} (hwf : optQuantWF oq)
    (hb : optBounds rt oq mn mx) (hl : ∀ x ∈ PTree.leavesL (optQuant oq), x.Lexed)
    (hlast : ∀ t, w.getLast? = some t → t.text ∉ [py!"*", py!"+", py!"?", py!"}"]) :
    Quantified rt ((w ++ PTree.leavesL (optQuant oq)).map Tok.text) mn mx := by
  cases oq with
  | none =>
    obtain ⟨rfl, rfl⟩ := hb
    refine .none ?_
    simp only [optQuant, PTree.leavesL, List.append_nil]
    exact last_text hlast
  | some q =>
    have hq := hwf q rfl
    rw [List.map_append]
    rcases q with t | ⟨lb, n, rb⟩ | ⟨lb, n, c, m, rb⟩
    · have ht := hl t (by simp [optQuant, CQuant.forest, PTree.leaves, PTree.leavesL])
      simp only [optQuant, CQuant.forest, PTree.leaves, PTree.leavesL, List.append_nil, List.map_cons, List.map_nil]
      rcases hb with ⟨h, rfl, rfl⟩ | ⟨h, rfl, rfl⟩ | ⟨h, rfl, rfl⟩
      · rw [lexed_sym ht h rfl]; exact .star
      · rw [lexed_sym ht h rfl]; exact .plus
      · rw [lexed_sym ht h rfl]; exact .opt
    · obtain ⟨h1, h2, h3⟩ := hq
      obtain ⟨hb, rfl⟩ := hb
      have hn := isInt_of (hl n (by simp [optQuant, CQuant.forest, PTree.leaves, PTree.leavesL])) h2 hb
      have hlb := lexed_sym (hl lb (by simp [optQuant, CQuant.forest, PTree.leaves, PTree.leavesL])) h1 rfl
      have hrb := lexed_sym (hl rb (by simp [optQuant, CQuant.forest, PTree.leaves, PTree.leavesL])) h3 rfl
      simp only [optQuant, CQuant.forest, PTree.leaves, PTree.leavesL, List.append_nil, List.map_cons, List.map_nil,
        List.cons_append, List.nil_append, hlb, hrb]
      exact .exactly hn
    · obtain ⟨h1, h2, h3, h4, h5, h6⟩ := hq
      have hlb := lexed_sym (hl lb (by simp [optQuant, CQuant.forest, PTree.leaves, PTree.leavesL])) h1 rfl
      have hrb := lexed_sym (hl rb (by simp [optQuant, CQuant.forest, PTree.leaves, PTree.leavesL, leavesL_append])) h3 rfl
      have hc := lexed_sym (hl c (by simp [optQuant, CQuant.forest, PTree.leaves, PTree.leavesL, leavesL_append])) h2 rfl
      cases n with
      | none =>
        cases m with
        | none => simp at h6
        | some m =>
          obtain ⟨rfl, hb⟩ := hb
          have hm := isInt_of (hl m (by simp [optQuant, CQuant.forest, optLeaf, PTree.leaves, PTree.leavesL, leavesL_append])) (h5 m rfl) hb
          simp only [optQuant, CQuant.forest, optLeaf, PTree.leaves, PTree.leavesL, List.append_nil, List.map_cons,
            List.map_nil, List.cons_append, List.nil_append, hlb, hrb, hc]
          exact .atMost hm
      | some n =>
        cases m with
        | none =>
          obtain ⟨hb, rfl⟩ := hb
          have hn := isInt_of (hl n (by simp [optQuant, CQuant.forest, optLeaf, PTree.leaves, PTree.leavesL, leavesL_append])) (h4 n rfl) hb
          simp only [optQuant, CQuant.forest, optLeaf, PTree.leaves, PTree.leavesL, List.append_nil, List.map_cons,
            List.map_nil, List.cons_append, List.nil_append, hlb, hrb, hc]
          exact .atLeast hn
        | some m =>
          obtain ⟨hb, hb', hle⟩ := hb
          have hn := isInt_of (hl n (by simp [optQuant, CQuant.forest, optLeaf, PTree.leaves, PTree.leavesL, leavesL_append])) (h4 n rfl) hb
          have hm := isInt_of (hl m (by simp [optQuant, CQuant.forest, optLeaf, PTree.leaves, PTree.leavesL, leavesL_append])) (h5 m rfl) hb'
          simp only [optQuant, CQuant.forest, optLeaf, PTree.leaves, PTree.leavesL, List.append_nil, List.map_cons,
            List.map_nil, List.cons_append, List.nil_append, hlb, hrb, hc]
          exact .between hn hm hle

/-- A literal does not look like the end of a quantifier. -/
theorem lit_not_quant {x : PyStr} {q : Nat} {ps : List LitPiece} (h : IsLit x q ps) :
    x ∉ [py!"*", py!"+", py!"?", py!"}"] := by
  have he := h.eq
  rw [litText] at he
  subst he
  rcases h.quote with rfl | rfl <;> simp

theorem flags_not_quant {x : PyStr} (h : ∀ c ∈ x, c ∈ py!"iIcCld") : x ∉ [py!"*", py!"+", py!"?", py!"}"] := by
  intro hx
  simp only [List.mem_cons, List.not_mem_nil, or_false] at hx
  rcases hx with rfl | rfl | rfl | rfl <;> simp at h

theorem written {u : List Tok} (hl : ∀ x ∈ u, x.Lexed) {k : Kind} (h : KindFrom rt cfg u k) :
    Written rt cfg (u.map Tok.text) k := by
  cases k with
  | expression q i o v fl =>
    obtain ⟨r, hwf, hd, h⟩ := h
    rcases h with ⟨rfl, rfl, rfl, rfl⟩ | ⟨⟨qual, ident⟩, op, ha, ho, rfl, rfl, rfl⟩
    · obtain ⟨raw, h1, rfl⟩ := valueWritten hwf hl hd
      exact .implicit h1
    · obtain ⟨raw, h1, rfl⟩ := valueWritten hwf (fun x hx => hl x (by simp [hx])) hd
      have ho' := opWritten (hl op (by simp)) ho
      have hi := nameWritten (hl ident (by cases qual <;> simp [CAttr.toTree, PTree.leaves, PTree.leavesL, leavesL_append])) ha.1
      rcases qual with _ | ⟨ql, c⟩
      · simp only [CAttr.toTree, PTree.leaves, PTree.leavesL, List.append_nil, List.nil_append, List.cons_append,
          List.map_cons]
        exact .plain hi ho' h1
      · have hq := nameWritten (hl ql (by simp [CAttr.toTree, PTree.leaves, PTree.leavesL, leavesL_append])) (ha.2 ql c rfl).1
        have hc := lexed_sym (hl c (by simp [CAttr.toTree, PTree.leaves, PTree.leavesL, leavesL_append])) (ha.2 ql c rfl).2 rfl
        simp only [CAttr.toTree, PTree.leaves, PTree.leavesL, List.append_nil, List.nil_append, List.cons_append,
          List.map_cons, hc]
        exact .qualified hq hi ho' h1
  | wildcard =>
    obtain ⟨lb, rb, rfl, h1, h2⟩ := h
    simp [Written, lexed_sym (hl lb (by simp)) h1 rfl, lexed_sym (hl rb (by simp)) h2 rfl]
  | group =>
    obtain ⟨lp, w, rp, rfl, h1, h2⟩ := h
    exact ⟨w.map Tok.text, by simp [lexed_sym (hl lp (by simp)) h1 rfl, lexed_sym (hl rp (by simp)) h2 rfl]⟩
  | not =>
    obtain ⟨b, w, rfl, h1⟩ := h
    exact ⟨w.map Tok.text, by simp [lexed_sym (hl b (by simp)) h1 rfl]⟩
  | and =>
    obtain ⟨t, ht, h1⟩ := h
    exact List.mem_map.2 ⟨t, ht, lexed_sym (hl t ht) h1 rfl⟩
  | or =>
    obtain ⟨t, ht, h1⟩ := h
    exact List.mem_map.2 ⟨t, ht, lexed_sym (hl t ht) h1 rfl⟩
  | disjunction =>
    obtain ⟨t, ht, h1⟩ := h
    exact List.mem_map.2 ⟨t, ht, lexed_sym (hl t ht) h1 rfl⟩
  | sequence => trivial
  | withWithin =>
    obtain ⟨w, k, s, rfl, h1, h2⟩ := h
    exact ⟨w.map Tok.text, s.text, by simp [lexed_sym (hl k (by simp)) h1 rfl]⟩
  | segment mn mx =>
    obtain ⟨oq, w, hwf, hb, rfl, hlast⟩ := h
    refine quantified hwf hb (fun x hx => hl x (by simp [hx])) fun t ht => ?_
    have htl := hl t (by simp [List.mem_of_getLast? ht])
    rcases hlast t ht with h | h | h
    · rw [lexed_sym htl h rfl]; simp
    · obtain ⟨q, ps, hi⟩ := lexed_regexp htl h
      exact lit_not_quant hi
    · exact flags_not_quant (lexed_flags htl h).2
  | qgroup mn mx =>
    obtain ⟨oq, w, hwf, hb, rfl, hlast, lp, w', rfl, hlp⟩ := h
    refine ⟨⟨(w' ++ PTree.leavesL (optQuant oq)).map Tok.text, by simp [lexed_sym (hl lp (by simp)) hlp rfl]⟩,
      quantified hwf hb (fun x hx => hl x (List.mem_append_right _ hx)) fun t ht => ?_⟩
    have htl := hl t (List.mem_append_left _ (List.mem_of_getLast? ht))
    rw [lexed_sym htl (hlast t ht) rfl]; simp
  | within sc =>
    obtain ⟨s, rfl, h1, h2⟩ := h
    exact ⟨s.text, rfl, h2⟩

end

/-- Every node of a returned tree has the attributes written in a stretch of the tokens, its location being
that stretch. -/
theorem parse_written (rt : Runtime) (cfg : Config) (q : PyStr) (n : Node) (h : (parseQuery rt cfg q).1 = .ok n) :
    ∀ m ∈ n.subnodes, ∃ u, u ≠ [] ∧ u <:+: lexTokens q ∧ m.loc = cfg.span u ∧
      Written rt.toPyRuntime cfg (u.map Tok.text) m.kind := by
  intro m hm
  obtain ⟨u, hu, hc⟩ := Covers.all rt.toPyRuntime cfg (parse_covers rt cfg q n h) m hm
  obtain ⟨k, cs, l⟩ := m
  exact ⟨u, hc.1, hu, hc.2.1, written (fun x hx => lexTokens_lexed q x (hu.subset hx)) hc.2.2.1⟩

end Fcsql
