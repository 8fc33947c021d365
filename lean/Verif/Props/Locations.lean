/-
C25, C26: source locations.
-/
import Verif.Proofs.Covers
import Verif.Proofs.Tiling
import Verif.Props.Examples

set_option autoImplicit false
set_option linter.unusedSimpArgs false

namespace Fcsql

attribute [local irreducible] parseQuery

/-! ### C25 -/

section
variable (rt : PyRuntime) (cfg : Config)

theorem span_eq {u : List Tok} (he : cfg.enableSourceLocations = true) {a b : Tok} (ha : u.head? = some a)
    (hb : u.getLast? = some b) : cfg.span u = some ⟨a.start, b.stop + 1⟩ := by
  rw [Config.span, if_pos he, ha, hb]

theorem ends_of_ne {u : List Tok} (h : u ≠ []) : ∃ a b, u.head? = some a ∧ u.getLast? = some b := by
  cases u with
  | nil => exact absurd rfl h
  | cons a u => exact ⟨a, (a :: u).getLast h, rfl, List.getLast?_eq_some_getLast h⟩

/-- First and last token of a stretch of ordered tokens bound all of them. -/
theorem ends_bound {u : List Tok} (hp : u.Pairwise fun a b => a.stop < b.start) (hs : ∀ t ∈ u, t.start ≤ t.stop)
    {a b : Tok} (ha : u.head? = some a) (hb : u.getLast? = some b) :
    ∀ t ∈ u, a.start ≤ t.start ∧ t.stop ≤ b.stop := by
  intro t ht
  constructor
  · cases u with
    | nil => cases ht
    | cons x u =>
      simp at ha; subst ha
      rcases List.mem_cons.1 ht with rfl | h
      · exact Int.le_refl _
      · have := List.rel_of_pairwise_cons hp h
        have := hs x (by simp); omega
  · obtain ⟨w, rfl⟩ := List.getLast?_eq_some_iff.1 hb
    rcases List.mem_append.1 ht with h | h
    · have := (List.pairwise_append.1 hp).2.2 t h b (by simp)
      have := hs b (by simp); omega
    · simp at h; subst h; exact Int.le_refl _

/-- Children lie on disjoint parts, in order. -/
theorem coversL_children (he : cfg.enableSourceLocations = true) : ∀ (cs : List Node) (u : List Tok),
    CoversL rt cfg cs u → (u.Pairwise fun a b => a.stop < b.start) → (∀ t ∈ u, t.start ≤ t.stop) →
    (∀ c ∈ cs, ∃ a ∈ u, ∃ b ∈ u, c.loc = some ⟨a.start, b.stop + 1⟩) ∧
    cs.Pairwise fun c d => ∃ lc ld, c.loc = some lc ∧ d.loc = some ld ∧ lc.stop ≤ ld.start := by
  intro cs
  induction cs with
  | nil => simp
  | cons c cs ih =>
    intro u h hp hs
    obtain ⟨gap, v, w, rfl, h1, h2⟩ := h
    have hpw : w.Pairwise fun a b => a.stop < b.start := by
      rw [List.pairwise_append, List.pairwise_append] at hp; exact hp.2.1.2.1
    obtain ⟨i1, i2⟩ := ih w h2 hpw (fun t ht => hs t (by simp [ht]))
    obtain ⟨k, ccs, l⟩ := c
    obtain ⟨hv, hl, -, -⟩ := h1
    obtain ⟨a, b, ha, hb⟩ := ends_of_ne hv
    rw [span_eq cfg he ha hb] at hl
    have ham : a ∈ v := List.mem_of_mem_head? ha
    have hbm : b ∈ v := List.mem_of_getLast? hb
    have hvw : ∀ x ∈ v, ∀ y ∈ w, x.stop < y.start := by
      rw [List.pairwise_append, List.pairwise_append] at hp; exact hp.2.1.2.2
    refine ⟨?_, List.pairwise_cons.2 ⟨?_, i2⟩⟩
    · intro d hd
      rcases List.mem_cons.1 hd with rfl | hd
      · exact ⟨a, by simp [ham], b, by simp [hbm], hl⟩
      · obtain ⟨x, hx, y, hy, e⟩ := i1 d hd
        exact ⟨x, by simp [hx], y, by simp [hy], e⟩
    · intro d hd
      obtain ⟨x, hx, y, hy, e⟩ := i1 d hd
      exact ⟨_, _, hl, e, by have := hvw b hbm x hx; simp only; omega⟩

end

theorem Node.mem_children_subnodes {n c : Node} (h : c ∈ n.children) : c ∈ n.subnodes := by
  obtain ⟨k, cs, l⟩ := n
  simp only [Node.children] at h
  rw [Node.subnodes]
  refine List.mem_cons_of_mem _ ?_
  induction cs with
  | nil => cases h
  | cons d cs ih =>
    rw [Node.subnodesL, List.mem_append]
    rcases List.mem_cons.1 h with rfl | h
    · obtain ⟨k', cs', l'⟩ := c
      exact .inl (by rw [Node.subnodes]; simp)
    · exact .inr (ih h)

/-- **C25.** Every location is a non-empty range of the query; the ranges of the children lie inside the range
of their parent, are disjoint and ordered. -/
theorem C25_locations (rt : Runtime) (cfg : Config) (q : PyStr) (n : Node) (h : (parseQuery rt cfg q).1 = .ok n)
    (he : cfg.enableSourceLocations = true) (m : Node) (hm : m ∈ n.subnodes) :
    ∃ l, m.loc = some l ∧ (0 ≤ l.start ∧ l.start < l.stop ∧ l.stop ≤ q.length) ∧
      (∀ c ∈ m.children, ∃ lc, c.loc = some lc ∧ l.start ≤ lc.start ∧ lc.stop ≤ l.stop) ∧
      m.children.Pairwise fun c d => ∃ lc ld, c.loc = some lc ∧ d.loc = some ld ∧ lc.stop ≤ ld.start := by
  obtain ⟨u, hi, h1⟩ := Covers.all rt.toPyRuntime cfg (parse_covers rt cfg q n h) m hm
  have hp : u.Pairwise fun a b => a.stop < b.start := (tokens_pairwise q).sublist hi.sublist
  have hs : ∀ t ∈ u, t.start ≤ t.stop := fun t ht => (token_bounds (hi.subset ht)).2.1
  obtain ⟨k, cs, l⟩ := m
  obtain ⟨hne, hl, -, hc⟩ := h1
  obtain ⟨a, b, ha, hb⟩ := ends_of_ne hne
  rw [span_eq cfg he ha hb] at hl
  have hbnd := ends_bound hp hs ha hb
  have ham : a ∈ u := List.mem_of_mem_head? ha
  have hbm : b ∈ u := List.mem_of_getLast? hb
  obtain ⟨c1, c2⟩ := coversL_children rt.toPyRuntime cfg he cs u hc hp hs
  refine ⟨_, hl, ⟨(token_bounds (hi.subset ham)).1, ?_, ?_⟩, ?_, c2⟩
  · have := hbnd a ham; have := hs a ham; simp only; omega
  · have := (token_bounds (hi.subset hbm)).2.2.1; simp only; omega
  · intro c hcm
    obtain ⟨x, hx, y, hy, e⟩ := c1 c hcm
    exact ⟨_, e, (hbnd x hx).1, by have := (hbnd y hy).2; simp only; omega⟩

/-! ### C26 -/

/-- The tokens of `q` that lie inside a range. -/
def tokensIn (q : PyStr) (l : Loc) : List Tok := (lexTokens q).filter fun t => l.start ≤ t.start && t.stop < l.stop

/-- Cutting out pieces by tokens. -/
theorem pieces_of_tokens {ps : List Piece} {x v y : List Tok} (hv : v ≠ [])
    (h : ps.filterMap Piece.tok? = x ++ v ++ y) :
    ∃ a b c p r, ps = a ++ b ++ c ∧ b.filterMap Piece.tok? = v ∧ b.head? = some p ∧ b.getLast? = some r ∧
      p.tok? = v.head? ∧ r.tok? = v.getLast? := by
  obtain ⟨l1, c', rfl, h1, -⟩ := List.filterMap_eq_append_iff.1 h
  obtain ⟨a', b', rfl, -, h2⟩ := List.filterMap_eq_append_iff.1 h1
  obtain ⟨t, v', rfl⟩ := List.exists_cons_of_ne_nil hv
  obtain ⟨g1, p, b1, rfl, hg1, hp, hb1⟩ := List.filterMap_eq_cons_iff.1 h2
  have h3 : (p :: b1).filterMap Piece.tok? = t :: v' := by simp [List.filterMap_cons, hp, hb1]
  obtain ⟨s, w, hsw⟩ := List.exists_cons_of_ne_nil (l := (t :: v').reverse) (by simp)
  have h4 : (p :: b1).reverse.filterMap Piece.tok? = s :: w := by rw [List.filterMap_reverse, h3, hsw]
  obtain ⟨g2, r, b2, h5, hg2, hr, hb2⟩ := List.filterMap_eq_cons_iff.1 h4
  have h6 : p :: b1 = (b2.reverse ++ [r]) ++ g2.reverse := by
    rw [← List.reverse_reverse (p :: b1), h5]; simp
  refine ⟨a' ++ g1, b2.reverse ++ [r], g2.reverse ++ c', p, r, ?_, ?_, ?_, by simp, ?_, ?_⟩
  · simp only [List.append_assoc] at h6 ⊢
    rw [h6]; simp
  · rw [h6, List.filterMap_append] at h3
    have : g2.reverse.filterMap Piece.tok? = [] := by
      rw [List.filterMap_eq_nil_iff]; intro z hz; exact hg2 z (by simpa using hz)
    rw [this, List.append_nil] at h3
    exact h3
  · have := congrArg List.head? h6
    rw [List.head?_append] at this
    cases hh : (b2.reverse ++ [r]).head? with
    | none => simp at hh
    | some z => rw [hh] at this; simpa using this.symm
  · rw [hp]; rfl
  · rw [hr, ← List.head?_reverse, hsw]; rfl

theorem filter_infix {x v y : List Tok} (hp : (x ++ v ++ y).Pairwise fun a b => a.stop < b.start)
    (hs : ∀ t ∈ x ++ v ++ y, t.start ≤ t.stop) {a b : Tok} (ha : v.head? = some a) (hb : v.getLast? = some b) :
    (x ++ v ++ y).filter (fun t => a.start ≤ t.start && t.stop < b.stop + 1) = v := by
  have hv : v.Pairwise fun a b => a.stop < b.start := by
    rw [List.pairwise_append, List.pairwise_append] at hp; exact hp.1.2.1
  have hbnd := ends_bound hv (fun t ht => hs t (by simp [ht])) ha hb
  have ham : a ∈ v := List.mem_of_mem_head? ha
  have hbm : b ∈ v := List.mem_of_getLast? hb
  have hxv : ∀ t ∈ x, ∀ z ∈ v, t.stop < z.start := by
    rw [List.pairwise_append, List.pairwise_append] at hp; exact hp.1.2.2
  have hvy : ∀ z ∈ v, ∀ t ∈ y, z.stop < t.start := by
    rw [List.pairwise_append] at hp; intro z hz t ht; exact hp.2.2 z (by simp [hz]) t ht
  rw [List.filter_append, List.filter_append]
  have e1 : x.filter (fun t => a.start ≤ t.start && t.stop < b.stop + 1) = [] := by
    rw [List.filter_eq_nil_iff]; intro t ht
    have := hxv t ht a ham; have := hs t (by simp [ht]); simp; omega
  have e2 : y.filter (fun t => a.start ≤ t.start && t.stop < b.stop + 1) = [] := by
    rw [List.filter_eq_nil_iff]; intro t ht
    have := hvy b hbm t ht; have := hs t (by simp [ht]); simp; omega
  have e3 : v.filter (fun t => a.start ≤ t.start && t.stop < b.stop + 1) = v := by
    rw [List.filter_eq_self]; intro t ht
    have := hbnd t ht; simp; omega
  rw [e1, e2, e3]; simp

/-- The text between the first and the last token of a stretch of tokens of a query. -/
theorem fragment_lexes {q : PyStr} {x v y : List Tok} (hq : lexErrors q = []) (h : lexTokens q = x ++ v ++ y) {a b : Tok}
    (ha : v.head? = some a) (hb : v.getLast? = some b) :
    lexErrors (substring q a.start (b.stop + 1)) = [] ∧
    (lexTokens (substring q a.start (b.stop + 1))).map Tok.what = v.map Tok.what ∧
    a.text <+: substring q a.start (b.stop + 1) ∧ b.text <:+ substring q a.start (b.stop + 1) := by
  have hv : v ≠ [] := by rintro rfl; simp at ha
  obtain ⟨pa, pb, pc, p, r, e, h1, h2, h3, h4, h5⟩ := pieces_of_tokens hv h
  rw [ha] at h4
  rw [hb] at h5
  obtain ⟨-, k1, k2, -⟩ := piece_tok h4
  obtain ⟨-, k3, k4, k5⟩ := piece_tok h5
  have hs := lexPieces_splits q
  rw [e] at hs
  have ht := hs.text
  have hps : p.start = (piecesText pa).length := by
    cases pb with
    | nil => simp at h2
    | cons z pb =>
      simp at h2; subst h2
      have := (hs.start pa z (pb ++ pc) (by simp)).1; omega
  obtain ⟨pb', hb'⟩ := List.getLast?_eq_some_iff.1 h3
  have hrs : r.start = (piecesText pa).length + (piecesText pb').length := by
    have := (hs.start (pa ++ pb') r pc (by rw [hb']; simp)).1
    simp only [piecesText, List.flatMap_append, List.length_append] at this ⊢; omega
  have hrl : 0 < r.text.length := List.length_pos_iff.2 (hs.nonempty r (by rw [hb']; simp))
  have hbl : (piecesText pb).length = (piecesText pb').length + r.text.length := by
    rw [hb']; simp [piecesText]
  have hql : q.length = (piecesText pa).length + (piecesText pb).length + (piecesText pc).length := by
    rw [← ht]; simp [piecesText]; omega
  have hsl : substring q a.start (b.stop + 1) = piecesText pb := by
    have e1 : a.start = ((piecesText pa).length : Nat) := by rw [k2, hps]
    have e2 : b.stop + 1 = ((piecesText pa).length + (piecesText pb).length : Nat) := by rw [k5]; omega
    rw [e1, e2, slice_nat (by omega) (by omega), ← ht]
    simp [piecesText, List.take_append, List.drop_append]
  have hkind : ∀ z ∈ pb, z.kind ≠ .err := by
    intro z hz he
    have : z ∈ lexErrors q := by simp [lexErrors, e, hz, he]
    rw [hq] at this; cases this
  have hl := lex_infix e hkind
  rw [hsl]
  refine ⟨?_, ?_, ?_, ?_⟩
  · rw [lexErrors, List.filter_eq_nil_iff]
    intro z hz
    have : z.what ∈ pb.map Piece.what := by rw [← hl]; exact List.mem_map_of_mem hz
    obtain ⟨z', hz', e'⟩ := List.mem_map.1 this
    have : z.kind = z'.kind := (congrArg Prod.fst e').symm
    rw [this]; simpa using hkind z' hz'
  · rw [← h1, lexTokens]; exact toks_what hl
  · cases pb with
    | nil => simp at h2
    | cons z pb =>
      simp at h2; subst h2
      rw [← k1]; exact ⟨piecesText pb, by simp [piecesText]⟩
  · rw [hb', ← k3]; exact ⟨piecesText pb', by simp [piecesText]⟩

/-- **C26.** The range of a node starts at the start of its first token and ends at the end of its last token;
no token is cut in two by it; and the text of the range alone has exactly the tokens inside the range. -/
theorem C26_fragment (rt : Runtime) (cfg : Config) (q : PyStr) (n : Node) (h : (parseQuery rt cfg q).1 = .ok n)
    (m : Node) (hm : m ∈ n.subnodes) (l : Loc) (hl : m.loc = some l) :
    (∃ a b, (tokensIn q l).head? = some a ∧ (tokensIn q l).getLast? = some b ∧ a.start = l.start ∧ b.stop + 1 = l.stop ∧
      a.text <+: substring q l.start l.stop ∧ b.text <:+ substring q l.start l.stop) ∧
    (∀ t ∈ lexTokens q, t ∈ tokensIn q l ∨ t.stop < l.start ∨ l.stop ≤ t.start) ∧
    lexErrors (substring q l.start l.stop) = [] ∧
    (lexTokens (substring q l.start l.stop)).map Tok.what = (tokensIn q l).map Tok.what := by
  have hq := ((parse_ok rt cfg q n).1 h).1
  obtain ⟨u, hi, h1⟩ := Covers.all rt.toPyRuntime cfg (parse_covers rt cfg q n h) m hm
  have hp := tokens_pairwise q
  have hs : ∀ t ∈ lexTokens q, t.start ≤ t.stop := fun t ht => (token_bounds ht).2.1
  have hu : u.Pairwise fun a b => a.stop < b.start := hp.sublist hi.sublist
  obtain ⟨k, cs, l'⟩ := m
  obtain ⟨hne, hl', -, -⟩ := h1
  simp only [Node.loc] at hl
  subst hl
  obtain ⟨a, b, ha, hb⟩ := ends_of_ne hne
  have he : cfg.enableSourceLocations = true := by
    cases hc : cfg.enableSourceLocations with
    | true => rfl
    | false => rw [Config.span, hc] at hl'; simp at hl'
  rw [span_eq cfg he ha hb] at hl'
  simp only [Option.some.injEq] at hl'
  subst hl'
  obtain ⟨x, y, hxy⟩ := hi
  have hin : tokensIn q ⟨a.start, b.stop + 1⟩ = u := by
    rw [tokensIn, ← hxy]
    exact filter_infix (by rw [hxy]; exact hp) (by rw [hxy]; exact hs) ha hb
  obtain ⟨f1, f2, f3, f4⟩ := fragment_lexes hq hxy.symm ha hb
  rw [hin]
  refine ⟨⟨a, b, ha, hb, rfl, rfl, f3, f4⟩, ?_, f1, f2⟩
  intro t ht
  rw [← hxy, List.append_assoc] at ht
  rw [← hxy, List.append_assoc, List.pairwise_append] at hp
  rcases List.mem_append.1 ht with ht | ht
  · exact .inr (.inl (hp.2.2 t ht a (by simp [List.mem_of_mem_head? ha])))
  · rcases List.mem_append.1 ht with ht | ht
    · exact .inl ht
    · have := (List.pairwise_append.1 hp.2.1).2.2 b (List.mem_of_getLast? hb) t ht
      exact .inr (.inr (by simp only; omega))

-- the second segment of `'a' [ word = "b" ]? ` is `[ word = "b" ]?`
example : (parseQuery rt0 locConfig py!"'a' [ word = \"b\" ]? ").1 = .ok (.mk .sequence
      [.mk (.segment 1 1) [.mk (.expression none py!"text" .EQUALS py!"a" none) [] (some ⟨0, 3⟩)] (some ⟨0, 3⟩),
       .mk (.segment 0 1) [.mk (.expression none py!"word" .EQUALS py!"b" none) [] (some ⟨6, 16⟩)] (some ⟨4, 19⟩)]
      (some ⟨0, 19⟩)) ∧
    substring py!"'a' [ word = \"b\" ]? " 4 19 = py!"[ word = \"b\" ]?" := by decide +kernel

end Fcsql
