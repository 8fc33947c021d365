/-
The trees the parser returns can be written, and are read back.
-/
import Verif.Proofs.Inj
import Verif.Proofs.PrintQuery

set_option autoImplicit false
set_option linter.unusedSimpArgs false

namespace Fcsql

attribute [local irreducible] parseQuery

/-- The tokens of the list have texts of their types. -/
def Texts (ts : List Tok) : Prop := ∀ t ∈ ts, TokenText t.type t.text

theorem Texts.sub {ts us : List Tok} (h : Texts ts) (hs : ∀ t ∈ us, t ∈ ts) : Texts us := fun t ht => h t (hs t ht)

theorem isInt_of_text {rt : PyRuntime} {t : Tok} {n : Int} (h1 : t.type = .INTEGER) (h2 : TokenText t.type t.text) (h3 : IntText rt t.text n) :
    IsInt rt t.text n := by
  rw [h1] at h2
  obtain ⟨h3, h4⟩ := h3
  cases h2 with
  | fixed h => simp [fixedTokens] at h
  | integer h5 h6 => exact ⟨h5, h6, h3, h4⟩

theorem writable_zero {rt : PyRuntime} {n : Int} (h : Writable rt n) : Writable rt 0 := by
  refine ⟨by omega, ?_⟩
  rcases h.2 with h1 | h1
  · exact .inl h1
  · right
    have : (intStr n).length ≠ 0 := by
      have := (isInt_text h).1
      intro h; exact this (List.length_eq_zero_iff.1 h)
    have e : (intStr 0).length = 1 := by decide
    omega

theorem bounds_good {rt : PyRuntime} {q : Option CQuant} (hw : optQuantWF q) (ht : Texts (quantLv q)) {mn mx : Int} (h : optBounds rt q mn mx) :
    GoodBounds rt mn mx := by
  cases q with
  | none =>
    obtain ⟨rfl, rfl⟩ := h
    left; simp
  | some q =>
    have wf := hw q rfl
    cases q with
    | sym t =>
      rcases h with ⟨-, rfl, rfl⟩ | ⟨-, rfl, rfl⟩ | ⟨-, rfl, rfl⟩ <;> (left; simp)
    | exactly lb n rb =>
      obtain ⟨h1, rfl⟩ := h
      rw [quantLv_exactly] at ht
      have := writable_of_isInt (isInt_of_text wf.2.1 (ht n (by simp)) h1)
      exact .inr (.inr ⟨this, this, by omega⟩)
    | range lb n c m rb =>
      obtain ⟨-, -, -, w1, w2, -⟩ := wf
      rw [quantLv_range] at ht
      cases n with
      | none => cases m with
        | none => exact h.elim
        | some m =>
          obtain ⟨rfl, h⟩ := h
          have := writable_of_isInt (isInt_of_text (w2 m rfl) (ht m (by simp)) h)
          exact .inr (.inr ⟨writable_zero this, this, this.1⟩)
      | some n =>
        cases m with
        | none =>
          obtain ⟨h, rfl⟩ := h
          exact .inr (.inl ⟨writable_of_isInt (isInt_of_text (w1 n rfl) (ht n (by simp)) h), rfl⟩)
        | some m =>
          obtain ⟨h, h', hle⟩ := h
          exact .inr (.inr ⟨writable_of_isInt (isInt_of_text (w1 n rfl) (ht n (by simp)) h), writable_of_isInt (isInt_of_text (w2 m rfl) (ht m (by simp)) h'), hle⟩)

theorem seqTail_denotes {rt : PyRuntime} {cfg : Config} {l : List CQ} {ns : List Node} (h : (seqTail l).Denotes rt cfg ns) :
    ns.length = l.length ∧ ∀ m ∈ ns, ∃ c ∈ l, c.Denotes rt cfg m := by
  induction l generalizing ns with
  | nil => have h : ns = [] := h; subst h; simp
  | cons c l ih =>
    obtain ⟨m, ms, h1, h2, rfl⟩ := h
    obtain ⟨g1, g2⟩ := ih h2
    refine ⟨by simp [g1], ?_⟩
    intro x hx
    rcases List.mem_cons.1 hx with rfl | hx
    · exact ⟨c, by simp, h1⟩
    · obtain ⟨c', k1, k2⟩ := g2 x hx
      exact ⟨c', by simp [k1], k2⟩

theorem disjTail_denotes {rt : PyRuntime} {cfg : Config} {l : List (Tok × CQ)} {ns : List Node} (h : (disjTail l).Denotes rt cfg ns) :
    ns.length = l.length ∧ ∀ m ∈ ns, ∃ p ∈ l, p.2.Denotes rt cfg m := by
  induction l generalizing ns with
  | nil => have h : ns = [] := h; subst h; simp
  | cons c l ih =>
    obtain ⟨o, c⟩ := c
    obtain ⟨m, ms, h1, h2, rfl⟩ := h
    obtain ⟨g1, g2⟩ := ih h2
    refine ⟨by simp [g1], ?_⟩
    intro x hx
    rcases List.mem_cons.1 hx with rfl | hx
    · exact ⟨(o, c), by simp, h1⟩
    · obtain ⟨c', k1, k2⟩ := g2 x hx
      exact ⟨c', by simp [k1], k2⟩

theorem seqTail_size {l : List CQ} {c : CQ} (h : c ∈ l) : sizeOf c < sizeOf (seqTail l) := by
  induction l with
  | nil => simp at h
  | cons d l ih =>
    simp only [seqTail, CQTail.cons.sizeOf_spec]
    rcases List.mem_cons.1 h with rfl | h
    · omega
    · have := ih h; omega

theorem disjTail_size {l : List (Tok × CQ)} {p : Tok × CQ} (h : p ∈ l) : sizeOf p.2 < sizeOf (disjTail l) := by
  induction l with
  | nil => simp at h
  | cons d l ih =>
    simp only [disjTail, CQTail.cons.sizeOf_spec]
    rcases List.mem_cons.1 h with rfl | h
    · omega
    · have := ih h; omega

/-- What is shown of the tree `n` of the construct `c`. -/
structure Image (rt : Runtime) (cfg : Config) (c : CQ) (n : Node) : Prop where
  item : c.isItem → GoodItem rt.toPyRuntime cfg (ReadsBack rt cfg) n
  seq : ∀ f l, c = .seq f (seqTail l) → ∃ ns, n = .mk .sequence ns none ∧ ns.length = l.length + 1 ∧
    (∀ m ∈ ns, GoodItem rt.toPyRuntime cfg (ReadsBack rt cfg) m) ∧ ∃ m ms, ns = m :: ms ∧ f.Denotes rt.toPyRuntime cfg m
  disj : c.rule = .query_disjunction → ∃ ns, n = .mk .disjunction ns none ∧ 2 ≤ ns.length ∧
    ∀ m ∈ ns, GoodOperand rt.toPyRuntime cfg (ReadsBack rt cfg) m

theorem reads_back {rt : Runtime} {cfg : Config} (hc : cfg.enableSourceLocations = false) (hn : NormOk rt.toPyRuntime cfg) {e : CExpr} {n : Node} (hw : e.WF)
    (ht : Texts e.lv) (hb : e.Best) (hd : e.Denotes rt.toPyRuntime cfg n) : ReadsBack rt cfg n := by
  refine ⟨exprOf_text hc hn hw ht hb hd, ?_⟩
  rintro ql i o v fl cs l rfl
  cases e with
  | basic a op r =>
    obtain ⟨o', v', fl', h1, h2, h3⟩ := hd
    simp only [Node.mk.injEq, Kind.expression.injEq] at h3
    obtain ⟨⟨-, -, -, rfl, rfl⟩, rfl, rfl⟩ := h3
    obtain ⟨g1, g2⟩ := regex_good hn hw.2.2 (ht.sub (by intro t h; rw [CExpr.lv_basic]; simp [h])) h2
    exact ⟨rfl, span_none hc _, g1, g2⟩
  | group lp e rp => obtain ⟨m, -, h⟩ := hd; simp at h
  | or f t => obtain ⟨m, ms, -, -, h⟩ := hd; simp at h
  | and f t => obtain ⟨m, ms, -, -, h⟩ := hd; simp at h
  | not b e => obtain ⟨m, -, h⟩ := hd; simp at h

theorem image {rt : Runtime} {cfg : Config} (hc : cfg.enableSourceLocations = false) (hn : NormOk rt.toPyRuntime cfg) :
    ∀ (N : Nat) (c : CQ), sizeOf c < N → ∀ n, c.WF → Texts c.lv → c.Best → c.Denotes rt.toPyRuntime cfg n → Image rt cfg c n := by
  intro N
  induction N with
  | zero => intro c h; omega
  | succ N ih =>
    intro c hN n hw ht hb hd
    have sp : ∀ ts, cfg.span ts = none := span_none hc
    have seqcase : ∀ f l, c = .seq f (seqTail l) → ∃ ns, n = .mk .sequence ns none ∧ ns.length = l.length + 1 ∧
        (∀ m ∈ ns, GoodItem rt.toPyRuntime cfg (ReadsBack rt cfg) m) ∧ ∃ m ms, ns = m :: ms ∧ f.Denotes rt.toPyRuntime cfg m := by
      rintro f l rfl
      obtain ⟨f', l', he, hwl⟩ := seq_cases hw rfl
      have : f' = f ∧ l' = l := by
        have h1 : (CQ.seq f (seqTail l)).items = (CQ.seq f' (seqTail l')).items := by rw [← he]
        rw [items_seq, items_seq] at h1
        simp at h1
        exact ⟨h1.1.symm, h1.2.symm⟩
      obtain ⟨rfl, rfl⟩ := this
      have hbl := hb.items
      obtain ⟨m, ms, d1, d2, rfl⟩ := hd
      obtain ⟨k1, k2⟩ := seqTail_denotes d2
      rw [lv_seq] at ht
      refine ⟨m :: ms, by rw [sp], by simp [k1], ?_, m, ms, rfl, d1⟩
      have key : ∀ x ∈ f' :: l', ∀ m, x.Denotes rt.toPyRuntime cfg m → GoodItem rt.toPyRuntime cfg (ReadsBack rt cfg) m := by
        intro x hx m hm
        have hs : sizeOf x < N := by
          simp only [CQ.seq.sizeOf_spec] at hN
          rcases List.mem_cons.1 hx with rfl | hx
          · omega
          · have := seqTail_size hx; omega
        exact (ih x hs m (hwl x hx).1 (ht.sub (fun t h => List.mem_flatMap.2 ⟨x, hx, h⟩)) (hbl x hx) hm).item (hwl x hx).2
      intro x hx
      rcases List.mem_cons.1 hx with rfl | hx
      · exact key f' (by simp) _ d1
      · obtain ⟨c, c1, c2⟩ := k2 x hx
        exact key c (by simp [c1]) _ c2
    refine ⟨?_, seqcase, ?_⟩
    · intro hi
      cases c with
      | implicit r q =>
        obtain ⟨v, fl, mn, mx, d1, d2, rfl⟩ := hd
        rw [lv_implicit] at ht
        obtain ⟨g1, g2⟩ := regex_good hn hw.1 (ht.sub (by intro t h; simp [h])) d1
        rw [sp, sp]
        exact .literal g1 g2 (bounds_good hw.2 (ht.sub (by intro t h; simp [h])) d2)
      | segment lb e rb q =>
        obtain ⟨m, mn, mx, d1, d2, rfl⟩ := hd
        rw [lv_segment] at ht
        have hbd := bounds_good hw.2.2.2 (ht.sub (by intro t h; simp [h])) d2
        rw [sp]
        cases e with
        | none =>
          have d1 : m = .mk .wildcard [] (cfg.span [lb, rb]) := d1
          rw [d1, sp]
          exact .any hbd
        | some e =>
          refine .bracket (reads_back hc hn (hw.2.1 e rfl) (ht.sub ?_) hb.expr d1) hbd
          intro t h
          rw [exprLv_some]
          simp [h]
      | group lp c rp q =>
        obtain ⟨m, mn, mx, d1, d2, rfl⟩ := hd
        rw [lv_group] at ht
        have hbd := bounds_good hw.2.2.2.2 (ht.sub (by intro t h; simp [h])) d2
        rw [sp]
        have hs : sizeOf c < N := by simp only [CQ.group.sizeOf_spec] at hN; omega
        have him := ih c hs m hw.2.1 (ht.sub (by intro t h; simp [h])) hb.content d1
        refine .group ?_ hbd
        rcases hw.2.2.1 with hr | hr
        · obtain ⟨ns, rfl, k1, k2⟩ := him.disj hr
          exact .disjunction k1 k2
        · obtain ⟨f, l, rfl, -⟩ := seq_cases hw.2.1 hr
          obtain ⟨ns, rfl, k1, k2, -⟩ := him.seq f l rfl
          exact .sequence (by rintro rfl; simp at k1) k2
      | seq f t => simp [CQ.isItem, CQ.rule] at hi
      | disj f t => simp [CQ.isItem, CQ.rule] at hi
    · intro hr
      obtain ⟨f, p, l, rfl, hf, hp⟩ : ∃ f p l, c = .disj f (disjTail (p :: l)) ∧ (f.WF ∧ f.Best ∧ f.CanonOp) ∧
          ∀ p' ∈ p :: l, p'.1.type = .OR ∧ p'.2.WF ∧ p'.2.Best ∧ p'.2.CanonOp := by
        obtain ⟨d, hd⟩ := hb
        rw [hr] at hd
        obtain ⟨f, p, l, h1, -, h2, h3⟩ := disj_of_chosen hd
        refine ⟨f, p, l, CQ.toTree_inj _ _ hw ?_ h1, h2, h3⟩
        exact disj_WF h2.1 (CanonOp.nd h2.2.2) fun p' hp' => ⟨(h3 p' hp').1, (h3 p' hp').2.1, CanonOp.nd (h3 p' hp').2.2.2⟩
      obtain ⟨m, ms, d1, d2, rfl⟩ := hd
      obtain ⟨k1, k2⟩ := disjTail_denotes d2
      rw [lv_disj] at ht
      refine ⟨m :: ms, by rw [sp], by simp [k1], ?_⟩
      have key : ∀ x : CQ, sizeOf x < N → x.WF → Texts x.lv → x.Best → x.CanonOp → ∀ m, x.Denotes rt.toPyRuntime cfg m →
          GoodOperand rt.toPyRuntime cfg (ReadsBack rt cfg) m := by
        intro x hs hx1 hx2 hx3 hx4 m hm
        have him := ih x hs m hx1 hx2 hx3 hm
        rcases hx4 with hr | ⟨hr, hg⟩
        · have hg := him.item (.inl hr)
          rcases CQ.denotes_kind hm with ⟨-, a, b, hk⟩ | ⟨h, -⟩ | ⟨h, -⟩ | ⟨h, -⟩
          · cases hg with
            | literal h1 h2 h3 => exact .segment (.literal h1 h2 h3)
            | any h => exact .segment (.any h)
            | bracket h1 h2 => exact .segment (.bracket h1 h2)
            | group h1 h2 => simp [Node.kind] at hk
          all_goals simp [hr] at h
        · obtain ⟨f, l, rfl, hwl⟩ := seq_cases hx1 hr
          obtain ⟨ns, rfl, j1, j2, m0, ms0, rfl, j3⟩ := him.seq f l rfl
          cases l with
          | cons y l => exact .sequence (by simp [j1]) j2
          | nil =>
            obtain rfl : ms0 = [] := by simpa using j1
            have hfr : f.rule = .query_group := by
              have := hg f rfl
              rcases (hwl f (by simp)).2 with h | h
              · exact absurd h this
              · exact h
            have hg := j2 m0 (by simp)
            rcases CQ.denotes_kind j3 with ⟨h, -⟩ | ⟨-, a, b, hk⟩ | ⟨h, -⟩ | ⟨h, -⟩
            · simp [hfr] at h
            · cases hg with
              | group h1 h2 => exact .group (.group h1 h2)
              | _ => simp [Node.kind] at hk
            all_goals simp [hfr] at h
      simp only [CQ.disj.sizeOf_spec] at hN
      intro x hx
      rcases List.mem_cons.1 hx with rfl | hx
      · exact key f (by omega) hf.1 (ht.sub (by intro t h; simp [h])) hf.2.1 hf.2.2 _ d1
      · obtain ⟨p', c1, c2⟩ := k2 x hx
        have := disjTail_size c1
        refine key p'.2 (by omega) (hp p' c1).2.1 (ht.sub ?_) (hp p' c1).2.2.1 (hp p' c1).2.2.2 _ c2
        intro t h
        refine List.mem_append.2 (.inr (List.mem_flatMap.2 ⟨p', c1, ?_⟩))
        simp [h]

theorem laid_texts {ts : List (TokType × PyStr)} {q : PyStr} (h : Laid ts q) : Texts (bare ts) := by
  induction h with
  | nil h => simp [Texts, bare]
  | cons h1 h2 h3 h4 ih =>
    intro t ht
    rcases List.mem_cons.1 ht with rfl | ht
    · exact h2
    · exact ih t ht

theorem main_image {rt : Runtime} {cfg : Config} (hc : cfg.enableSourceLocations = false) (hn : NormOk rt.toPyRuntime cfg)
    {ts : List (TokType × PyStr)} (hl : Texts (bare ts)) {n : Node} (h : MainOf rt cfg ts n) :
    GoodMain rt.toPyRuntime cfg (ReadsBack rt cfg) n := by
  obtain ⟨c, h1, h2, h3, h4, h5⟩ := h
  rw [← h2] at hl
  have him := image hc hn _ c (Nat.lt_succ_self _) n h1 hl h3 h5
  rcases isItem_cases c with hi | hr | hr
  · exact .item (him.item hi)
  · obtain ⟨f, l, rfl, -⟩ := seq_cases h1 hr
    obtain ⟨ns, rfl, k1, k2, -⟩ := him.seq f l rfl
    cases l with
    | nil => exact absurd rfl (h4 f)
    | cons x l => exact .sequence (by simp [k1]) k2
  · obtain ⟨ns, rfl, k1, k2⟩ := him.disj hr
    exact .disjunction k1 k2

/-- The tree of a query is well-formed. -/
theorem query_image {rt : Runtime} {cfg : Config} (hc : cfg.enableSourceLocations = false) (hn : NormOk rt.toPyRuntime cfg) {q : PyStr} {n : Node}
    (h : (parseQuery rt cfg q).1 = .ok n) : GoodQuery rt.toPyRuntime cfg (ReadsBack rt cfg) n := by
  have hl := laid_of_parse h
  have ht := laid_texts hl
  rcases (parse_laid rt hc hl n).1 h with h | ⟨ts', w, sc, m, e, hw, hm, rfl⟩
  · exact .main (main_image hc hn ht h)
  · refine .within (main_image hc hn (ht.sub ?_) hm)
    intro t h
    rw [e, bare_append]
    simp [h]

end Fcsql
