/-
A syntax tree denotes a query tree exactly if its tokens pass the local checks.
-/
import Verif.Proofs.Parse
import Verif.Spec.Accept

set_option autoImplicit false
set_option linter.unusedSimpArgs false

namespace Fcsql

/-- The last token is none of those that are followed by something checked together with them. -/
def EndsOk (l : List Tok) : Prop :=
  ∀ x, l.getLast? = some x → x.type ≠ .FWD_SLASH ∧ x.type ≠ .INTEGER ∧ x.type ≠ .Q_COMMA

theorem endsOk_append {a b : List Tok} (hb : b ≠ []) (h : EndsOk b) : EndsOk (a ++ b) := by
  intro x hx
  rw [List.getLast?_append] at hx
  cases hbl : b.getLast? with
  | none => simp at hbl; exact absurd hbl hb
  | some y =>
    rw [hbl] at hx
    simp only [Option.some_or, Option.some.injEq] at hx
    exact h x (by rw [hbl, hx])

theorem endsOk_append' {a b : List Tok} (ha : EndsOk a) (h : EndsOk b) : EndsOk (a ++ b) := by
  by_cases hb : b = []
  · subst hb; simpa using ha
  · exact endsOk_append hb h

theorem infix_pair_append {α : Type} {x y : α} {a b : List α} (h : [x, y] <:+: a ++ b) :
    [x, y] <:+: a ∨ [x, y] <:+: b ∨ a.getLast? = some x := by
  induction a with
  | nil => exact .inr (.inl (by simpa using h))
  | cons z zs ih =>
    rw [List.cons_append, List.infix_cons_iff] at h
    rcases h with h | h
    · obtain ⟨t, ht⟩ := h
      cases zs with
      | nil =>
        simp only [List.nil_append, List.cons_append] at ht
        injection ht with h1 h2
        subst h1
        exact .inr (.inr rfl)
      | cons w ws =>
        simp only [List.cons_append] at ht
        injection ht with h1 h2
        injection h2 with h2 h3
        subst h1; subst h2
        exact .inl ⟨[], ws, rfl⟩
    · rcases ih h with h | h | h
      · exact .inl (h.trans ⟨[z], [], by simp⟩)
      · exact .inr (.inl h)
      · right; right
        cases zs with
        | nil => simp at h
        | cons w ws => simpa using h

theorem infix_triple_append {α : Type} {x y w : α} {a b : List α} (h : [x, y, w] <:+: a ++ b) :
    [x, y, w] <:+: a ∨ [x, y, w] <:+: b ∨ a.getLast? = some x ∨ a.getLast? = some y := by
  induction a with
  | nil => exact .inr (.inl (by simpa using h))
  | cons z zs ih =>
    rw [List.cons_append, List.infix_cons_iff] at h
    rcases h with h | h
    · obtain ⟨t, ht⟩ := h
      match zs with
      | [] =>
        simp only [List.nil_append, List.cons_append] at ht
        injection ht with h1 h2
        subst h1
        exact .inr (.inr (.inl rfl))
      | [u] =>
        simp only [List.nil_append, List.cons_append] at ht
        injection ht with h1 h2
        injection h2 with h2 h3
        subst h1; subst h2
        exact .inr (.inr (.inr rfl))
      | u :: v :: ws =>
        simp only [List.cons_append] at ht
        injection ht with h1 h2
        injection h2 with h2 h3
        injection h3 with h3 h4
        subst h1; subst h2; subst h3
        exact .inl ⟨[], ws, rfl⟩
    · have hlast : ∀ x, zs.getLast? = some x → (z :: zs).getLast? = some x := by
        intro x h
        cases zs with
        | nil => simp at h
        | cons w ws => simpa using h
      rcases ih h with h | h | h | h
      · exact .inl (h.trans ⟨[z], [], by simp⟩)
      · exact .inr (.inl h)
      · exact .inr (.inr (.inl (hlast _ h)))
      · exact .inr (.inr (.inr (hlast _ h)))

theorem localChecks_nil (rt : PyRuntime) : LocalChecks rt [] := by
  constructor <;> simp

theorem localChecks_append {rt : PyRuntime} {a b : List Tok} (ha : EndsOk a) :
    LocalChecks rt (a ++ b) ↔ LocalChecks rt a ∧ LocalChecks rt b := by
  constructor
  · intro h
    have pa : a <:+: a ++ b := ⟨[], b, by simp⟩
    have pb : b <:+: a ++ b := ⟨a, [], by simp⟩
    exact ⟨⟨fun t ht => h.1 t (by simp [ht]), fun s f hi => h.2 s f (hi.trans pa),
        fun t ht => h.3 t (by simp [ht]), fun x y z hi => h.4 x y z (hi.trans pa)⟩,
      ⟨fun t ht => h.1 t (by simp [ht]), fun s f hi => h.2 s f (hi.trans pb),
        fun t ht => h.3 t (by simp [ht]), fun x y z hi => h.4 x y z (hi.trans pb)⟩⟩
  · rintro ⟨h1, h2⟩
    constructor
    · intro t ht
      rcases List.mem_append.1 ht with h | h
      · exact h1.1 t h
      · exact h2.1 t h
    · intro s f hi hs
      rcases infix_pair_append hi with h | h | h
      · exact h1.2 s f h hs
      · exact h2.2 s f h hs
      · exact absurd hs (ha _ h).1
    · intro t ht
      rcases List.mem_append.1 ht with h | h
      · exact h1.3 t h
      · exact h2.3 t h
    · intro x y z hi hx hy hz
      rcases infix_triple_append hi with h | h | h | h
      · exact h1.4 x y z h hx hy hz
      · exact h2.4 x y z h hx hy hz
      · exact absurd hx (ha _ h).2.1
      · exact absurd hy (ha _ h).2.2

/-- A token that is not checked. -/
def Plain (t : Tok) : Prop :=
  t.type ≠ .FWD_SLASH ∧ t.type ≠ .INTEGER ∧ t.type ≠ .Q_COMMA ∧ t.type ≠ .REGEXP

theorem endsOk_single {t : Tok} (h : t.type ≠ .FWD_SLASH ∧ t.type ≠ .INTEGER ∧ t.type ≠ .Q_COMMA) : EndsOk [t] := by
  intro x hx
  simp only [List.getLast?_singleton, Option.some.injEq] at hx
  subst hx
  exact h

theorem endsOk_nil : EndsOk [] := by intro x hx; simp at hx

theorem localChecks_single {rt : PyRuntime} {t : Tok} (h : Plain t) : LocalChecks rt [t] := by
  constructor
  · intro x hx; simp only [List.mem_singleton] at hx; subst hx; exact fun h' => absurd h' h.2.2.2
  · intro s f hi; have := hi.length_le; simp at this
  · intro x hx; simp only [List.mem_singleton] at hx; subst hx; exact fun h' => absurd h' h.2.1
  · intro x y z hi; have := hi.length_le; simp at this

theorem localChecks_cons {rt : PyRuntime} {t : Tok} {b : List Tok} (h : Plain t) :
    LocalChecks rt (t :: b) ↔ LocalChecks rt b := by
  rw [show t :: b = [t] ++ b from rfl, localChecks_append (endsOk_single ⟨h.1, h.2.1, h.2.2.1⟩)]
  simp [localChecks_single h]

section
variable (rt : PyRuntime) (cfg : Config)

theorem CRegexp.endsOk {r : CRegexp} (h : r.WF) : EndsOk r.toTree.leaves := by
  obtain ⟨pat, fl⟩ := r
  rcases fl with _ | ⟨s, f⟩
  · exact endsOk_single (by simp [show pat.type = _ from h.1])
  · intro x hx
    simp only [CRegexp.toTree, PTree.leaves, PTree.leavesL, List.append_nil, List.cons_append, List.nil_append,
      List.getLast?_cons_cons, List.getLast?_singleton, Option.some.injEq] at hx
    subst hx
    simp [(h.2 s f rfl).2]

theorem mem_infix {α : Type} {x : α} {l : List α} : [x] <:+: l ↔ x ∈ l := by
  constructor
  · intro h; exact h.subset (by simp)
  · intro h
    obtain ⟨a, b, rfl⟩ := List.append_of_mem h
    exact ⟨a, b, by simp⟩

theorem CRegexp.denotable {r : CRegexp} (h : r.WF) (hl : ∀ x ∈ r.toTree.leaves, x.Lexed) :
    (∃ v fl, r.Denotes rt cfg v fl) ↔ LocalChecks rt r.toTree.leaves := by
  obtain ⟨pat, fl⟩ := r
  have hp : pat.type = .REGEXP := h.1
  rcases fl with _ | ⟨s, f⟩
  · simp only [CRegexp.Denotes, CRegexp.toTree, PTree.leaves, PTree.leavesL, List.append_nil]
    constructor
    · rintro ⟨v, fl, ⟨raw, h1, h2⟩, _⟩
      constructor
      · intro t ht _; simp only [List.mem_singleton] at ht; subst ht; exact ⟨_, h1⟩
      · intro s f hi; have := hi.length_le; simp at this
      · intro x hx; simp only [List.mem_singleton] at hx; subst hx; simp [hp]
      · intro x y z hi; have := hi.length_le; simp at this
    · intro h'
      obtain ⟨v, hv⟩ := h'.1 pat (by simp) hp
      exact ⟨_, none, ⟨v, hv, rfl⟩, rfl⟩
  · have hs := h.2 s f rfl
    simp only [CRegexp.Denotes, CRegexp.toTree, PTree.leaves, PTree.leavesL, List.append_nil, List.cons_append,
      List.nil_append]
    constructor
    · rintro ⟨v, fl, ⟨raw, h1, h2⟩, fs, h3, h4, _⟩
      constructor
      · intro t ht htt
        simp only [List.mem_cons, List.not_mem_nil, or_false] at ht
        rcases ht with rfl | rfl | rfl
        · exact ⟨_, h1⟩
        · simp [hs.1] at htt
        · simp [hs.2] at htt
      · intro s' f' hi hs'
        rcases infix_pair_append (a := [pat]) (b := [s, f]) hi with h | h | h
        · have := h.length_le; simp at this
        · have := h.eq_of_length rfl
          cases this
          exact ⟨fs, h3, h4⟩
        · simp at h; subst h; simp [hp] at hs'
      · intro t ht htt
        simp only [List.mem_cons, List.not_mem_nil, or_false] at ht
        rcases ht with rfl | rfl | rfl
        · simp [hp] at htt
        · simp [hs.1] at htt
        · simp [hs.2] at htt
      · intro x y z hi hx
        have := hi.eq_of_length rfl
        cases this
        simp [hp] at hx
    · intro h'
      obtain ⟨v, hv⟩ := h'.1 pat (by simp) hp
      obtain ⟨fs, h1, h2⟩ := h'.2 s f ⟨[pat], [], by simp⟩ hs.1
      exact ⟨_, _, ⟨v, hv, rfl⟩, fs, h1, h2, rfl⟩

theorem isNameTok.plain {t : Tok} (h : isNameTok t) : Plain t := by
  rcases h with h | h | h | h <;> simp [Plain, h]

theorem CAttr.localChecks {a : CAttr} (h : a.WF) : LocalChecks rt a.toTree.leaves ∧ EndsOk a.toTree.leaves := by
  obtain ⟨q, i⟩ := a
  have hi : Plain i := h.1.plain
  rcases q with _ | ⟨q, c⟩
  · exact ⟨localChecks_single hi, endsOk_single ⟨hi.1, hi.2.1, hi.2.2.1⟩⟩
  · have h2 := h.2 q c rfl
    have hc : Plain c := by simp [Plain, h2.2]
    simp only [CAttr.toTree, PTree.leaves, PTree.leavesL, List.append_nil, List.cons_append, List.nil_append]
    refine ⟨?_, ?_⟩
    · rw [localChecks_cons h2.1.plain, localChecks_cons hc]
      exact localChecks_single hi
    · exact endsOk_append (a := [q, c]) (b := [i]) (by simp) (endsOk_single ⟨hi.1, hi.2.1, hi.2.2.1⟩)

theorem CQuant.endsOk {q : CQuant} (h : q.WF) : EndsOk (PTree.leavesL q.forest) := by
  cases q with
  | sym t =>
    refine endsOk_single ?_
    rcases h with h | h | h <;> simp [h]
  | exactly lb n rb =>
    exact endsOk_append (a := [lb, n]) (b := [rb]) (by simp) (endsOk_single (by simp [h.2.2]))
  | range lb n c m rb =>
    have : PTree.leavesL (CQuant.range lb n c m rb).forest
        = (lb :: (PTree.leavesL (optLeaf n) ++ c :: PTree.leavesL (optLeaf m))) ++ [rb] := by
      simp [CQuant.forest, PTree.leavesL, PTree.leaves, leavesL_append]
    rw [this]
    exact endsOk_append (by simp) (endsOk_single (by simp [h.2.2.1]))

theorem intText_iff {text : PyStr} : (∃ n, IntText rt text n) ↔
    (rt.intMaxStrDigits = 0 ∨ text.length ≤ rt.intMaxStrDigits) := by
  simp [IntText]

theorem localChecks_none {ts : List Tok}
    (h : ∀ t ∈ ts, t.type ≠ .REGEXP ∧ t.type ≠ .FWD_SLASH ∧ t.type ≠ .Q_COMMA) :
    LocalChecks rt ts ↔
      ∀ t ∈ ts, t.type = .INTEGER → rt.intMaxStrDigits = 0 ∨ t.text.length ≤ rt.intMaxStrDigits := by
  constructor
  · intro h'; exact h'.3
  · intro h'
    refine ⟨fun t ht htt => absurd htt (h t ht).1, fun s f hi hs => ?_, h', fun x y z hi _ hy => ?_⟩
    · exact absurd hs (h s (hi.subset (by simp))).2.1
    · exact absurd hy (h y (hi.subset (by simp))).2.2

theorem CQuant.denotable {q : CQuant} (h : q.WF) :
    (∃ mn mx, q.Bounds rt mn mx) ↔ LocalChecks rt (PTree.leavesL q.forest) := by
  cases q with
  | sym t =>
    have : LocalChecks rt (PTree.leavesL (CQuant.sym t).forest) := by
      refine localChecks_single ?_
      rcases h with h | h | h <;> simp [Plain, h]
    simp only [this, iff_true]
    rcases h with h | h | h <;> simp [CQuant.Bounds, h]
  | exactly lb n rb =>
    have h1 : lb.type = _ := h.1
    have h2 : n.type = _ := h.2.1
    have h3 : rb.type = _ := h.2.2
    rw [localChecks_none]
    · simp [CQuant.Bounds, IntText, CQuant.forest, PTree.leaves, PTree.leavesL, h1, h2, h3]
    · simp [CQuant.Bounds, IntText, CQuant.forest, PTree.leaves, PTree.leavesL, h1, h2, h3]
  | range lb n c m rb =>
    obtain ⟨h1, h2, h3, h4, h5, h6⟩ := h
    have hl : PTree.leavesL (CQuant.range lb n c m rb).forest
        = lb :: (PTree.leavesL (optLeaf n) ++ c :: (PTree.leavesL (optLeaf m) ++ [rb])) := by
      simp [CQuant.forest, PTree.leavesL, PTree.leaves, leavesL_append]
    rw [hl]
    constructor
    · rintro ⟨mn, mx, hb⟩
      constructor
      · intro t ht htt
        rcases n with _ | n <;> rcases m with _ | m <;>
          simp [optLeaf, PTree.leavesL, PTree.leaves] at ht h4 h5 <;>
          (rcases ht with ht | ht | ht | ht | ht | ht | ht) <;> simp_all
      · intro s f hi hs
        have := hi.subset (List.mem_cons_self)
        rcases n with _ | n <;> rcases m with _ | m <;>
          simp [optLeaf, PTree.leavesL, PTree.leaves] at this h4 h5 <;>
          (rcases this with this | this | this | this | this | this | this) <;> simp_all
      · intro t ht htt
        rcases n with _ | n <;> rcases m with _ | m <;>
          simp [optLeaf, PTree.leavesL, PTree.leaves, CQuant.Bounds, IntText] at ht h4 h5 hb
        all_goals (rcases ht with ht | ht | ht | ht | ht) <;> simp_all
      · intro x y z hi hx hy hz
        rcases n with _ | n <;> rcases m with _ | m <;>
          simp [optLeaf, PTree.leavesL, PTree.leaves, CQuant.Bounds, IntText, List.infix_cons_iff,
            List.cons_prefix_cons] at hi h4 h5 hb h6
        · rcases hi with hi | hi | hi <;> simp_all
        · rcases hi with hi | hi | hi <;> simp_all
        · rcases hi with hi | hi | hi
          · simp_all
          · obtain ⟨rfl, rfl, rfl⟩ := hi
            omega
          · simp_all
    · intro h'
      rcases n with _ | n <;> rcases m with _ | m <;>
        simp [optLeaf, PTree.leavesL, PTree.leaves, CQuant.Bounds, IntText] at h4 h5 h6 h' ⊢
      · exact h'.3 m (by simp) h5
      · exact h'.3 n (by simp) h4
      · have hr := h'.4 n c m ⟨[lb], [rb], by simp⟩ h4 h2 h5
        exact ⟨_, ⟨h'.3 n (by simp) h4, rfl⟩, _, ⟨h'.3 m (by simp) h5, rfl⟩, by omega⟩

theorem optQuant_endsOk {q : Option CQuant} (h : optQuantWF q) : EndsOk (PTree.leavesL (optQuant q)) := by
  cases q with
  | none => exact endsOk_nil
  | some q => simpa [optQuant, PTree.leavesL, PTree.leaves] using CQuant.endsOk (h q rfl)

theorem optQuant_denotable {q : Option CQuant} (h : optQuantWF q) :
    (∃ mn mx, optBounds rt q mn mx) ↔ LocalChecks rt (PTree.leavesL (optQuant q)) := by
  cases q with
  | none => simp [optBounds, optQuant, PTree.leavesL, localChecks_nil]
  | some q => simpa [optBounds, optQuant, PTree.leavesL, PTree.leaves] using CQuant.denotable rt (h q rfl)


/-- What is proved about a part of a syntax tree: it denotes something iff its tokens pass the checks. -/
structure Decides {α : Type} (rt : PyRuntime) (ts : List Tok) (P : α → Prop) : Prop where
  iff : (∃ a, P a) ↔ LocalChecks rt ts
  ends : EndsOk ts

mutual
theorem decides_expr : ∀ (e : CExpr), e.WF → (∀ x ∈ e.toTree.leaves, x.Lexed) →
    Decides rt e.toTree.leaves (e.Denotes rt cfg)
  | .basic a op r, hwf, hl => by
    simp only [CExpr.WF] at hwf
    have e : (CExpr.basic a op r).toTree.leaves = a.toTree.leaves ++ op :: r.toTree.leaves := by
      simp [CExpr.toTree, PTree.leaves, PTree.leavesL]
    have ha := CAttr.localChecks rt hwf.1
    have hop : Plain op := by rcases hwf.2.1 with h | h <;> simp [Plain, h]
    have hr := CRegexp.denotable rt cfg hwf.2.2 (fun x hx => hl x (by rw [e]; simp [hx]))
    rw [e]
    constructor
    · rw [localChecks_append ha.2, localChecks_cons hop, ← hr]
      simp only [CExpr.Denotes, ha.1, true_and]
      constructor
      · rintro ⟨n, o, v, fl, _, h, _⟩; exact ⟨v, fl, h⟩
      · rintro ⟨v, fl, h⟩
        rcases hwf.2.1 with h1 | h1
        · exact ⟨_, .EQUALS, v, fl, .inl ⟨h1, rfl⟩, h, rfl⟩
        · exact ⟨_, .NOT_EQUALS, v, fl, .inr ⟨h1, rfl⟩, h, rfl⟩
    · exact endsOk_append (by simp) (endsOk_append' (a := [op]) (endsOk_single ⟨hop.1, hop.2.1, hop.2.2.1⟩)
        (CRegexp.endsOk hwf.2.2))
  | .group lp e rp, hwf, hl => by
    simp only [CExpr.WF] at hwf
    have he : (CExpr.group lp e rp).toTree.leaves = lp :: (e.toTree.leaves ++ [rp]) := by
      simp [CExpr.toTree, PTree.leaves, PTree.leavesL]
    have ih := decides_expr e hwf.2.1 (fun x hx => hl x (by rw [he]; simp [hx]))
    have h1 : Plain lp := by simp [Plain, hwf.1]
    have h2 : Plain rp := by simp [Plain, hwf.2.2]
    rw [he]
    constructor
    · rw [localChecks_cons h1, localChecks_append ih.ends, ← ih.iff]
      simp only [localChecks_single h2, and_true, CExpr.Denotes]
      exact ⟨fun ⟨_, m, h, _⟩ => ⟨m, h⟩, fun ⟨m, h⟩ => ⟨_, m, h, rfl⟩⟩
    · exact endsOk_append (a := lp :: e.toTree.leaves) (by simp) (endsOk_single ⟨h2.1, h2.2.1, h2.2.2.1⟩)
  | .or f rest, hwf, hl => by
    simp only [CExpr.WF] at hwf
    have he : (CExpr.or f rest).toTree.leaves = f.toTree.leaves ++ PTree.leavesL rest.forest := by
      simp [CExpr.toTree, PTree.leaves, PTree.leavesL]
    have ih := decides_expr f hwf.1 (fun x hx => hl x (by rw [he]; simp [hx]))
    have ih' := decides_tail rest .OR _ (by simp) hwf.2.2.2 (fun x hx => hl x (by rw [he]; simp [hx]))
    rw [he]
    constructor
    · rw [localChecks_append ih.ends, ← ih.iff, ← ih'.iff]
      simp only [CExpr.Denotes]
      exact ⟨fun ⟨_, m, ms, h, h', _⟩ => ⟨⟨m, h⟩, ms, h'⟩, fun ⟨⟨m, h⟩, ms, h'⟩ => ⟨_, m, ms, h, h', rfl⟩⟩
    · exact endsOk_append' ih.ends ih'.ends
  | .and f rest, hwf, hl => by
    simp only [CExpr.WF] at hwf
    have he : (CExpr.and f rest).toTree.leaves = f.toTree.leaves ++ PTree.leavesL rest.forest := by
      simp [CExpr.toTree, PTree.leaves, PTree.leavesL]
    have ih := decides_expr f hwf.1 (fun x hx => hl x (by rw [he]; simp [hx]))
    have ih' := decides_tail rest .AND _ (by simp) hwf.2.2.2.2 (fun x hx => hl x (by rw [he]; simp [hx]))
    rw [he]
    constructor
    · rw [localChecks_append ih.ends, ← ih.iff, ← ih'.iff]
      simp only [CExpr.Denotes]
      exact ⟨fun ⟨_, m, ms, h, h', _⟩ => ⟨⟨m, h⟩, ms, h'⟩, fun ⟨⟨m, h⟩, ms, h'⟩ => ⟨_, m, ms, h, h', rfl⟩⟩
    · exact endsOk_append' ih.ends ih'.ends
  | .not b e, hwf, hl => by
    simp only [CExpr.WF] at hwf
    have he : (CExpr.not b e).toTree.leaves = b :: e.toTree.leaves := by
      simp [CExpr.toTree, PTree.leaves, PTree.leavesL]
    have ih := decides_expr e hwf.2 (fun x hx => hl x (by rw [he]; simp [hx]))
    have h1 : Plain b := by simp [Plain, hwf.1]
    rw [he]
    constructor
    · rw [localChecks_cons h1, ← ih.iff]
      simp only [CExpr.Denotes]
      exact ⟨fun ⟨_, m, h, _⟩ => ⟨m, h⟩, fun ⟨m, h⟩ => ⟨_, m, h, rfl⟩⟩
    · exact endsOk_append' (a := [b]) (endsOk_single ⟨h1.1, h1.2.1, h1.2.2.1⟩) ih.ends
theorem decides_tail : ∀ (t : CTail) (op : TokType) (no : Rule), op = .OR ∨ op = .AND → t.WF op no →
    (∀ x ∈ PTree.leavesL t.forest, x.Lexed) → Decides rt (PTree.leavesL t.forest) (t.Denotes rt cfg)
  | .nil, op, no, hop, hwf, hl => by
    constructor
    · simp [CTail.Denotes, CTail.forest, PTree.leavesL, localChecks_nil]
    · exact endsOk_nil
  | .cons o e rest, op, no, hop, hwf, hl => by
    simp only [CTail.WF] at hwf
    have he : PTree.leavesL (CTail.cons o e rest).forest = o :: (e.toTree.leaves ++ PTree.leavesL rest.forest) := by
      simp [CTail.forest, PTree.leaves, PTree.leavesL]
    have ih := decides_expr e hwf.2.1 (fun x hx => hl x (by rw [he]; simp [hx]))
    have ih' := decides_tail rest op no hop hwf.2.2.2 (fun x hx => hl x (by rw [he]; simp [hx]))
    have h1 : Plain o := by rcases hop with h | h <;> simp [Plain, hwf.1, h]
    rw [he]
    constructor
    · rw [localChecks_cons h1, localChecks_append ih.ends, ← ih.iff, ← ih'.iff]
      simp only [CTail.Denotes]
      exact ⟨fun ⟨_, m, ms, h, h', _⟩ => ⟨⟨m, h⟩, ms, h'⟩, fun ⟨⟨m, h⟩, ms, h'⟩ => ⟨_, m, ms, h, h', rfl⟩⟩
    · exact endsOk_append' (a := [o]) (endsOk_single ⟨h1.1, h1.2.1, h1.2.2.1⟩) (endsOk_append' ih.ends ih'.ends)
end

theorem decides_seg (lb rb : Tok) (e : Option CExpr) (hwf : ∀ x, e = some x → x.WF)
    (hl : ∀ x ∈ PTree.leavesL (optExpr e), x.Lexed) :
    Decides rt (PTree.leavesL (optExpr e)) (optDenotes rt cfg lb rb e) := by
  cases e with
  | none =>
    constructor
    · simp [optDenotes, optExpr, PTree.leavesL, localChecks_nil]
    · exact endsOk_nil
  | some e =>
    have he : PTree.leavesL (optExpr (some e)) = e.toTree.leaves := by
      simp [optExpr, PTree.leavesL, PTree.leaves]
    rw [he] at hl ⊢
    exact decides_expr rt cfg e (hwf e rfl) hl

mutual
theorem decides_q : ∀ (c : CQ), c.WF → (∀ x ∈ c.toTree.leaves, x.Lexed) →
    Decides rt c.toTree.leaves (c.Denotes rt cfg)
  | .implicit r q, hwf, hl => by
    simp only [CQ.WF] at hwf
    have he : (CQ.implicit r q).toTree.leaves = r.toTree.leaves ++ PTree.leavesL (optQuant q) := by
      simp [CQ.toTree, PTree.leaves, PTree.leavesL]
    have hr := CRegexp.denotable rt cfg hwf.1 (fun x hx => hl x (by rw [he]; simp [hx]))
    rw [he]
    constructor
    · rw [localChecks_append (CRegexp.endsOk hwf.1), ← hr, ← optQuant_denotable rt hwf.2]
      simp only [CQ.Denotes]
      exact ⟨fun ⟨_, v, fl, mn, mx, h, h', _⟩ => ⟨⟨v, fl, h⟩, mn, mx, h'⟩,
        fun ⟨⟨v, fl, h⟩, mn, mx, h'⟩ => ⟨_, v, fl, mn, mx, h, h', rfl⟩⟩
    · exact endsOk_append' (CRegexp.endsOk hwf.1) (optQuant_endsOk hwf.2)
  | .segment lb e rb q, hwf, hl => by
    simp only [CQ.WF] at hwf
    have he : (CQ.segment lb e rb q).toTree.leaves
        = lb :: (PTree.leavesL (optExpr e) ++ rb :: PTree.leavesL (optQuant q)) := by
      simp [CQ.toTree, PTree.leaves, PTree.leavesL, leavesL_append]
    have ih := decides_seg rt cfg lb rb e hwf.2.1 (fun x hx => hl x (by rw [he]; simp [hx]))
    have h1 : Plain lb := by simp [Plain, hwf.1]
    have h2 : Plain rb := by simp [Plain, hwf.2.2.1]
    rw [he]
    constructor
    · rw [localChecks_cons h1, localChecks_append ih.ends, localChecks_cons h2, ← ih.iff,
        ← optQuant_denotable rt hwf.2.2.2]
      simp only [CQ.Denotes]
      exact ⟨fun ⟨_, m, mn, mx, h, h', _⟩ => ⟨⟨m, h⟩, mn, mx, h'⟩,
        fun ⟨⟨m, h⟩, mn, mx, h'⟩ => ⟨_, m, mn, mx, h, h', rfl⟩⟩
    · exact endsOk_append (a := lb :: PTree.leavesL (optExpr e)) (by simp)
        (endsOk_append' (a := [rb]) (endsOk_single ⟨h2.1, h2.2.1, h2.2.2.1⟩) (optQuant_endsOk hwf.2.2.2))
  | .group lp c rp q, hwf, hl => by
    simp only [CQ.WF] at hwf
    have he : (CQ.group lp c rp q).toTree.leaves
        = lp :: (c.toTree.leaves ++ rp :: PTree.leavesL (optQuant q)) := by
      simp [CQ.toTree, PTree.leaves, PTree.leavesL]
    have ih := decides_q c hwf.2.1 (fun x hx => hl x (by rw [he]; simp [hx]))
    have h1 : Plain lp := by simp [Plain, hwf.1]
    have h2 : Plain rp := by simp [Plain, hwf.2.2.2.1]
    rw [he]
    constructor
    · rw [localChecks_cons h1, localChecks_append ih.ends, localChecks_cons h2, ← ih.iff,
        ← optQuant_denotable rt hwf.2.2.2.2]
      simp only [CQ.Denotes]
      exact ⟨fun ⟨_, m, mn, mx, h, h', _⟩ => ⟨⟨m, h⟩, mn, mx, h'⟩,
        fun ⟨⟨m, h⟩, mn, mx, h'⟩ => ⟨_, m, mn, mx, h, h', rfl⟩⟩
    · exact endsOk_append (a := lp :: c.toTree.leaves) (by simp)
        (endsOk_append' (a := [rp]) (endsOk_single ⟨h2.1, h2.2.1, h2.2.2.1⟩) (optQuant_endsOk hwf.2.2.2.2))
  | .seq f rest, hwf, hl => by
    simp only [CQ.WF] at hwf
    have he : (CQ.seq f rest).toTree.leaves = f.toTree.leaves ++ PTree.leavesL rest.forest := by
      simp [CQ.toTree, PTree.leaves, PTree.leavesL]
    have ih := decides_q f hwf.1 (fun x hx => hl x (by rw [he]; simp [hx]))
    have ih' := decides_qtail rest (.inl hwf.2.2) (fun x hx => hl x (by rw [he]; simp [hx]))
    rw [he]
    constructor
    · rw [localChecks_append ih.ends, ← ih.iff, ← ih'.iff]
      simp only [CQ.Denotes]
      exact ⟨fun ⟨_, m, ms, h, h', _⟩ => ⟨⟨m, h⟩, ms, h'⟩, fun ⟨⟨m, h⟩, ms, h'⟩ => ⟨_, m, ms, h, h', rfl⟩⟩
    · exact endsOk_append' ih.ends ih'.ends
  | .disj f rest, hwf, hl => by
    simp only [CQ.WF] at hwf
    have he : (CQ.disj f rest).toTree.leaves = f.toTree.leaves ++ PTree.leavesL rest.forest := by
      simp [CQ.toTree, PTree.leaves, PTree.leavesL]
    have ih := decides_q f hwf.1 (fun x hx => hl x (by rw [he]; simp [hx]))
    have ih' := decides_qtail rest (.inr hwf.2.2.2) (fun x hx => hl x (by rw [he]; simp [hx]))
    rw [he]
    constructor
    · rw [localChecks_append ih.ends, ← ih.iff, ← ih'.iff]
      simp only [CQ.Denotes]
      exact ⟨fun ⟨_, m, ms, h, h', _⟩ => ⟨⟨m, h⟩, ms, h'⟩, fun ⟨⟨m, h⟩, ms, h'⟩ => ⟨_, m, ms, h, h', rfl⟩⟩
    · exact endsOk_append' ih.ends ih'.ends
theorem decides_qtail : ∀ (t : CQTail), t.WFseq ∨ t.WFdisj →
    (∀ x ∈ PTree.leavesL t.forest, x.Lexed) → Decides rt (PTree.leavesL t.forest) (t.Denotes rt cfg)
  | .nil, hwf, hl => by
    constructor
    · simp [CQTail.Denotes, CQTail.forest, PTree.leavesL, localChecks_nil]
    · exact endsOk_nil
  | .cons sep c rest, hwf, hl => by
    have he : PTree.leavesL (CQTail.cons sep c rest).forest
        = PTree.leavesL (optLeaf sep) ++ (c.toTree.leaves ++ PTree.leavesL rest.forest) := by
      simp [CQTail.forest, PTree.leaves, PTree.leavesL, leavesL_append]
    have hc : c.WF := by
      rcases hwf with h | h
      · simp only [CQTail.WFseq] at h; exact h.2.1
      · simp only [CQTail.WFdisj] at h; exact h.2.1
    have hrest : rest.WFseq ∨ rest.WFdisj := by
      rcases hwf with h | h
      · simp only [CQTail.WFseq] at h; exact .inl h.2.2.2
      · simp only [CQTail.WFdisj] at h; exact .inr h.2.2.2
    have hsep : LocalChecks rt (PTree.leavesL (optLeaf sep)) ∧ EndsOk (PTree.leavesL (optLeaf sep)) := by
      rcases hwf with h | h
      · simp only [CQTail.WFseq] at h
        rw [h.1]
        exact ⟨localChecks_nil rt, endsOk_nil⟩
      · simp only [CQTail.WFdisj] at h
        obtain ⟨o, h1, h2⟩ := h.1
        rw [h1]
        have : Plain o := by simp [Plain, h2]
        exact ⟨localChecks_single this, endsOk_single ⟨this.1, this.2.1, this.2.2.1⟩⟩
    have ih := decides_q c hc (fun x hx => hl x (by rw [he]; simp [hx]))
    have ih' := decides_qtail rest hrest (fun x hx => hl x (by rw [he]; simp [hx]))
    rw [he]
    constructor
    · rw [localChecks_append hsep.2, localChecks_append ih.ends, ← ih.iff, ← ih'.iff]
      simp only [CQTail.Denotes, hsep.1, true_and]
      exact ⟨fun ⟨_, m, ms, h, h', _⟩ => ⟨⟨m, h⟩, ms, h'⟩, fun ⟨⟨m, h⟩, ms, h'⟩ => ⟨_, m, ms, h, h', rfl⟩⟩
    · exact endsOk_append' hsep.2 (endsOk_append' ih.ends ih'.ends)
end

/-- A syntax tree denotes a query tree iff its tokens pass the local checks. -/
theorem denotable_query (q : CQuery) (hwf : q.WF) (hl : q.toTree.Lexed) :
    (∃ n, q.Denotes rt cfg n) ↔ LocalChecks rt q.toTree.leaves := by
  obtain ⟨main, within, eof⟩ := q
  have he : (CQuery.mk main within eof).toTree.leaves
      = main.toTree.leaves ++ (PTree.leavesL (optWithin within) ++ [eof]) := by
    simp [CQuery.toTree, PTree.leaves, PTree.leavesL, leavesL_append]
  have hd := decides_q rt cfg main hwf.1 (fun x hx => hl x (by rw [he]; simp [hx]))
  have heof : Plain eof := by simp [Plain, show eof.type = _ from hwf.2.2]
  rw [he, localChecks_append hd.ends, ← hd.iff]
  rcases within with _ | ⟨w, s⟩
  · simp only [CQuery.Denotes, optWithin, PTree.leavesL, List.nil_append, localChecks_single heof, and_true]
  · obtain ⟨hw, hs⟩ := hwf.2.1 w s rfl
    have h1 : Plain w := by simp [Plain, hw]
    have h2 : Plain s := by simp [Plain, hs]
    simp only [CQuery.Denotes, optWithin, PTree.leavesL, PTree.leaves, List.nil_append, List.append_nil,
      List.cons_append, localChecks_cons h1, localChecks_cons h2, localChecks_single heof, and_true]
    obtain ⟨sc, hsc⟩ := lexed_scope (hl s (by rw [he]; simp [optWithin, PTree.leavesL, PTree.leaves])) hs
    exact ⟨fun ⟨_, m, _, h, _⟩ => ⟨m, h⟩, fun ⟨m, h⟩ => ⟨_, m, sc, h, hsc, rfl⟩⟩

end

section
variable (rt : Runtime) (cfg : Config) (q : PyStr)

/-- Acceptance: lexable, grammatical and the local checks. -/
theorem accepted_iff : (∃ n, (parseQuery rt cfg q).1 = .ok n) ↔
    lexErrors q = [] ∧ Grammatical (tokenStream q) ∧ LocalChecks rt.toPyRuntime (tokenStream q) := by
  constructor
  · rintro ⟨n, h⟩
    obtain ⟨hl, cst, hs, hd⟩ := (parse_ok rt cfg q n).1 h
    refine ⟨hl, (grammatical_iff_syntax q).2 ⟨_, hs⟩, ?_⟩
    rw [← hs.leaves]
    exact (denotable_query rt.toPyRuntime cfg cst hs.wf hs.lexed).1 ⟨n, hd⟩
  · rintro ⟨hl, hg, hc⟩
    obtain ⟨cst, hs⟩ := (grammatical_iff_syntax q).1 hg
    rw [← hs.leaves] at hc
    obtain ⟨n, hd⟩ := (denotable_query rt.toPyRuntime cfg cst hs.wf hs.lexed).2 hc
    exact ⟨n, (parse_ok rt cfg q n).2 ⟨hl, cst, hs, hd⟩⟩

end

end Fcsql
