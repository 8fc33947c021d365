/-
Segments of a network that implement a grammar expression: paths through them are derivations.
-/
import Verif.Spec.Atn
import Verif.Proofs.Grammar

set_option autoImplicit false
set_option linter.unusedSimpArgs false

namespace Fcsql

theorem TokType.num_inj {t u : TokType} (h : t.num = u.num) : t = u := by
  cases t <;> cases u <;> first | rfl | (exfalso; revert h; decide)

theorem Rule.num_inj {t u : Rule} (h : t.num = u.num) : t = u := by
  cases t <;> cases u <;> first | rfl | (exfalso; revert h; decide)

/-- No transition leaves a rule stop state. -/
def Atn.StopsEnd (A : Atn) : Prop := ∀ s, A.isStop s = true → A.out s = []

def Atn.stopsEnd (A : Atn) : Bool := A.states.all fun s => s.type ≠ 7 || s.trans = []

theorem Atn.stopsEnd_iff {A : Atn} (h : A.stopsEnd = true) : A.StopsEnd := by
  intro s hs
  unfold Atn.isStop at hs
  unfold Atn.out
  cases e : A.states[s]? with
  | none => rfl
  | some st =>
    rw [e] at hs
    have := List.all_eq_true.1 h st (List.mem_of_getElem? e)
    simp at this hs ⊢
    rcases this with h | h
    · exact absurd hs h
    · exact h

/-- `Seg A g s e`: the part of the network from `s` to `e` is the grammar expression `g`. -/
inductive Seg (A : Atn) : G → Nat → Nat → Prop
  | pre {g : G} {s s' e : Nat} : A.out s = [.eps s'] → Seg A g s' e → Seg A g s e
  | post {g : G} {s m e : Nat} : Seg A g s m → A.out m = [.eps e] → Seg A g s e
  | eps {s : Nat} : Seg A .eps s s
  | tok {t : TokType} {s e : Nat} : A.out s = [.atom t.num e] → Seg A (.tok t) s e
  | set {l : List (Int × Int)} {ks : List TokType} {s e : Nat} : A.out s = [.set l e] →
      ks ≠ [] → (∀ t : TokType, InIntervals t.num l ↔ t ∈ ks) → Seg A (G.alts (ks.map .tok)) s e
  | rule {r : Rule} {s e : Nat} : A.out s = [.rule (A.start r) r.num e] → Seg A (.rule r) s e
  | seq {a b : G} {s m e : Nat} : Seg A a s m → Seg A b m e → Seg A (.seq a b) s e
  | alt {gs : List G} {ss : List Nat} {s e : Nat} : A.out s = ss.map .eps → gs.length = ss.length → gs ≠ [] →
      (∀ (i : Nat) (h : i < gs.length) (h' : i < ss.length), Seg A gs[i] ss[i] e) → Seg A (G.alts gs) s e
  | star {a : G} {s b x : Nat} : A.out s = [.eps b, .eps x] → Seg A a b s → Seg A (.star a) s x

/-- The network implements the grammar: every rule, from its start state to a stop state. -/
structure Implements (A : Atn) : Prop where
  stops : A.StopsEnd
  rule : ∀ r, ∃ e, A.isStop e = true ∧ Seg A (body r) (A.start r) e

/-! ### Alternatives -/

theorem G.alts_cons {a b : G} {gs : List G} : G.alts (a :: b :: gs) = .alt a (G.alts (b :: gs)) := rfl

theorem D_alts {gs : List G} (h0 : gs ≠ []) {ts : List Tok} {f : List PTree} :
    (∃ c, D (G.alts gs) ts f c) ↔ ∃ (i : Nat) (h : i < gs.length) (c : _), D gs[i] ts f c := by
  induction gs with
  | nil => exact absurd rfl h0
  | cons a gs ih =>
    cases gs with
    | nil =>
      simp only [G.alts, List.length_singleton]
      constructor
      · rintro ⟨c, h⟩; exact ⟨0, by omega, c, h⟩
      · rintro ⟨i, hi, c, h⟩
        obtain rfl : i = 0 := by omega
        exact ⟨c, h⟩
    | cons b gs =>
      have ih := ih (by simp)
      rw [G.alts_cons]
      constructor
      · rintro ⟨c, h0⟩
        rcases D_alt.1 h0 with ⟨c', rfl, h⟩ | ⟨c', rfl, h⟩
        · exact ⟨0, by simp, c', h⟩
        · obtain ⟨i, hi, c, h⟩ := ih.1 ⟨c', h⟩
          exact ⟨i + 1, by simpa using hi, c, by simpa using h⟩
      · rintro ⟨i, hi, c, h⟩
        cases i with
        | zero => exact ⟨_, .altL h⟩
        | succ i =>
          obtain ⟨c', h'⟩ := ih.2 ⟨i, by simpa using hi, c, by simpa using h⟩
          exact ⟨_, .altR h'⟩

theorem D_alts_toks {ks : List TokType} (h0 : ks ≠ []) {ts : List Tok} {f : List PTree} :
    (∃ c, D (G.alts (ks.map .tok)) ts f c) ↔ ∃ x : Tok, x.type ∈ ks ∧ ts = [x] ∧ f = [.leaf x] := by
  rw [D_alts (by simpa using h0)]
  constructor
  · rintro ⟨i, hi, c, h⟩
    simp only [List.getElem_map, D_tok] at h
    obtain ⟨x, h, rfl, rfl, -⟩ := h
    exact ⟨x, by rw [h]; exact List.getElem_mem _, rfl, rfl⟩
  · rintro ⟨x, h, rfl, rfl⟩
    obtain ⟨i, hi, h⟩ := List.mem_iff_getElem.1 h
    exact ⟨i, by simpa using hi, [], by rw [List.getElem_map, D_tok]; exact ⟨x, h.symm, rfl, rfl, rfl⟩⟩

/-! ### From derivations to paths -/

/-- Derivations with a bound on the nesting of rules. -/
inductive DN : Nat → G → List Tok → List PTree → Prop
  | eps {n : Nat} : DN n .eps [] []
  | tok {n : Nat} {t : TokType} {x : Tok} : x.type = t → DN n (.tok t) [x] [.leaf x]
  | rule {n : Nat} {r : Rule} {ts : List Tok} {f : List PTree} :
      DN n (body r) ts f → DN (n + 1) (.rule r) ts [.node r f]
  | seq {n : Nat} {a b : G} {ts ts' : List Tok} {f f' : List PTree} :
      DN n a ts f → DN n b ts' f' → DN n (.seq a b) (ts ++ ts') (f ++ f')
  | altL {n : Nat} {a b : G} {ts : List Tok} {f : List PTree} : DN n a ts f → DN n (.alt a b) ts f
  | altR {n : Nat} {a b : G} {ts : List Tok} {f : List PTree} : DN n b ts f → DN n (.alt a b) ts f
  | starNil {n : Nat} {a : G} : DN n (.star a) [] []
  | starCons {n : Nat} {a : G} {ts ts' : List Tok} {f f' : List PTree} :
      DN n a ts f → DN n (.star a) ts' f' → DN n (.star a) (ts ++ ts') (f ++ f')

theorem DN.mono {n m : Nat} {g : G} {ts : List Tok} {f : List PTree} (h : DN n g ts f) (hm : n ≤ m) : DN m g ts f := by
  induction h generalizing m with
  | eps => exact .eps
  | tok h => exact .tok h
  | rule _ ih =>
    obtain ⟨m, rfl⟩ : ∃ k, m = k + 1 := ⟨m - 1, by omega⟩
    exact .rule (ih (by omega))
  | seq _ _ ih ih' => exact .seq (ih hm) (ih' hm)
  | altL _ ih => exact .altL (ih hm)
  | altR _ ih => exact .altR (ih hm)
  | starNil => exact .starNil
  | starCons _ _ ih ih' => exact .starCons (ih hm) (ih' hm)

theorem D.toDN {g : G} {ts : List Tok} {f : List PTree} {c : List Bool} (h : D g ts f c) : ∃ n, DN n g ts f := by
  induction h with
  | eps => exact ⟨0, .eps⟩
  | tok h => exact ⟨0, .tok h⟩
  | rule _ ih => obtain ⟨n, h⟩ := ih; exact ⟨n + 1, .rule h⟩
  | seq _ _ ih ih' =>
    obtain ⟨n, h⟩ := ih; obtain ⟨m, h'⟩ := ih'
    exact ⟨max n m, .seq (h.mono (by omega)) (h'.mono (by omega))⟩
  | altL _ ih => obtain ⟨n, h⟩ := ih; exact ⟨n, .altL h⟩
  | altR _ ih => obtain ⟨n, h⟩ := ih; exact ⟨n, .altR h⟩
  | starNil => exact ⟨0, .starNil⟩
  | starCons _ _ ih ih' =>
    obtain ⟨n, h⟩ := ih; obtain ⟨m, h'⟩ := ih'
    exact ⟨max n m, .starCons (h.mono (by omega)) (h'.mono (by omega))⟩

theorem DN.toD {n : Nat} {g : G} {ts : List Tok} {f : List PTree} (h : DN n g ts f) : ∃ c, D g ts f c := by
  induction h with
  | eps => exact ⟨_, .eps⟩
  | tok h => exact ⟨_, .tok h⟩
  | rule _ ih => obtain ⟨c, h⟩ := ih; exact ⟨_, .rule h⟩
  | seq _ _ ih ih' => obtain ⟨c, h⟩ := ih; obtain ⟨c', h'⟩ := ih'; exact ⟨_, .seq h h'⟩
  | altL _ ih => obtain ⟨c, h⟩ := ih; exact ⟨_, .altL h⟩
  | altR _ ih => obtain ⟨c, h⟩ := ih; exact ⟨_, .altR h⟩
  | starNil => exact ⟨_, .starNil⟩
  | starCons _ _ ih ih' => obtain ⟨c, h⟩ := ih; obtain ⟨c', h'⟩ := ih'; exact ⟨_, .starCons h h'⟩

theorem DN_alts {n : Nat} {gs : List G} (h0 : gs ≠ []) {ts : List Tok} {f : List PTree} (h : DN n (G.alts gs) ts f) :
    ∃ (i : Nat) (h : i < gs.length), DN n gs[i] ts f := by
  induction gs with
  | nil => exact absurd rfl h0
  | cons a gs ih =>
    cases gs with
    | nil => exact ⟨0, by simp, h⟩
    | cons b gs =>
      rw [G.alts_cons] at h
      cases h with
      | altL h => exact ⟨0, by simp, h⟩
      | altR h =>
        obtain ⟨i, hi, h⟩ := ih (by simp) h
        exact ⟨i + 1, by simpa using hi, by simpa using h⟩

theorem Seg.walk {A : Atn} (hA : Implements A) (n : Nat) : ∀ {g : G} {s e : Nat}, Seg A g s e →
    ∀ {us vs : List Tok} {f f' : List PTree}, DN n g us f → Walk A e vs f' → Walk A s (us ++ vs) (f ++ f') := by
  induction n with
  | zero =>
    intro g s e h
    induction h with
    | pre ho _ ih => intro us vs f f' hd hw; exact .eps (by rw [ho]; simp) (ih hd hw)
    | post _ ho ih => intro us vs f f' hd hw; exact ih hd (.eps (by rw [ho]; simp) hw)
    | eps => intro us vs f f' hd hw; cases hd; exact hw
    | tok ho =>
      intro us vs f f' hd hw
      cases hd with | tok hx => exact .atom (by rw [ho, hx]; simp) hw
    | set ho h0 hl =>
      intro us vs f f' hd hw
      obtain ⟨x, hx, rfl, rfl⟩ := (D_alts_toks h0).1 hd.toD
      exact .set (by rw [ho]; simp) ((hl _).2 hx) hw
    | rule ho => intro us vs f f' hd hw; cases hd
    | seq _ _ ih ih' =>
      intro us vs f f' hd hw
      cases hd with | seq h1 h2 => rw [List.append_assoc, List.append_assoc]; exact ih h1 (ih' h2 hw)
    | alt ho hl h0 _ ih =>
      intro us vs f f' hd hw
      obtain ⟨i, hi, hd⟩ := DN_alts h0 hd
      exact .eps (by rw [ho]; exact List.mem_map_of_mem (List.getElem_mem (by omega))) (ih i hi (by omega) hd hw)
    | @star a s b x ho _ ih =>
      intro us vs f f' hd hw
      generalize hg : G.star a = g at hd
      generalize hn : 0 = m at hd
      induction hd with
      | starNil => cases hg; exact .eps (by rw [ho]; simp) hw
      | starCons h1 h2 ih1 ih2 =>
        cases hg
        subst hn
        rw [List.append_assoc, List.append_assoc]
        exact .eps (by rw [ho]; simp) (ih h1 (ih2 rfl rfl))
      | _ => cases hg
  | succ n ihn =>
    intro g s e h
    induction h with
    | pre ho _ ih => intro us vs f f' hd hw; exact .eps (by rw [ho]; simp) (ih hd hw)
    | post _ ho ih => intro us vs f f' hd hw; exact ih hd (.eps (by rw [ho]; simp) hw)
    | eps => intro us vs f f' hd hw; cases hd; exact hw
    | tok ho =>
      intro us vs f f' hd hw
      cases hd with | tok hx => exact .atom (by rw [ho, hx]; simp) hw
    | set ho h0 hl =>
      intro us vs f f' hd hw
      obtain ⟨x, hx, rfl, rfl⟩ := (D_alts_toks h0).1 hd.toD
      exact .set (by rw [ho]; simp) ((hl _).2 hx) hw
    | @rule r s e ho =>
      intro us vs f f' hd hw
      cases hd with
      | rule hd =>
        obtain ⟨e', he, hs⟩ := hA.rule r
        have := ihn hs hd (.stop he)
        rw [List.append_nil, List.append_nil] at this
        exact .rule (by rw [ho]; simp) this hw
    | seq _ _ ih ih' =>
      intro us vs f f' hd hw
      cases hd with | seq h1 h2 => rw [List.append_assoc, List.append_assoc]; exact ih h1 (ih' h2 hw)
    | alt ho hl h0 _ ih =>
      intro us vs f f' hd hw
      obtain ⟨i, hi, hd⟩ := DN_alts h0 hd
      exact .eps (by rw [ho]; exact List.mem_map_of_mem (List.getElem_mem (by omega))) (ih i hi (by omega) hd hw)
    | @star a s b x ho _ ih =>
      intro us vs f f' hd hw
      generalize hg : G.star a = g at hd
      generalize hn : n + 1 = m at hd
      induction hd with
      | starNil => cases hg; exact .eps (by rw [ho]; simp) hw
      | starCons h1 h2 ih1 ih2 =>
        cases hg
        subst hn
        rw [List.append_assoc, List.append_assoc]
        exact .eps (by rw [ho]; simp) (ih h1 (ih2 rfl rfl))
      | _ => cases hg

/-! ### From paths to derivations -/

/-- Paths with their length. -/
inductive WalkN (A : Atn) : Nat → Nat → List Tok → List PTree → Prop
  | stop {s : Nat} : A.isStop s = true → WalkN A 0 s [] []
  | eps {n s t : Nat} {ts : List Tok} {f : List PTree} : .eps t ∈ A.out s → WalkN A n t ts f → WalkN A (n + 1) s ts f
  | atom {n s t : Nat} {x : Tok} {ts : List Tok} {f : List PTree} :
      .atom x.type.num t ∈ A.out s → WalkN A n t ts f → WalkN A (n + 1) s (x :: ts) (.leaf x :: f)
  | set {n s t : Nat} {l : List (Int × Int)} {x : Tok} {ts : List Tok} {f : List PTree} :
      .set l t ∈ A.out s → InIntervals x.type.num l → WalkN A n t ts f → WalkN A (n + 1) s (x :: ts) (.leaf x :: f)
  | rule {n m s start t : Nat} {r : Rule} {us ts : List Tok} {ks f : List PTree} :
      .rule start r.num t ∈ A.out s → WalkN A n start us ks → WalkN A m t ts f →
      WalkN A (n + m + 1) s (us ++ ts) (.node r ks :: f)

theorem Walk.toN {A : Atn} {s : Nat} {ts : List Tok} {f : List PTree} (h : Walk A s ts f) : ∃ n, WalkN A n s ts f := by
  induction h with
  | stop h => exact ⟨0, .stop h⟩
  | eps h _ ih => obtain ⟨n, ih⟩ := ih; exact ⟨_, .eps h ih⟩
  | atom h _ ih => obtain ⟨n, ih⟩ := ih; exact ⟨_, .atom h ih⟩
  | set h h' _ ih => obtain ⟨n, ih⟩ := ih; exact ⟨_, .set h h' ih⟩
  | rule h _ _ ih ih' => obtain ⟨n, ih⟩ := ih; obtain ⟨m, ih'⟩ := ih'; exact ⟨_, .rule h ih ih'⟩

theorem WalkN.toWalk {A : Atn} {n s : Nat} {ts : List Tok} {f : List PTree} (h : WalkN A n s ts f) : Walk A s ts f := by
  induction h with
  | stop h => exact .stop h
  | eps h _ ih => exact .eps h ih
  | atom h _ ih => exact .atom h ih
  | set h h' _ ih => exact .set h h' ih
  | rule h _ _ ih ih' => exact .rule h ih ih'

/-- What a path through a segment splits into. -/
def SplitsAt (A : Atn) (g : G) (e m : Nat) (ts : List Tok) (f : List PTree) : Prop :=
  ∃ us vs f1 f2 c k, ts = us ++ vs ∧ f = f1 ++ f2 ∧ D g us f1 c ∧ k ≤ m ∧ WalkN A k e vs f2

theorem Seg.split {A : Atn} (hA : Implements A) (n : Nat) : ∀ {g : G} {s e : Nat}, Seg A g s e →
    ∀ {m : Nat} {ts : List Tok} {f : List PTree}, m ≤ n → WalkN A m s ts f → SplitsAt A g e m ts f := by
  induction n using Nat.strongRecOn with
  | _ n ihn =>
    intro g s e h
    induction h with
    | pre ho _ ih =>
      intro m ts f hm hw
      cases hw with
      | stop hs => rw [hA.stops _ hs] at ho; cases ho
      | eps h h' =>
        rw [ho] at h; simp at h; subst h
        obtain ⟨us, vs, f1, f2, c, k, h1, h2, h3, h4, h5⟩ := ih (by omega) h'
        exact ⟨us, vs, f1, f2, c, k, h1, h2, h3, by omega, h5⟩
      | atom h h' => rw [ho] at h; simp at h
      | set h h' => rw [ho] at h; simp at h
      | rule h h' => rw [ho] at h; simp at h
    | post _ ho ih =>
      intro m ts f hm hw
      obtain ⟨us, vs, f1, f2, c, k, h1, h2, h3, h4, h5⟩ := ih hm hw
      cases h5 with
      | stop hs => rw [hA.stops _ hs] at ho; cases ho
      | eps h h' =>
        rw [ho] at h; simp at h; subst h
        exact ⟨us, vs, f1, f2, c, _, h1, h2, h3, by omega, h'⟩
      | atom h h' => rw [ho] at h; simp at h
      | set h h' => rw [ho] at h; simp at h
      | rule h h' => rw [ho] at h; simp at h
    | eps =>
      intro m ts f hm hw
      exact ⟨[], ts, [], f, [], m, rfl, rfl, .eps, Nat.le_refl _, hw⟩
    | tok ho =>
      intro m ts f hm hw
      cases hw with
      | stop hs => rw [hA.stops _ hs] at ho; cases ho
      | @atom _ _ _ x ts f h h' =>
        rw [ho] at h; simp at h
        obtain ⟨h, rfl⟩ := h
        exact ⟨[x], ts, [.leaf x], f, [], _, rfl, rfl, .tok (TokType.num_inj h), by omega, h'⟩
      | eps h h' => rw [ho] at h; simp at h
      | set h h' => rw [ho] at h; simp at h
      | rule h h' => rw [ho] at h; simp at h
    | set ho h0 hl =>
      intro m ts f hm hw
      cases hw with
      | stop hs => rw [hA.stops _ hs] at ho; cases ho
      | @set _ _ _ l x ts f h hi h' =>
        rw [ho] at h; simp at h
        obtain ⟨rfl, rfl⟩ := h
        obtain ⟨c, hc⟩ := (D_alts_toks h0 (ts := [x]) (f := [.leaf x])).2 ⟨x, (hl _).1 hi, rfl, rfl⟩
        exact ⟨[x], ts, [.leaf x], f, c, _, rfl, rfl, hc, by omega, h'⟩
      | eps h h' => rw [ho] at h; simp at h
      | atom h h' => rw [ho] at h; simp at h
      | rule h h' => rw [ho] at h; simp at h
    | @rule r s e ho =>
      intro m ts f hm hw
      cases hw with
      | stop hs => rw [hA.stops _ hs] at ho; cases ho
      | @rule a b _ _ _ r' us ts ks f h h' h'' =>
        rw [ho] at h; simp at h
        obtain ⟨rfl, h2, rfl⟩ := h
        obtain rfl := Rule.num_inj h2
        obtain ⟨e', he, hs⟩ := hA.rule r'
        obtain ⟨us', vs', f1, f2, c, k, h1, h2, h3, h4, h5⟩ := ihn a (by omega) hs (Nat.le_refl _) h'
        have hz : vs' = [] ∧ f2 = [] := by
          have ho' := hA.stops _ he
          cases h5 with
          | stop => exact ⟨rfl, rfl⟩
          | _ h => rw [ho'] at h; simp at h
        obtain ⟨rfl, rfl⟩ := hz
        rw [List.append_nil] at h1 h2
        subst h1 h2
        exact ⟨us, ts, _, f, c, _, rfl, rfl, .rule h3, by omega, h''⟩
      | eps h h' => rw [ho] at h; simp at h
      | atom h h' => rw [ho] at h; simp at h
      | set h h' => rw [ho] at h; simp at h
    | seq _ _ ih ih' =>
      intro m ts f hm hw
      obtain ⟨us, vs, f1, f2, c, k, h1, h2, h3, h4, h5⟩ := ih hm hw
      obtain ⟨us', vs', f1', f2', c', k', h1', h2', h3', h4', h5'⟩ := ih' (by omega) h5
      refine ⟨us ++ us', vs', f1 ++ f1', f2', c ++ c', k', ?_, ?_, .seq h3 h3', by omega, h5'⟩
      · rw [h1, h1']; simp
      · rw [h2, h2']; simp
    | @alt gs ss s e ho hl h0 _ ih =>
      intro m ts f hm hw
      cases hw with
      | stop hs =>
        rw [hA.stops _ hs] at ho
        have : ss = [] := by cases ss with | nil => rfl | cons => simp at ho
        subst this
        exact absurd (List.length_eq_zero_iff.1 hl) h0
      | eps h h' =>
        rw [ho] at h
        obtain ⟨t, ht, heq⟩ := List.mem_map.1 h
        cases heq
        obtain ⟨i, hi, ht⟩ := List.mem_iff_getElem.1 ht
        subst ht
        obtain ⟨us, vs, f1, f2, c, k, h1, h2, h3, h4, h5⟩ := ih i (by omega) hi (by omega) h'
        obtain ⟨c', h3'⟩ := (D_alts h0).2 ⟨i, by omega, c, h3⟩
        exact ⟨us, vs, f1, f2, c', k, h1, h2, h3', by omega, h5⟩
      | atom h h' => rw [ho] at h; simp at h
      | set h h' => rw [ho] at h; simp at h
      | rule h h' => rw [ho] at h; simp at h
    | @star a s b x ho _ ih =>
      intro m
      induction m using Nat.strongRecOn with
      | _ m ihm =>
        intro ts f hm hw
        cases hw with
        | stop hs => rw [hA.stops _ hs] at ho; cases ho
        | eps h h' =>
          rw [ho] at h
          simp at h
          rcases h with rfl | rfl
          · obtain ⟨us, vs, f1, f2, c, k, h1, h2, h3, h4, h5⟩ := ih (by omega) h'
            obtain ⟨us', vs', f1', f2', c', k', h1', h2', h3', h4', h5'⟩ := ihm k (by omega) (by omega) h5
            refine ⟨us ++ us', vs', f1 ++ f1', f2', _, k', ?_, ?_, .starCons h3 h3', by omega, h5'⟩
            · rw [h1, h1']; simp
            · rw [h2, h2']; simp
          · exact ⟨[], ts, [], f, _, _, rfl, rfl, .starNil, by omega, h'⟩
        | atom h h' => rw [ho] at h; simp at h
        | set h h' => rw [ho] at h; simp at h
        | rule h h' => rw [ho] at h; simp at h

/-- Paths through a segment: a derivation of its expression, then a path from its end. -/
theorem Seg.iff {A : Atn} (hA : Implements A) {g : G} {s e : Nat} (h : Seg A g s e) (ts : List Tok) (f : List PTree) :
    Walk A s ts f ↔ ∃ us vs f1 f2 c, ts = us ++ vs ∧ f = f1 ++ f2 ∧ D g us f1 c ∧ Walk A e vs f2 := by
  constructor
  · intro hw
    obtain ⟨n, hw⟩ := hw.toN
    obtain ⟨us, vs, f1, f2, c, k, h1, h2, h3, _, h5⟩ := h.split hA n (Nat.le_refl _) hw
    exact ⟨us, vs, f1, f2, c, h1, h2, h3, h5.toWalk⟩
  · rintro ⟨us, vs, f1, f2, c, rfl, rfl, hd, hw⟩
    obtain ⟨n, hd⟩ := hd.toDN
    exact h.walk hA n hd hw

/-- Paths through a rule are its derivations. -/
theorem Implements.iff {A : Atn} (hA : Implements A) (r : Rule) (ts : List Tok) (f : List PTree) :
    Walk A (A.start r) ts f ↔ ∃ c, D (body r) ts f c := by
  obtain ⟨e, he, hs⟩ := hA.rule r
  rw [hs.iff hA]
  have hstop : ∀ vs f2, Walk A e vs f2 ↔ vs = [] ∧ f2 = [] := by
    intro vs f2
    have ho := hA.stops _ he
    constructor
    · intro h
      cases h with
      | stop => exact ⟨rfl, rfl⟩
      | _ h => rw [ho] at h; simp at h
    · rintro ⟨rfl, rfl⟩; exact .stop he
  constructor
  · rintro ⟨us, vs, f1, f2, c, rfl, rfl, hd, hw⟩
    obtain ⟨rfl, rfl⟩ := (hstop _ _).1 hw
    exact ⟨c, by simpa using hd⟩
  · rintro ⟨c, hd⟩
    exact ⟨ts, [], f, [], c, by simp, by simp, hd, .stop he⟩

/-! ### The check -/

namespace Atn

/-- Follow single epsilon transitions. -/
def skip (A : Atn) : Nat → Nat → Nat
  | 0, s => s
  | n + 1, s =>
    match A.out s with
    | [.eps t] => A.skip n t
    | _ => s

/-- The alternatives of `g`, as `n` expressions. -/
def unalt : Nat → G → List G
  | n + 2, .alt a b => a :: unalt (n + 1) b
  | _, g => [g]

/-- The token types of an alternative of tokens. -/
def toks : G → Option (List TokType)
  | .tok t => some [t]
  | .alt (.tok t) b => (toks b).map (t :: ·)
  | _ => none

/-- All token types. -/
def allTypes : List TokType :=
  [.L_PAREN, .R_PAREN, .L_SQUARE_BRACKET, .R_SQUARE_BRACKET, .OR, .AND, .NOT, .FWD_SLASH, .L_CURLY_BRACKET,
   .R_CURLY_BRACKET, .Q_ONE_OR_MORE, .Q_ZERO_OR_MORE, .Q_ZERO_OR_ONE, .Q_COMMA, .OPERATOR_EQ, .OPERATOR_NE, .COLON,
   .WITHIN, .SIMPLE_WITHIN_SCOPE, .REGEXP_FLAGS, .IDENTIFIER, .INTEGER, .REGEXP, .QUOTED_STRING, .Space, .EOF]

/-- The targets, if all transitions are epsilon transitions. -/
def epsTargets : List Trans → Option (List Nat)
  | [] => some []
  | .eps t :: ts => (epsTargets ts).map (t :: ·)
  | _ => none

/-- Where the segment of `g` that starts at `s` ends, if it is one. -/
def segEnd (A : Atn) : Nat → G → Nat → Option Nat
  | 0, _, _ => none
  | _ + 1, .eps, s => some (A.skip 9 s)
  | n + 1, .seq a b, s =>
    match A.segEnd n a s with
    | some m => A.segEnd n b m
    | none => none
  | _ + 1, .tok t, s =>
    match A.out (A.skip 9 s) with
    | [.atom k e] => if k = t.num then some (A.skip 9 e) else none
    | _ => none
  | _ + 1, .rule r, s =>
    match A.out (A.skip 9 s) with
    | [.rule st i e] => if st = A.start r ∧ i = r.num then some (A.skip 9 e) else none
    | _ => none
  | n + 1, .star a, s =>
    match A.out (A.skip 9 s) with
    | [.eps b, .eps x] => if A.segEnd n a b = some (A.skip 9 s) then some (A.skip 9 x) else none
    | _ => none
  | n + 1, .alt a b, s =>
    match A.out (A.skip 9 s) with
    | [.set l e] =>
      match toks (.alt a b) with
      | some ks => if allTypes.all fun t => (l.any fun p => p.1 ≤ t.num && t.num ≤ p.2) == ks.contains t
          then some (A.skip 9 e) else none
      | none => none
    | ts =>
      match epsTargets ts with
      | none => none
      | some ss =>
        if (unalt ss.length (.alt a b)).length = ss.length then
          match (unalt ss.length (.alt a b)).zip ss with
          | [] => none
          | p :: rest =>
            match A.segEnd n p.1 p.2 with
            | none => none
            | some e => if rest.all fun p => A.segEnd n p.1 p.2 = some e then some e else none
        else none

/-- The check for all rules. -/
def implements (A : Atn) : Bool :=
  A.stopsEnd && [Rule.query, .main_query, .query_disjunction, .query_sequence, .query_group, .query_simple,
    .quantifier, .query_implicit, .query_segment, .within_part, .within_part_simple, .expression, .expression_or,
    .expression_and, .expression_group, .expression_not, .expression_basic, .attribute_, .qualifier, .identifier,
    .regexp, .regexp_pattern, .regexp_flag].all fun r =>
      match A.segEnd 30 (body r) (A.start r) with
      | some e => A.isStop e
      | none => false

end Atn

/-! ### Soundness of the check -/

theorem Atn.skip_pre {A : Atn} {g : G} {e : Nat} (n : Nat) {s : Nat} (h : Seg A g (A.skip n s) e) : Seg A g s e := by
  induction n generalizing s with
  | zero => exact h
  | succ n ih =>
    unfold Atn.skip at h
    split at h
    · rename_i t ht
      exact .pre ht (ih h)
    · exact h

theorem Atn.skip_post {A : Atn} {g : G} {s : Nat} (n : Nat) {e : Nat} (h : Seg A g s e) : Seg A g s (A.skip n e) := by
  induction n generalizing e with
  | zero => exact h
  | succ n ih =>
    unfold Atn.skip
    split
    · rename_i t ht
      exact ih (.post h ht)
    · exact h

theorem Atn.alts_unalt (n : Nat) (g : G) : G.alts (Atn.unalt n g) = g ∧ Atn.unalt n g ≠ [] := by
  induction n generalizing g with
  | zero => unfold Atn.unalt; exact ⟨rfl, by simp⟩
  | succ n ih =>
    cases n with
    | zero => cases g <;> exact ⟨rfl, by simp [Atn.unalt]⟩
    | succ n =>
      cases g with
      | alt a b =>
        obtain ⟨h1, h2⟩ := ih b
        refine ⟨?_, by simp [Atn.unalt]⟩
        rw [Atn.unalt]
        cases hu : Atn.unalt (n + 1) b with
        | nil => exact absurd hu h2
        | cons x xs => rw [G.alts_cons, ← hu, h1]
      | _ => exact ⟨rfl, by simp [Atn.unalt]⟩

theorem Atn.toks_eq {g : G} {ks : List TokType} (h : Atn.toks g = some ks) : G.alts (ks.map .tok) = g ∧ ks ≠ [] := by
  fun_induction Atn.toks g generalizing ks with
  | case1 t => cases h; exact ⟨rfl, by simp⟩
  | case2 t b ih =>
    cases hb : Atn.toks b with
    | none => rw [hb] at h; cases h
    | some ks' =>
      rw [hb] at h
      simp at h
      subst h
      obtain ⟨h1, h2⟩ := ih hb
      refine ⟨?_, by simp⟩
      cases ks' with
      | nil => exact absurd rfl h2
      | cons x xs => rw [List.map_cons, List.map_cons, G.alts_cons, ← List.map_cons, h1]
  | case3 => cases h

theorem Atn.mem_allTypes (t : TokType) : t ∈ Atn.allTypes := by cases t <;> decide

theorem Atn.epsTargets_eq {ts : List Trans} {ss : List Nat} (h : Atn.epsTargets ts = some ss) : ts = ss.map .eps := by
  induction ts generalizing ss with
  | nil => cases h; rfl
  | cons t ts ih =>
    cases t with
    | eps t =>
      cases hb : Atn.epsTargets ts with
      | none => simp [Atn.epsTargets, hb] at h
      | some ks' =>
        simp [Atn.epsTargets, hb] at h
        subst h
        simp [← ih hb]
    | _ => simp [Atn.epsTargets] at h

theorem Atn.segEnd_sound {A : Atn} (n : Nat) {g : G} {s e : Nat} (h : A.segEnd n g s = some e) : Seg A g s e := by
  induction n generalizing g s e with
  | zero => simp [Atn.segEnd] at h
  | succ n ih =>
    cases g with
    | eps =>
      simp only [Atn.segEnd, Option.some.injEq] at h
      subst h
      exact Atn.skip_post 9 .eps
    | tok t =>
      simp only [Atn.segEnd] at h
      split at h
      · rename_i k e' ho
        split at h
        · rename_i hk
          subst hk
          cases h
          exact Atn.skip_pre 9 (Atn.skip_post 9 (.tok ho))
        · cases h
      · cases h
    | rule r =>
      simp only [Atn.segEnd] at h
      split at h
      · rename_i k i e' ho
        split at h
        · rename_i hk
          obtain ⟨rfl, rfl⟩ := hk
          cases h
          exact Atn.skip_pre 9 (Atn.skip_post 9 (.rule ho))
        · cases h
      · cases h
    | seq a b =>
      simp only [Atn.segEnd] at h
      split at h
      · rename_i m hm
        exact .seq (ih hm) (ih h)
      · cases h
    | star a =>
      simp only [Atn.segEnd] at h
      split at h
      · rename_i b x ho
        split at h
        · rename_i hk
          cases h
          exact Atn.skip_pre 9 (Atn.skip_post 9 (.star ho (ih hk)))
        · cases h
      · cases h
    | alt a b =>
      simp only [Atn.segEnd] at h
      split at h
      · rename_i l e' ho
        split at h
        · rename_i ks hk
          split at h
          · rename_i hall
            cases h
            obtain ⟨h1, h2⟩ := Atn.toks_eq hk
            rw [← h1]
            refine Atn.skip_pre 9 (Atn.skip_post 9 (.set ho h2 ?_))
            intro t
            have := List.all_eq_true.1 hall t (Atn.mem_allTypes t)
            simp only [beq_iff_eq] at this
            constructor
            · rintro ⟨p, hp, h1, h2⟩
              have h3 : (l.any fun p => decide (p.1 ≤ t.num) && decide (t.num ≤ p.2)) = true :=
                List.any_eq_true.2 ⟨p, hp, by simp [h1, h2]⟩
              rw [h3] at this
              simpa using this.symm
            · intro ht
              have h3 : (l.any fun p => decide (p.1 ≤ t.num) && decide (t.num ≤ p.2)) = true := by
                rw [this]; simpa using ht
              obtain ⟨p, hp, hx⟩ := List.any_eq_true.1 h3
              simp at hx
              exact ⟨p, hp, hx⟩
          · cases h
        · cases h
      · split at h
        · cases h
        · rename_i ss hss
          split at h
          · rename_i hlen
            split at h
            · cases h
            · rename_i p rest hz
              split at h
              · cases h
              · rename_i e' he
                split at h
                · rename_i hall
                  cases h
                  have ho := Atn.epsTargets_eq hss
                  obtain ⟨h1, h2⟩ := Atn.alts_unalt ss.length (.alt a b)
                  rw [← h1]
                  refine Atn.skip_pre 9 (.alt ho hlen h2 ?_)
                  intro i hi hi'
                  apply ih
                  have hmem : ((Atn.unalt ss.length (.alt a b))[i], ss[i]) ∈
                      (Atn.unalt ss.length (.alt a b)).zip ss := by
                    rw [List.mem_iff_getElem]
                    exact ⟨i, by simp; omega, by simp⟩
                  rw [hz] at hmem
                  rcases List.mem_cons.1 hmem with hm | hm
                  · subst hm; exact he
                  · simpa using List.all_eq_true.1 hall _ hm
                · cases h
          · cases h

theorem Atn.implements_sound {A : Atn} (h : A.implements = true) : Implements A := by
  unfold Atn.implements at h
  rw [Bool.and_eq_true] at h
  refine ⟨Atn.stopsEnd_iff h.1, fun r => ?_⟩
  have := List.all_eq_true.1 h.2 r (by cases r <;> decide)
  revert this
  split
  · rename_i e he
    exact fun hs => ⟨e, hs, Atn.segEnd_sound _ he⟩
  · intro h; cases h

end Fcsql
