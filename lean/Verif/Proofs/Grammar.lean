/-
The ordered backtracking parser `run` against derivations: sound, complete, ordered.
-/
import Verif.Spec.Derivation

set_option autoImplicit false

namespace Fcsql

/-! ### Inversion -/

theorem D_eps {ts : List Tok} {f : List PTree} {c : List Bool} :
    D .eps ts f c ↔ ts = [] ∧ f = [] ∧ c = [] :=
  ⟨fun h => by cases h; exact ⟨rfl, rfl, rfl⟩, fun ⟨a, b, c⟩ => by subst a b c; exact .eps⟩

theorem D_tok {t : TokType} {ts : List Tok} {f : List PTree} {c : List Bool} :
    D (.tok t) ts f c ↔ ∃ x, x.type = t ∧ ts = [x] ∧ f = [.leaf x] ∧ c = [] :=
  ⟨fun h => by cases h with | tok h => exact ⟨_, h, rfl, rfl, rfl⟩,
   fun ⟨x, h, a, b, c⟩ => by subst a b c; exact .tok h⟩

theorem D_rule {r : Rule} {ts : List Tok} {f : List PTree} {c : List Bool} :
    D (.rule r) ts f c ↔ ∃ f', D (body r) ts f' c ∧ f = [.node r f'] :=
  ⟨fun h => by cases h with | rule h => exact ⟨_, h, rfl⟩,
   fun ⟨f', h, a⟩ => by subst a; exact .rule h⟩

theorem D_seq {a b : G} {ts : List Tok} {f : List PTree} {c : List Bool} :
    D (.seq a b) ts f c ↔ ∃ ta tb fa fb ca cb,
      ts = ta ++ tb ∧ f = fa ++ fb ∧ c = ca ++ cb ∧ D a ta fa ca ∧ D b tb fb cb :=
  ⟨fun h => by cases h with | seq h h' => exact ⟨_, _, _, _, _, _, rfl, rfl, rfl, h, h'⟩,
   fun ⟨_, _, _, _, _, _, x, y, z, h, h'⟩ => by subst x y z; exact .seq h h'⟩

theorem D_alt {a b : G} {ts : List Tok} {f : List PTree} {c : List Bool} :
    D (.alt a b) ts f c ↔
      (∃ c', c = false :: c' ∧ D a ts f c') ∨ (∃ c', c = true :: c' ∧ D b ts f c') :=
  ⟨fun h => by
    cases h with
    | altL h => exact .inl ⟨_, rfl, h⟩
    | altR h => exact .inr ⟨_, rfl, h⟩,
   fun h => by
    rcases h with ⟨c', rfl, h⟩ | ⟨c', rfl, h⟩
    · exact .altL h
    · exact .altR h⟩

theorem D_star {a : G} {ts : List Tok} {f : List PTree} {c : List Bool} :
    D (.star a) ts f c ↔ (ts = [] ∧ f = [] ∧ c = [true]) ∨
      ∃ ta tb fa fb ca cb, ts = ta ++ tb ∧ f = fa ++ fb ∧ c = false :: (ca ++ cb) ∧
        D a ta fa ca ∧ D (.star a) tb fb cb :=
  ⟨fun h => by
    cases h with
    | starNil => exact .inl ⟨rfl, rfl, rfl⟩
    | starCons h h' => exact .inr ⟨_, _, _, _, _, _, rfl, rfl, rfl, h, h'⟩,
   fun h => by
    rcases h with ⟨x, y, z⟩ | ⟨_, _, _, _, _, _, x, y, z, h, h'⟩
    · subst x y z; exact .starNil
    · subst x y z; exact .starCons h h'⟩

/-! ### Soundness -/

theorem run_sound (fuel : Nat) (g : G) (ts : List Tok) (s : Succ) (h : s ∈ run fuel g ts) :
    ∃ pre, ts = pre ++ s.rest ∧ D g pre s.forest s.choices := by
  induction fuel generalizing g ts s with
  | zero => simp [run] at h
  | succ fuel ih =>
    cases g with
    | eps =>
      simp [run] at h
      subst h
      exact ⟨[], rfl, .eps⟩
    | tok t =>
      cases ts with
      | nil => simp [run] at h
      | cons x xs =>
        simp only [run] at h
        split at h
        · simp at h
          subst h
          exact ⟨[x], rfl, .tok (by assumption)⟩
        · simp at h
    | rule r =>
      simp only [run, List.mem_map] at h
      obtain ⟨s', h', rfl⟩ := h
      obtain ⟨pre, e, hd⟩ := ih _ _ _ h'
      exact ⟨pre, e, .rule hd⟩
    | seq a b =>
      simp only [run, List.mem_flatMap, List.mem_map] at h
      obtain ⟨s1, h1, s2, h2, rfl⟩ := h
      obtain ⟨p1, e1, d1⟩ := ih _ _ _ h1
      obtain ⟨p2, e2, d2⟩ := ih _ _ _ h2
      exact ⟨p1 ++ p2, by simp [e1, e2], .seq d1 d2⟩
    | alt a b =>
      simp only [run, List.mem_append, List.mem_map] at h
      rcases h with ⟨s1, h1, rfl⟩ | ⟨s1, h1, rfl⟩
      · obtain ⟨p1, e1, d1⟩ := ih _ _ _ h1
        exact ⟨p1, e1, .altL d1⟩
      · obtain ⟨p1, e1, d1⟩ := ih _ _ _ h1
        exact ⟨p1, e1, .altR d1⟩
    | star a =>
      simp only [run, List.mem_append, List.mem_map, List.mem_singleton] at h
      rcases h with ⟨s1, h1, rfl⟩ | rfl
      · obtain ⟨p1, e1, d1⟩ := ih _ _ _ h1
        rw [D_seq] at d1
        obtain ⟨ta, tb, fa, fb, ca, cb, hts, hf, hc, da, db⟩ := d1
        refine ⟨p1, e1, ?_⟩
        simp only [hts, hf, hc]
        exact .starCons da db
      · exact ⟨[], rfl, .starNil⟩

/-! ### Completeness -/

/-- Can the expression derive the empty token list? (no rule of the grammar can) -/
def G.nullable : G → Bool
  | .eps => true
  | .tok _ => false
  | .rule _ => false
  | .seq a b => nullable a && nullable b
  | .alt a b => nullable a || nullable b
  | .star _ => true

theorem body_not_nullable (r : Rule) : (body r).nullable = false := by cases r <;> decide

theorem nullable_of_D {g : G} {ts : List Tok} {f : List PTree} {c : List Bool}
    (h : D g ts f c) (hts : ts = []) : g.nullable = true := by
  induction h with
  | eps => rfl
  | tok => cases hts
  | @rule r _ _ _ _ ih => rw [body_not_nullable r] at ih; exact absurd (ih hts) (by simp)
  | seq _ _ ih ih' =>
    simp at hts
    simp [G.nullable, ih hts.1, ih' hts.2]
  | altL _ ih => simp [G.nullable, ih hts]
  | altR _ ih => simp [G.nullable, ih hts]
  | starNil => rfl
  | starCons => rfl

/-- A bound on the depth needed by a rule before it consumes its first token. -/
def ruleRank : Rule → Nat
  | .query => 80 | .main_query => 70 | .query_disjunction => 60 | .query_sequence => 50
  | .query_group => 20 | .query_simple => 40 | .quantifier => 10 | .query_implicit => 30
  | .query_segment => 10 | .within_part => 10 | .within_part_simple => 5 | .expression => 60
  | .expression_or => 50 | .expression_and => 40 | .expression_group => 10 | .expression_not => 10
  | .expression_basic => 30 | .attribute_ => 20 | .qualifier => 10 | .identifier => 10
  | .regexp => 20 | .regexp_pattern => 10 | .regexp_flag => 10

/-- A bound on the depth needed by an expression before it consumes its first token. -/
def G.rank : G → Nat
  | .eps => 1
  | .tok _ => 1
  | .rule r => ruleRank r
  | .seq a b => 1 + max a.rank (if a.nullable then b.rank else 0)
  | .alt a b => 1 + max a.rank b.rank
  | .star a => 2 + a.rank

theorem body_rank (r : Rule) : (body r).rank + 1 ≤ ruleRank r := by cases r <;> decide

/-- All expressions that occur in the grammar (closed under subexpressions) have small rank and
non-nullable loop bodies. -/
def G.ok : G → Bool
  | .eps => true
  | .tok _ => true
  | .rule _ => true
  | .seq a b => a.ok && b.ok && (b.rank ≤ 90)
  | .alt a b => a.ok && b.ok
  | .star a => a.ok && !a.nullable && (a.rank ≤ 85)

theorem body_ok (r : Rule) : (body r).ok = true := by cases r <;> decide

theorem run_complete {g : G} {ts : List Tok} {f : List PTree} {c : List Bool} (h : D g ts f c)
    (hok : g.ok = true) (rest : List Tok) (fuel : Nat) (hf : 100 * ts.length + g.rank ≤ fuel) :
    (⟨c, f, rest⟩ : Succ) ∈ run fuel g (ts ++ rest) := by
  induction h generalizing rest fuel with
  | eps =>
    cases fuel with
    | zero => simp [G.rank] at hf
    | succ fuel => simp [run]
  | @tok t x hx =>
    cases fuel with
    | zero => simp [G.rank] at hf
    | succ fuel => simp [run, hx]
  | @rule r ts f c _ ih =>
    have hr := body_rank r
    simp only [G.rank] at hf
    cases fuel with
    | zero => omega
    | succ fuel =>
      simp only [run, List.mem_map]
      exact ⟨_, ih (body_ok r) rest fuel (by omega), rfl⟩
  | @seq a b ts ts' f f' c c' ha _ iha ihb =>
    simp only [G.ok, Bool.and_eq_true, decide_eq_true_eq] at hok
    simp only [G.rank, List.length_append] at hf
    cases fuel with
    | zero => omega
    | succ fuel =>
      simp only [run, List.mem_flatMap, List.mem_map]
      refine ⟨⟨c, f, ts' ++ rest⟩, ?_, ⟨c', f', rest⟩, ?_, rfl⟩
      · rw [List.append_assoc]
        exact iha hok.1.1 (ts' ++ rest) fuel (by omega)
      · refine ihb hok.1.2 rest fuel ?_
        by_cases hne : ts = []
        · have := nullable_of_D ha hne
          simp only [this, if_true, hne, List.length_nil] at hf
          omega
        · have := List.length_pos_iff.2 hne
          omega
  | altL _ ih =>
    simp only [G.ok, Bool.and_eq_true] at hok
    simp only [G.rank] at hf
    cases fuel with
    | zero => omega
    | succ fuel =>
      simp only [run, List.mem_append, List.mem_map]
      exact .inl ⟨_, ih hok.1 rest fuel (by omega), rfl⟩
  | altR _ ih =>
    simp only [G.ok, Bool.and_eq_true] at hok
    simp only [G.rank] at hf
    cases fuel with
    | zero => omega
    | succ fuel =>
      simp only [run, List.mem_append, List.mem_map]
      exact .inr ⟨_, ih hok.2 rest fuel (by omega), rfl⟩
  | starNil =>
    cases fuel with
    | zero => simp [G.rank] at hf
    | succ fuel => simp [run]
  | @starCons a ts ts' f f' c c' ha _ iha ihb =>
    have hok' := hok
    simp only [G.ok, Bool.and_eq_true, decide_eq_true_eq, Bool.not_eq_true'] at hok
    simp only [G.rank, List.length_append] at hf
    have hpos : 0 < ts.length := by
      rcases Nat.eq_zero_or_pos ts.length with h0 | h0
      · have := nullable_of_D ha (List.length_eq_zero_iff.1 h0)
        rw [hok.1.2] at this
        cases this
      · exact h0
    obtain ⟨fuel, rfl⟩ : ∃ k, fuel = k + 2 := ⟨fuel - 2, by omega⟩
    simp only [run, List.mem_append, List.mem_map, List.mem_flatMap]
    refine .inl ⟨⟨c ++ c', f ++ f', rest⟩, ⟨⟨c, f, ts' ++ rest⟩, ?_, ⟨c', f', rest⟩, ?_, rfl⟩, rfl⟩
    · rw [List.append_assoc]
      exact iha hok.1.1 (ts' ++ rest) fuel (by omega)
    · refine ihb hok' rest fuel ?_
      simp only [G.rank]
      omega

/-! ### Order -/

theorem Before.cons {x : Bool} {c c' : List Bool} (h : Before c c') : Before (x :: c) (x :: c') := by
  obtain ⟨p, a, b, rfl, rfl⟩ := h
  exact ⟨x :: p, a, b, rfl, rfl⟩

theorem Before.append_left {p c c' : List Bool} (h : Before c c') : Before (p ++ c) (p ++ c') := by
  obtain ⟨q, a, b, rfl, rfl⟩ := h
  exact ⟨p ++ q, a, b, by simp, by simp⟩

theorem Before.append_right {c c' x y : List Bool} (h : Before c c') : Before (c ++ x) (c' ++ y) := by
  obtain ⟨q, a, b, rfl, rfl⟩ := h
  exact ⟨q, a ++ x, b ++ y, by simp, by simp⟩

theorem before_false_true {c c' : List Bool} : Before (false :: c) (true :: c') := ⟨[], c, c', rfl, rfl⟩

theorem Before.irrefl {c : List Bool} : ¬ Before c c := by
  rintro ⟨p, a, b, h, h'⟩
  rw [h] at h'
  have := List.append_cancel_left h'
  cases this

theorem Before.asymm {c c' : List Bool} (h : Before c c') (h' : Before c' c) : False := by
  obtain ⟨p, a, b, rfl, rfl⟩ := h
  obtain ⟨q, x, y, e, e'⟩ := h'
  induction p generalizing q with
  | nil =>
    cases q with
    | nil => simp at e
    | cons z q => simp only [List.nil_append, List.cons_append, List.cons.injEq] at e e'; exact absurd (e'.1.trans e.1.symm) (by simp)
  | cons w p ih =>
    cases q with
    | nil => simp at e e'; exact absurd (e.1.symm.trans e'.1) (by simp)
    | cons z q =>
      simp at e e'
      exact ih q e.2 e'.2

theorem run_pairwise (fuel : Nat) (g : G) (ts : List Tok) :
    (run fuel g ts).Pairwise fun s s' => Before s.choices s'.choices := by
  induction fuel generalizing g ts with
  | zero => simp [run]
  | succ fuel ih =>
    cases g with
    | eps => simp [run]
    | tok t =>
      cases ts with
      | nil => simp [run]
      | cons x xs => simp only [run]; split <;> simp
    | rule r =>
      simp only [run, List.pairwise_map]
      exact ih _ _
    | seq a b =>
      simp only [run, List.pairwise_flatMap, List.pairwise_map]
      refine ⟨?_, ?_⟩
      · intro s _
        exact (ih b s.rest).imp fun h => h.append_left
      · refine (ih a ts).imp ?_
        intro s s' h x hx y hy
        simp only [List.mem_map] at hx hy
        obtain ⟨u, _, rfl⟩ := hx
        obtain ⟨v, _, rfl⟩ := hy
        exact h.append_right
    | alt a b =>
      simp only [run, List.pairwise_append, List.pairwise_map]
      refine ⟨(ih a ts).imp fun h => h.cons, (ih b ts).imp fun h => h.cons, ?_⟩
      intro x hx y hy
      simp only [List.mem_map] at hx hy
      obtain ⟨u, _, rfl⟩ := hx
      obtain ⟨v, _, rfl⟩ := hy
      exact before_false_true
    | star a =>
      simp only [run, List.pairwise_append, List.pairwise_map]
      refine ⟨(ih _ ts).imp fun h => h.cons, by simp, ?_⟩
      intro x hx y hy
      simp only [List.mem_map, List.mem_singleton] at hx hy
      obtain ⟨u, _, rfl⟩ := hx
      subst hy
      exact before_false_true

/-- The decisions (and the tokens) determine the derivation. -/
theorem D_unique {g : G} {ts ts' : List Tok} {f f' : List PTree} {c c' x y : List Bool}
    {r r' : List Tok} (h : D g ts f c) (h' : D g ts' f' c')
    (hc : c ++ x = c' ++ y) (ht : ts ++ r = ts' ++ r') : ts = ts' ∧ f = f' ∧ c = c' := by
  induction h generalizing ts' f' c' x y r r' with
  | eps => cases h'; exact ⟨rfl, rfl, rfl⟩
  | tok _ =>
    cases h' with
    | tok _ => simp at ht; rw [ht.1]; exact ⟨rfl, rfl, rfl⟩
  | rule _ ih =>
    cases h' with
    | rule h' =>
      obtain ⟨h1, h2, h3⟩ := ih h' hc ht
      exact ⟨h1, by rw [h2], h3⟩
  | seq _ _ iha ihb =>
    cases h' with
    | seq ha' hb' =>
      simp only [List.append_assoc] at hc ht
      obtain ⟨h1, h2, h3⟩ := iha ha' hc ht
      subst h1 h2 h3
      obtain ⟨h1, h2, h3⟩ := ihb hb' (List.append_cancel_left hc) (List.append_cancel_left ht)
      subst h1 h2 h3
      exact ⟨rfl, rfl, rfl⟩
  | altL _ ih =>
    cases h' with
    | altL h' =>
      simp only [List.cons_append, List.cons.injEq, true_and] at hc
      obtain ⟨h1, h2, h3⟩ := ih h' hc ht
      exact ⟨h1, h2, by rw [h3]⟩
    | altR h' => simp at hc
  | altR _ ih =>
    cases h' with
    | altL h' => simp at hc
    | altR h' =>
      simp only [List.cons_append, List.cons.injEq, true_and] at hc
      obtain ⟨h1, h2, h3⟩ := ih h' hc ht
      exact ⟨h1, h2, by rw [h3]⟩
  | starNil =>
    cases h' with
    | starNil => exact ⟨rfl, rfl, rfl⟩
    | starCons _ _ => simp at hc
  | starCons _ _ iha ihb =>
    cases h' with
    | starNil => simp at hc
    | starCons ha' hb' =>
      simp only [List.append_assoc, List.cons_append, List.cons.injEq, true_and] at hc ht
      obtain ⟨h1, h2, h3⟩ := iha ha' hc ht
      subst h1 h2 h3
      obtain ⟨h1, h2, h3⟩ := ihb hb' (List.append_cancel_left hc) (List.append_cancel_left ht)
      subst h1 h2 h3
      exact ⟨rfl, rfl, rfl⟩

theorem Chosen.unique {g : G} {ts : List Tok} {f f' : List PTree} {c c' : List Bool}
    (h : Chosen g ts f c) (h' : Chosen g ts f' c') : f = f' ∧ c = c' := by
  rcases h.first _ _ h'.derives with ⟨h1, h2⟩ | hb
  · exact ⟨h1.symm, h2.symm⟩
  · rcases h'.first _ _ h.derives with h3 | hb'
    · exact h3
    · exact (hb.asymm hb').elim

/-! ### The parser -/

theorem query_rank (n : Nat) : 100 * n + (G.rule .query).rank ≤ parseFuel n := by
  simp only [G.rank, ruleRank, parseFuel]; omega

theorem find_first_of_pairwise {α : Type} {R : α → α → Prop} {p : α → Bool} {l : List α} {a : α}
    (hp : l.Pairwise R) (h : l.find? p = some a) : a ∈ l ∧ p a = true ∧ ∀ b ∈ l, p b = true → b = a ∨ R a b := by
  induction l with
  | nil => simp at h
  | cons x xs ih =>
    rw [List.pairwise_cons] at hp
    rw [List.find?_cons] at h
    split at h
    · rename_i hx
      cases h
      refine ⟨List.mem_cons_self, hx, ?_⟩
      intro b hb _
      rcases List.mem_cons.1 hb with rfl | hb
      · exact .inl rfl
      · exact .inr (hp.1 b hb)
    · rename_i hx
      obtain ⟨h1, h2, h3⟩ := ih hp.2 h
      refine ⟨List.mem_cons_of_mem _ h1, h2, ?_⟩
      intro b hb hpb
      rcases List.mem_cons.1 hb with rfl | hb
      · rw [hx] at hpb; cases hpb
      · exact h3 b hb hpb

/-- The parser returns exactly the chosen derivation. -/
theorem parseTokens_some (ts : List Tok) (t : PTree) :
    parseTokens ts = some t ↔ ∃ c, Chosen (.rule .query) ts [t] c := by
  constructor
  · intro h
    unfold parseTokens at h
    split at h
    · rename_i s hs
      obtain ⟨hm, hr, hfirst⟩ := find_first_of_pairwise (run_pairwise _ _ _) hs
      obtain ⟨pre, e, hd⟩ := run_sound _ _ _ _ hm
      have hrest : s.rest = [] := by simpa using hr
      rw [hrest, List.append_nil] at e
      subst e
      obtain ⟨f', hd', hf⟩ := D_rule.1 hd
      rw [hf] at h
      simp only [List.head?_cons, Option.some.injEq] at h
      subst h
      refine ⟨s.choices, hf ▸ hd, ?_⟩
      intro f2 c2 h2
      have hm2 := run_complete h2 rfl [] _ (query_rank ts.length)
      rw [List.append_nil] at hm2
      rcases hfirst _ hm2 rfl with h3 | h3
      · rw [← h3, ← hf, ← h3]
        exact .inl ⟨rfl, rfl⟩
      · exact .inr h3
    · cases h
  · rintro ⟨c, hch⟩
    have hm := run_complete hch.derives rfl [] _ (query_rank ts.length)
    rw [List.append_nil] at hm
    unfold parseTokens
    split
    · rename_i s hs
      obtain ⟨hm2, hr, hfirst⟩ := find_first_of_pairwise (run_pairwise _ _ _) hs
      obtain ⟨pre, e, hd⟩ := run_sound _ _ _ _ hm2
      have hrest : s.rest = [] := by simpa using hr
      rw [hrest, List.append_nil] at e
      subst e
      rcases hfirst _ hm rfl with h3 | h3
      · rw [← h3]; rfl
      · rcases hch.first _ _ hd with ⟨h4, _⟩ | h4
        · rw [h4]; rfl
        · exact (h3.asymm h4).elim
    · rename_i hs
      rw [List.find?_eq_none] at hs
      exact absurd rfl (hs _ hm)

theorem parseTokens_none (ts : List Tok) : parseTokens ts = none ↔ ¬ Grammatical ts := by
  constructor
  · rintro h ⟨f, c, hd⟩
    have hm := run_complete hd rfl [] _ (query_rank ts.length)
    rw [List.append_nil] at hm
    unfold parseTokens at h
    split at h
    · rename_i s hs
      obtain ⟨pre, e, hd'⟩ := run_sound _ _ _ _ (List.mem_of_find?_eq_some hs)
      obtain ⟨f', _, hf⟩ := D_rule.1 hd'
      rw [hf] at h
      cases h
    · rename_i hs
      rw [List.find?_eq_none] at hs
      exact absurd rfl (hs _ hm)
  · intro h
    cases hp : parseTokens ts with
    | none => rfl
    | some t =>
      obtain ⟨c, hc⟩ := (parseTokens_some ts t).1 hp
      exact absurd ⟨_, _, hc.derives⟩ h

theorem grammatical_iff (ts : List Tok) : Grammatical ts ↔ ∃ t, parseTokens ts = some t := by
  constructor
  · intro h
    cases hp : parseTokens ts with
    | none => exact absurd h ((parseTokens_none ts).1 hp)
    | some t => exact ⟨t, rfl⟩
  · rintro ⟨t, h⟩
    obtain ⟨c, hc⟩ := (parseTokens_some ts t).1 h
    exact ⟨_, _, hc.derives⟩

end Fcsql
