/-
The first error is reported at the first token that cannot go on with what was read before it.
-/
import Verif.Spec.FirstError
import Verif.Proofs.GenParser
import Verif.Proofs.Recovery

set_option autoImplicit false
set_option linter.unusedSimpArgs false

namespace Fcsql

/-! ### Every expression derives something -/

/-- The rules used by the derivation that always takes the first alternative and repeats nothing. -/
def G.leftRules : G → List Rule
  | .eps => []
  | .tok _ => []
  | .rule r => [r]
  | .seq a b => a.leftRules ++ b.leftRules
  | .alt a _ => a.leftRules
  | .star _ => []

def Productive (g : G) : Prop := ∃ us f c, D g us f c

theorem productive_of_left {g : G} (h : ∀ r ∈ g.leftRules, Productive (.rule r)) : Productive g := by
  induction g with
  | eps => exact ⟨_, _, _, .eps⟩
  | tok t => exact ⟨[⟨t, [], 0, 0⟩], _, _, .tok rfl⟩
  | rule r => exact h r (by simp [G.leftRules])
  | seq a b iha ihb =>
    obtain ⟨_, _, _, ha⟩ := iha fun r hr => h r (by simp [G.leftRules, hr])
    obtain ⟨_, _, _, hb⟩ := ihb fun r hr => h r (by simp [G.leftRules, hr])
    exact ⟨_, _, _, .seq ha hb⟩
  | alt a b iha _ =>
    obtain ⟨_, _, _, ha⟩ := iha h
    exact ⟨_, _, _, .altL ha⟩
  | star a _ => exact ⟨_, _, _, .starNil⟩

theorem productive_rule {r : Rule} (l : List Rule) (hl : (body r).leftRules ⊆ l) (h : ∀ r' ∈ l, Productive (.rule r')) :
    Productive (.rule r) := by
  obtain ⟨_, _, _, hd⟩ := productive_of_left (g := body r) fun r' hr => h r' (hl hr)
  exact ⟨_, _, _, .rule hd⟩

/-- The rules, each after those its first derivation uses. -/
def rulesInOrder : List Rule :=
  [.regexp_flag, .regexp_pattern, .regexp, .identifier, .qualifier, .attribute_, .expression_basic, .expression_not,
    .expression_group, .expression_and, .expression_or, .expression, .within_part_simple, .within_part, .query_segment,
    .query_implicit, .quantifier, .query_simple, .query_disjunction, .query_group, .query_sequence, .main_query, .query]

def orderedFrom : List Rule → List Rule → Bool
  | _, [] => true
  | before, r :: rs => (body r).leftRules.all (before.contains ·) && orderedFrom (r :: before) rs

theorem productive_ordered {rs before : List Rule} (ho : orderedFrom before rs = true)
    (h : ∀ r ∈ before, Productive (.rule r)) : ∀ r ∈ rs, Productive (.rule r) := by
  induction rs generalizing before with
  | nil => simp
  | cons r rs ih =>
    simp only [orderedFrom, Bool.and_eq_true, List.all_eq_true, List.contains_iff_mem] at ho
    have hr : Productive (.rule r) := productive_rule before (fun r' h' => ho.1 r' h') h
    intro r' h'
    rcases List.mem_cons.1 h' with rfl | h'
    · exact hr
    · refine ih ho.2 ?_ r' h'
      intro r'' h''
      rcases List.mem_cons.1 h'' with rfl | h''
      · exact hr
      · exact h r'' h''

theorem productive (g : G) : Productive g :=
  productive_of_left fun r _ => productive_ordered (rs := rulesInOrder) (before := []) (by decide) (by simp) r (by cases r <;> decide)

/-! ### Going on from a state -/

/-- From state `s`, called from `ctx`, the tokens `us` can be consumed, and then something to the end. -/
def CanRead (A : Atn) (s : Nat) (ctx : List Nat) (us : List Tok) : Prop := ∃ ws, Accepts A s ctx (us ++ ws)

section
variable {A : Atn}

theorem CanRead.nil {s : Nat} {ctx us : List _} (h : CanRead A s ctx us) : CanRead A s ctx [] := by
  obtain ⟨ws, h⟩ := h
  exact ⟨us ++ ws, h⟩

theorem CanRead.eps {s t : Nat} {ctx : List Nat} {us : List Tok} (ho : .eps t ∈ A.out s) (h : CanRead A t ctx us) : CanRead A s ctx us := by
  obtain ⟨ws, h⟩ := h
  refine ⟨ws, ?_⟩
  generalize us ++ ws = w at h
  cases h with
  | done hw => exact .done (.eps ho hw)
  | ret hw hf ha => exact .ret (.eps ho hw) hf ha

theorem CanRead.congr {s t : Nat} {ctx ctx' : List Nat} (h : ∀ w, Accepts A s ctx w ↔ Accepts A t ctx' w) (us : List Tok) :
    CanRead A s ctx us ↔ CanRead A t ctx' us := exists_congr fun _ => h _

theorem Seg.can_end (hA : Implements A) {g : G} {s e : Nat} (h : Seg A g s e) {ctx : List Nat} {us : List Tok}
    (hc : CanRead A s ctx us) : CanRead A e ctx [] := by
  obtain ⟨ws, hc⟩ := hc
  obtain ⟨_, vs, _, _, -, -, hv⟩ := (h.accepts hA ctx _).1 hc
  exact ⟨vs, hv⟩

theorem Seg.can_start (hA : Implements A) {g : G} {s e : Nat} (h : Seg A g s e) {ctx : List Nat} {us : List Tok}
    (hc : CanRead A e ctx us) : CanRead A s ctx [] := by
  obtain ⟨ws, hc⟩ := hc
  obtain ⟨vs, f, c, hd⟩ := productive g
  exact ⟨_, (h.accepts hA ctx _).2 ⟨vs, us ++ ws, f, c, rfl, hd, hc⟩⟩

theorem CanRead.expected {s : Nat} {ctx : List Nat} {y : Tok} {us : List Tok} (h : CanRead A s ctx (y :: us)) :
    Expected A s y.type.num := by
  obtain ⟨ws, h⟩ := h
  exact h.expected

/-- Of alternatives, one can consume the tokens. -/
theorem Seg.can_alts (hA : Implements A) {gs : List G} {ss : List Nat} {s e : Nat} (ho : A.out s = ss.map .eps)
    (hl : gs.length = ss.length) (h0 : gs ≠ [])
    (hi : ∀ (i : Nat) (h : i < gs.length) (h' : i < ss.length), Seg A gs[i] ss[i] e) {ctx : List Nat} {us : List Tok}
    (h : CanRead A s ctx us) : ∃ (i : Nat) (_ : i < gs.length) (hi' : i < ss.length), CanRead A ss[i] ctx us := by
  obtain ⟨ws, h⟩ := h
  obtain ⟨u, v, f, c, h1, h2, h3⟩ := ((Seg.alt ho hl h0 hi).accepts hA ctx _).1 h
  obtain ⟨i, hi', c', hd⟩ := (D_alts h0).1 ⟨c, h2⟩
  refine ⟨i, hi', by omega, ws, ?_⟩
  exact ((hi i hi' (by omega)).accepts hA ctx _).2 ⟨u, v, f, c', h1, hd, h3⟩

end

/-! ### Runs up to the first error -/

section
variable {A : Atn} {σ : Type} {S : Strategy σ} {eof : Tok} {prog : Rule → List Stmt}

/-- No error so far. -/
def RState.Clean (s : RState σ) : Prop := s.reports = [] ∧ s.recovering = false

/-- How statements may end: without an error, with `Q`; or the first error is at the token `x`. -/
def UpTo (eof x : Tok) (Q : List Tok → Prop) : ROut σ → Prop
  | .ok _ s => (s.Clean ∧ Q s.rest) ∨ s.reports.head? = some x
  | .raised k s => (s.Clean ∧ (skipTo k s.rest).headD eof = x) ∨ s.reports.head? = some x
  | .timeout => True

theorem UpTo.prepend {x : Tok} {Q : List Tok → Prop} {r : ROut σ} {f : List PTree} (h : UpTo eof x Q r) :
    UpTo eof x Q (r.prepend f) := by
  cases r <;> exact h

theorem head_moves {s s' : RState σ} {x : Tok} (hm : Moves eof s s') (h : s.reports.head? = some x) :
    s'.reports.head? = some x := by
  obtain ⟨ys, e, -⟩ := hm.reports
  rw [e, List.head?_append, h]
  rfl

theorem upTo_of_reported {x : Tok} {Q : List Tok → Prop} {n : Nat} {ctx : List Nat} {ss : List Stmt} {s : RState σ}
    (h : s.reports.head? = some x) : UpTo eof x Q (execR S eof prog n ctx ss s) := by
  have hm := execR_moves (S := S) (eof := eof) (prog := prog) n ctx ss s
  cases he : execR S eof prog n ctx ss s with
  | ok f s' => rw [he] at hm; exact .inr (head_moves hm h)
  | raised k s' => rw [he] at hm; exact .inr (head_moves hm h)
  | timeout => trivial

theorem reportAt_head {s : RState σ} (hs : s.Clean) {k : Nat} {x : Tok} (h : (skipTo k s.rest).headD eof = x) :
    (reportAt eof k s).reports.head? = some x := by
  rw [← h]
  simp [reportAt, hs.1, hs.2]

theorem skipTo_zero (ts : List Tok) : skipTo 0 ts = ts := by simp [skipTo]

theorem caught_head {s : RState σ} {ctx : List Nat} {k : Nat} {x : Tok}
    (h : (s.Clean ∧ (skipTo k s.rest).headD eof = x) ∨ s.reports.head? = some x) :
    (caught S eof ctx k s).reports.head? = some x := by
  rcases h with ⟨hs, h⟩ | h
  · simpa [caught] using reportAt_head hs h
  · exact head_moves (caught_moves ctx k s) h

/-- What a step may do: go on without an error, or have its first error at `x`. -/
def StepUpTo (eof x : Tok) : Step σ → Prop
  | .go _ s => s.reports.head? = some x
  | .stop k s => (s.Clean ∧ (skipTo k s.rest).headD eof = x) ∨ s.reports.head? = some x

theorem StepUpTo.andThen {x : Tok} {Q : List Tok → Prop} {n : Nat} {ctx : List Nat} {ss : List Stmt} {step : Step σ}
    (h : StepUpTo eof x step) : UpTo eof x Q (step.andThen (execR S eof prog n ctx ss)) := by
  cases step with
  | go f s => exact (upTo_of_reported h).prepend
  | stop k s => exact h

theorem syncStep_first {st : Nat} {ctx : List Nat} {s : RState σ} {x : Tok} {vs : List Tok} (hs : s.Clean) (hr : s.rest = x :: vs)
    (hn : S.sync st ctx s.rest = false) : StepUpTo eof x (syncStep S eof st ctx s) := by
  have h0 : (skipTo 0 s.rest).headD eof = x := by rw [skipTo_zero, hr]; rfl
  have hh := reportAt_head (eof := eof) hs h0
  unfold syncStep
  rw [hs.2, hn]
  simp only [Bool.or_self, Bool.false_eq_true, if_false]
  split
  · exact hh
  · exact .inl ⟨⟨hs.1, rfl⟩, h0⟩
  · exact hh
  · exact .inl ⟨⟨hs.1, rfl⟩, h0⟩

theorem inlineStep_first {st : Nat} {ctx : List Nat} {ok : Int → Bool} {s : RState σ} {x : Tok} {vs : List Tok} (hs : s.Clean) (hr : s.rest = x :: vs) :
    StepUpTo eof x (inlineStep S eof st ctx ok s) := by
  have h0 : (skipTo 0 s.rest).headD eof = x := by rw [skipTo_zero, hr]; rfl
  have hh := reportAt_head (eof := eof) hs h0
  unfold inlineStep
  split
  · split
    · exact hh
    · exact .inl ⟨hs, h0⟩
  · exact .inl ⟨hs, h0⟩
  · exact hh
  · exact .inl ⟨hs, h0⟩

variable {B : List Tok → Prop} {p : List Tok} {x : Tok} {vs : List Tok}

/-- The state `s`, called from `ctx`, with `rest` to be read: `p`, then the offending token `x`, is the whole input; what is
left of `p` can be consumed from here, and nothing can be consumed from here that could not from the start. -/
structure OnTrackAt (A : Atn) (B : List Tok → Prop) (p : List Tok) (x : Tok) (vs : List Tok) (s : Nat) (ctx : List Nat) (us p' rest : List Tok) :
    Prop where
  split : us ++ p' = p
  rest : rest = p' ++ x :: vs
  can : CanRead A s ctx p'
  sound : ∀ w, CanRead A s ctx w → B (us ++ w)

def OnTrack (A : Atn) (B : List Tok → Prop) (p : List Tok) (x : Tok) (vs : List Tok) (s : Nat) (ctx : List Nat) (rest : List Tok) : Prop :=
  ∃ us p', OnTrackAt A B p x vs s ctx us p' rest

theorem OnTrackAt.congr {s t : Nat} {ctx ctx' : List Nat} {us p' rest : List Tok} (h : ∀ w, Accepts A s ctx w ↔ Accepts A t ctx' w)
    (ha : OnTrackAt A B p x vs s ctx us p' rest) : OnTrackAt A B p x vs t ctx' us p' rest :=
  ⟨ha.split, ha.rest, (CanRead.congr h _).1 ha.can, fun w hw => ha.sound w ((CanRead.congr h _).2 hw)⟩

theorem OnTrack.congr {s t : Nat} {ctx ctx' : List Nat} {rest : List Tok} (h : ∀ w, Accepts A s ctx w ↔ Accepts A t ctx' w)
    (hi : OnTrack A B p x vs s ctx rest) : OnTrack A B p x vs t ctx' rest := by
  obtain ⟨us, p', ha⟩ := hi
  exact ⟨us, p', ha.congr h⟩

/-- Along an edge without a token. -/
theorem OnTrackAt.eps {s t : Nat} {ctx : List Nat} {us p' rest : List Tok} (ho : .eps t ∈ A.out s) (hc : CanRead A t ctx p')
    (ha : OnTrackAt A B p x vs s ctx us p' rest) : OnTrackAt A B p x vs t ctx us p' rest :=
  ⟨ha.split, ha.rest, hc, fun w hw => ha.sound w (hw.eps ho)⟩

/-- The offending token is really one. -/
theorem OnTrackAt.not {s : Nat} {ctx : List Nat} {us p' rest : List Tok} (hx : ¬ B (p ++ [x])) (ha : OnTrackAt A B p x vs s ctx us p' rest) :
    ¬ CanRead A s ctx (p' ++ [x]) := by
  intro h
  have := ha.sound _ h
  rw [← List.append_assoc, ha.split] at this
  exact hx this

theorem RState.Clean.to {s : RState σ} (h : s.Clean) (ts : List Tok) : ({ s.to ts with recovering := false } : RState σ).Clean :=
  ⟨h.1, rfl⟩

/-- A statement that matches one token. -/
theorem first_match (hA : Implements A) (hx : ¬ B (p ++ [x])) {g : G} {s e : Nat} (hs : Seg A g s e) {ok : Int → Bool}
    (hg : ∀ us f, (∃ c, D g us f c) ↔ ∃ y, ok y.type.num = true ∧ us = [y] ∧ f = [.leaf y]) {n : Nat} {ctx : List Nat}
    {ss : List Stmt} {st : RState σ} {Q : List Tok → Prop} (hc : st.Clean) (hi : OnTrack A B p x vs s ctx st.rest)
    (hk : ∀ st' : RState σ, st'.Clean → OnTrack A B p x vs e ctx st'.rest → UpTo eof x Q (execR S eof prog n ctx ss st')) :
    UpTo eof x Q ((matchStep S eof s ctx ok st).andThen (execR S eof prog n ctx ss)) := by
  obtain ⟨us, p', ha⟩ := hi
  have hr := ha.rest
  cases p' with
  | nil =>
    rw [List.nil_append] at hr
    have hno : ok x.type.num = false := by
      cases hok : ok x.type.num with
      | false => rfl
      | true =>
        exfalso
        refine ha.not hx ?_
        obtain ⟨vs, hv⟩ := hs.can_end hA ha.can
        obtain ⟨c, hd⟩ := (hg [x] [.leaf x]).2 ⟨x, hok, rfl, rfl⟩
        exact ⟨vs, (hs.accepts hA ctx _).2 ⟨[x], vs, _, c, rfl, hd, hv⟩⟩
    have : matchStep S eof s ctx ok st = inlineStep S eof s ctx ok st := by
      unfold matchStep
      rw [hr]
      simp [hno]
    rw [this]
    exact (inlineStep_first hc hr).andThen
  | cons y p' =>
    rw [List.cons_append] at hr
    obtain ⟨ws, hw⟩ := ha.can
    obtain ⟨u, v, f, c, h1, h2, h3⟩ := (hs.accepts hA ctx _).1 hw
    obtain ⟨y', hy, rfl, rfl⟩ := (hg _ _).1 ⟨c, h2⟩
    obtain ⟨rfl, rfl⟩ : y = y' ∧ p' ++ ws = v := by simpa using h1
    have : matchStep S eof s ctx ok st = .go [.leaf y] { st.to (p' ++ x :: vs) with recovering := false } := by
      unfold matchStep
      rw [hr]
      simp [hy]
    rw [this]
    refine UpTo.prepend (hk _ (hc.to _) ⟨us ++ [y], p', ?_, rfl, ⟨ws, h3⟩, ?_⟩)
    · rw [← ha.split]; simp
    · intro w ⟨ws', hw'⟩
      have := ha.sound (y :: w) ⟨ws', (hs.accepts hA ctx _).2 ⟨[y], w ++ ws', _, c, rfl, h2, hw'⟩⟩
      simpa using this

/-- `sync`. -/
theorem first_sync (hS : S.Exact A) {s : Nat} {n : Nat} {ctx : List Nat}
    {ss : List Stmt} {st : RState σ} {Q : List Tok → Prop} (hc : st.Clean) (hi : OnTrack A B p x vs s ctx st.rest)
    (hk : UpTo eof x Q (execR S eof prog n ctx ss st)) :
    UpTo eof x Q ((syncStep S eof s ctx st).andThen (execR S eof prog n ctx ss)) := by
  cases hy : S.sync s ctx st.rest with
  | true =>
    have : syncStep S eof s ctx st = .go [] st := by simp [syncStep, hy]
    rw [this]
    exact UpTo.prepend hk
  | false =>
    obtain ⟨us, p', ha⟩ := hi
    cases p' with
    | nil => exact (syncStep_first hc ha.rest hy).andThen
    | cons y p' =>
      exfalso
      have := hS.ideal.sync s ctx st.rest (by rw [ha.rest]; exact ha.can.expected)
      rw [hy] at this
      cases this


theorem hla_star (hA : Implements A) {a : G} {s l e : Nat} (ho : A.out l = [.eps s, .eps e]) (hs : Seg A a s l) {F : List Int}
    {ctx : List Nat} (hla : ∀ w, Accepts A e ctx w → la w ∈ F) (w : List Tok) (hw : Accepts A l ctx w) :
    la w ∈ a.first ++ F := by
  obtain ⟨us, vs, f, c, rfl, hd, hx⟩ := ((Seg.star ho hs).accepts hA ctx w).1 hw
  simpa [G.first, G.nullable] using la_mem hd (hla _ hx)

/-- From the end of the body of a loop: one more round, or on. -/
theorem can_loop (hA : Implements A) {a : G} {s l e : Nat} (ho : A.out l = [.eps s, .eps e]) (hs : Seg A a s l)
    {ctx : List Nat} {us : List Tok} (h : CanRead A l ctx us) : CanRead A s ctx us ∨ CanRead A e ctx us := by
  obtain ⟨ws, h⟩ := h
  obtain ⟨u, v, f, c, h1, h2, h3⟩ := ((Seg.star ho hs).accepts hA ctx _).1 h
  rcases D_star.1 h2 with ⟨rfl, rfl, rfl⟩ | ⟨ta, tb, fa, fb, ca, cb, rfl, rfl, rfl, ha, hb⟩
  · right
    rw [List.nil_append] at h1
    exact ⟨ws, by rw [h1]; exact h3⟩
  · left
    exact ⟨ws, ((Seg.seq hs (Seg.star ho hs)).accepts hA ctx _).2 ⟨_, v, _, _, h1, .seq ha hb, h3⟩⟩

theorem first_of_impl (hc : CodeOk A prog) (hS : S.Exact A) (hx : ¬ B (p ++ [x])) (n : Nat) {g : G} {code : List Stmt}
    {s e : Nat} {F : List Int} (h : Impl A g code s e F) : ∀ m, m ≤ n → ∀ ctx ss (st : RState σ) Q, st.Clean →
      OnTrack A B p x vs s ctx st.rest → (∀ w, Accepts A e ctx w → la w ∈ F) →
      (∀ m', m' ≤ m → ∀ st' : RState σ, st'.Clean → OnTrack A B p x vs e ctx st'.rest →
        UpTo eof x Q (execR S eof prog m' ctx ss st')) →
      UpTo eof x Q (execR S eof prog m ctx (code ++ ss) st) := by
  have hA := hc.impl
  induction n using Nat.strongRecOn generalizing g code s e F with
  | _ n ihn =>
    induction h with
    | pre ho _ ih =>
      intro m hm ctx ss st Q hcl hi hla hk
      exact ih m hm ctx ss st Q hcl (hi.congr fun w => accepts_eps hA ho) hla hk
    | post _ ho ih =>
      intro m hm ctx ss st Q hcl hi hla hk
      exact ih m hm ctx ss st Q hcl hi (fun w hw => hla w ((accepts_eps hA ho).1 hw))
        fun m' hm' st' h1 h2 => hk m' hm' st' h1 (h2.congr fun w => accepts_eps hA ho)
    | sync hi' ih =>
      intro m hm ctx ss st Q hcl hi hla hk
      cases m with
      | zero => simp [execR, UpTo]
      | succ m =>
        rw [List.cons_append, execR]
        exact first_sync hS hcl hi (ih m (by omega) ctx ss st Q hcl hi hla fun m' hm' => hk m' (by omega))
    | eps =>
      intro m hm ctx ss st Q hcl hi hla hk
      exact hk m (Nat.le_refl _) st hcl hi
    | @tok t s e F ho =>
      intro m hm ctx ss st Q hcl hi hla hk
      cases m with
      | zero => simp [execR, UpTo]
      | succ m =>
        rw [List.cons_append, List.nil_append, execR]
        refine first_match hA hx (.tok ho) ?_ hcl hi fun st' h1 h2 => hk m (by omega) st' h1 h2
        intro us f
        constructor
        · rintro ⟨c, hd⟩
          obtain ⟨y, hy, rfl, rfl, -⟩ := D_tok.1 hd
          exact ⟨y, by simp [hy], rfl, rfl⟩
        · rintro ⟨y, hy, rfl, rfl⟩
          exact ⟨_, .tok (TokType.num_inj (by simpa using hy))⟩
    | @set l ks t s e F ho h0 hl ht =>
      obtain ⟨h0, -⟩ := h0
      intro m hm ctx ss st Q hcl hi hla hk
      cases m with
      | zero => simp [execR, UpTo]
      | succ m =>
        rw [List.cons_append, List.nil_append, execR]
        refine first_match hA hx (.set ho h0 hl) ?_ hcl hi fun st' h1 h2 => hk m (by omega) st' h1 h2
        intro us f
        rw [D_alts_toks h0]
        constructor
        · rintro ⟨y, hy, rfl, rfl⟩
          exact ⟨y, (ht _).2 hy, rfl, rfl⟩
        · rintro ⟨y, hy, rfl, rfl⟩
          exact ⟨y, (ht _).1 hy, rfl, rfl⟩
    | @rule r s e F ho hF =>
      intro m hm ctx ss st Q hcl hi hla hk
      cases m with
      | zero => simp [execR, UpTo]
      | succ m =>
        obtain ⟨e', he, hr⟩ := hc.rule r
        have hf : A.follow s = some e := by simp [Atn.follow, ho]
        have hend : ∀ w, Accepts A e' (s :: ctx) w ↔ Accepts A e ctx w := fun w => accepts_stop hA he hf
        have hst : ∀ w, Accepts A s ctx w ↔ Accepts A (A.start r) (s :: ctx) w := by
          intro w
          rw [(Seg.rule ho).accepts hA, hr.seg.accepts hA]
          constructor
          · rintro ⟨us, vs, f, c, rfl, hd, hw⟩
            obtain ⟨f', hd', -⟩ := D_rule.1 hd
            exact ⟨us, vs, f', c, rfl, hd', (hend _).2 hw⟩
          · rintro ⟨us, vs, f, c, rfl, hd, hw⟩
            exact ⟨us, vs, _, c, rfl, .rule hd, (hend _).1 hw⟩
        have hg := ihn m (by omega) hr m (Nat.le_refl _) (s :: ctx) [] st (OnTrack A B p x vs e ctx) hcl (hi.congr hst)
          (fun w hw => hF _ (hla w ((hend w).1 hw))) (by
            intro m' _ st' h1 h2
            cases m' with
            | zero => simp [execR, UpTo]
            | succ m' =>
              rw [execR]
              exact .inl ⟨h1, h2.congr hend⟩)
        rw [List.append_nil] at hg
        rw [List.cons_append, List.nil_append, execR]
        cases hex : execR S eof prog m (s :: ctx) (prog r) st with
        | timeout => trivial
        | ok f st' =>
          rw [hex] at hg
          rcases hg with ⟨h1, h2⟩ | h
          · exact (hk m (by omega) st' h1 h2).prepend
          · exact (upTo_of_reported h).prepend
        | raised k st' =>
          rw [hex] at hg
          exact (upTo_of_reported (caught_head hg)).prepend
    | @seq a b c c' s m e F h1 h2 ih ih' =>
      intro m hm ctx ss st Q hcl hi hla hk
      rw [List.append_assoc]
      refine ih m hm ctx _ st Q hcl hi ?_ fun m' hm' st' hcl' hi' =>
        ih' m' (by omega) ctx ss st' Q hcl' hi' hla fun m'' hm'' => hk m'' (by omega)
      intro w hw
      obtain ⟨us, vs, f, c, rfl, hd, hx⟩ := (h2.seg.accepts hA ctx w).1 hw
      exact la_mem hd (hla _ hx)
    | @predict gs ss0 bs d s e F hd ho hlen h0 hi0 ih =>
      intro m hm ctx ss st Q hcl hi hla hk
      cases m with
      | zero => simp [execR, UpTo]
      | succ m =>
        obtain ⟨us, p', ha⟩ := hi
        have hout : ∀ j (hj : j < ss0.length), (A.out s)[j]? = some (.eps ss0[j]) := by
          intro j hj; rw [ho]; simp [hj]
        have hmem : ∀ j (hj : j < ss0.length), .eps ss0[j] ∈ A.out s := fun j hj => List.mem_of_getElem? (hout j hj)
        have hre : ∀ w, (∃ j, Reaches A d ctx w j) → CanRead A s ctx w := by
          rintro w ⟨j, ws, s', t, h1, h2, h3, h4⟩
          rw [hd] at h1
          cases h1
          exact CanRead.eps (List.mem_of_getElem? h3) ⟨ws, h4⟩
        obtain ⟨j, hj, hj', ws, hcan⟩ := Seg.can_alts hA ho hlen h0 (fun i h h' => (hi0 i h h').seg) ha.can
        have hrj : Reaches A d ctx p' (j + 1) := ⟨ws, s, ss0[j], hd, by omega, by simpa using hout j hj', hcan⟩
        rw [List.cons_append, List.nil_append, execR]
        cases hp : S.predict d ctx st.rest with
        | none =>
          refine .inl ⟨hcl, ?_⟩
          rw [ha.rest] at hp
          have := hS.offending st.mem d ctx p' x vs (j + 1) hp hrj fun j hj => ha.not hx (hre _ ⟨j, hj⟩)
          dsimp only
          rw [ha.rest, this]
          have hm : min p'.length ((p' ++ x :: vs).length - 1) = p'.length := by
            rw [List.length_append, List.length_cons]; omega
          rw [skipTo, hm]
          simp
        | some i =>
          dsimp only
          obtain ⟨ws', s', t, h1, h2, h3, h4⟩ := hS.longest d ctx st.rest i p' (j + 1) hp
            (by rw [ha.rest]; exact List.prefix_append _ _) hrj
          rw [hd] at h1
          cases h1
          have hlt : i - 1 < ss0.length := by
            have := (List.getElem?_eq_some_iff.1 h3).1
            rwa [ho, List.length_map] at this
          rw [hout _ hlt] at h3
          cases h3
          have := ih (i - 1) (by omega) hlt m (by omega) ctx ss st Q hcl ⟨us, p', ha.eps (hmem _ hlt) ⟨ws', h4⟩⟩ hla
            fun m' hm' => hk m' (by omega)
          rwa [show i - 1 + 1 = i by omega] at this
    | @switch gs ss0 cs s e F ho hlen hlen' h0 hi0 hcond ih =>
      intro m hm ctx ss st Q hcl hi hla hk
      cases m with
      | zero => simp [execR, UpTo]
      | succ m =>
        obtain ⟨us, p', ha⟩ := hi
        have hmem : ∀ j (hj : j < ss0.length), .eps ss0[j] ∈ A.out s := by
          intro j hj; rw [ho]; exact List.mem_map_of_mem (List.getElem_mem hj)
        have hseg : ∀ (i : Nat) (h : i < gs.length) (h' : i < ss0.length), Seg A gs[i] ss0[i] e :=
          fun i h h' => (hi0 i h h' (by omega)).seg
        rw [List.cons_append, List.nil_append, execR]
        cases p' with
        | nil =>
          have hrest := ha.rest
          rw [List.nil_append] at hrest
          cases hsw : switchCase (la st.rest) cs with
          | none =>
            refine .inl ⟨hcl, ?_⟩
            rw [skipTo_zero, hrest]
            rfl
          | some b =>
            dsimp only
            obtain ⟨i, hi', rfl⟩ := switchCase_some hsw
            have hce := (Seg.alt ho hlen h0 hseg).can_end hA ha.can
            exact ih i (by omega) (by omega) hi' m (by omega) ctx ss st Q hcl
              ⟨us, [], ha.eps (hmem i (by omega)) ((hseg i (by omega) (by omega)).can_start hA hce)⟩ hla fun m' hm' => hk m' (by omega)
        | cons y p' =>
          obtain ⟨j, hj, hj', hcan⟩ := Seg.can_alts hA ho hlen h0 hseg ha.can
          obtain ⟨hn, hf⟩ := hcond j hj (by omega)
          have hy : y.type.num ∈ gs[j].first := by
            obtain ⟨ws, hw⟩ := hcan
            obtain ⟨u, v, f, c, h1, h2, h3⟩ := ((hseg j hj hj').accepts hA ctx _).1 hw
            have := la_mem h2 (hla _ h3)
            rw [← h1] at this
            simpa [hn, la] using this
          have : switchCase (la st.rest) cs = some cs[j].2 := by
            rw [ha.rest]
            exact hf _ hy
          rw [this]
          exact ih j hj hj' (by omega) m (by omega) ctx ss st Q hcl ⟨us, y :: p', ha.eps (hmem j hj') hcan⟩ hla
            fun m' hm' => hk m' (by omega)
    | @ifLA a t b s s1 s2 e F ho h1 h2 hn hf hF ih ih' =>
      intro m hm ctx ss st Q hcl hi hla hk
      cases m with
      | zero => simp [execR, UpTo]
      | succ m =>
        obtain ⟨us, p', ha⟩ := hi
        have hseg : ∀ (i : Nat) (h : i < [a, G.eps].length) (h' : i < [s1, s2].length), Seg A ([a, G.eps])[i] ([s1, s2])[i] e := by
          intro i h h'
          match i, h with
          | 0, _ => exact h1.seg
          | 1, _ => exact h2.seg
        have m1 : .eps s1 ∈ A.out s := by rw [ho]; simp
        have m2 : .eps s2 ∈ A.out s := by rw [ho]; simp
        have go : ∀ c1 : CanRead A s1 ctx p', UpTo eof x Q (execR S eof prog m ctx (b ++ ss) st) := fun c1 =>
          ih m (by omega) ctx ss st Q hcl ⟨us, p', ha.eps m1 c1⟩ hla fun m' hm' => hk m' (by omega)
        have no : ∀ c2 : CanRead A s2 ctx p', UpTo eof x Q (execR S eof prog m ctx ([] ++ ss) st) := fun c2 =>
          ih' m (by omega) ctx ss st Q hcl ⟨us, p', ha.eps m2 c2⟩ hla fun m' hm' => hk m' (by omega)
        rw [List.cons_append, List.nil_append, execR]
        cases p' with
        | nil =>
          have hce := (Seg.alt (gs := [a, .eps]) (ss := [s1, s2]) ho rfl (by simp) hseg).can_end hA ha.can
          split
          · exact go (h1.seg.can_start hA hce)
          · exact no (h2.seg.can_start hA hce)
        | cons y p' =>
          have hla' : la st.rest = y.type.num := by rw [ha.rest]; rfl
          rw [hla']
          obtain ⟨j, hj, hj', hcan⟩ := Seg.can_alts (gs := [a, .eps]) (ss := [s1, s2]) hA ho rfl (by simp) hseg ha.can
          match j, hj with
          | 0, _ =>
            have hy : y.type.num ∈ a.first := by
              obtain ⟨ws, hw⟩ := hcan
              obtain ⟨u, v, f, c, h1, h2, h3⟩ := (h1.seg.accepts hA ctx _).1 hw
              have := la_mem h2 (hla _ h3)
              rw [← h1] at this
              simpa [hn, la] using this
            rw [if_pos (hf _ hy)]
            exact go hcan
          | 1, _ =>
            have hy : y.type.num ∈ F := by
              obtain ⟨ws, hw⟩ := hcan
              obtain ⟨u, v, f, c, h1, h2, h3⟩ := (h2.seg.accepts hA ctx _).1 hw
              obtain ⟨rfl, -, -⟩ := D_eps.1 h2
              have := hla _ h3
              rw [List.nil_append] at h1
              rw [← h1] at this
              exact this
            rw [if_neg (by simp [hF _ hy])]
            exact no hcan
    | @whileLA a t b s l e F ho h1 hn hf hF ih =>
      intro m
      induction m using Nat.strongRecOn with
      | _ m ihm =>
        intro hm ctx ss st Q hcl hi hla hk
        cases m with
        | zero => simp [execR, UpTo]
        | succ m =>
          rw [List.cons_append, List.nil_append, execR]
          refine ih m (by omega) ctx _ st Q hcl hi (hla_star hA ho h1.seg hla) ?_
          intro m' hm' st' hcl' hi'
          match m' with
          | 0 => simp [execR, UpTo]
          | 1 =>
            rw [execR]
            exact first_sync hS hcl' hi' (by simp [execR, UpTo])
          | m' + 2 =>
            rw [execR]
            refine first_sync hS hcl' hi' ?_
            rw [execR]
            obtain ⟨us, p', ha⟩ := hi'
            have m1 : .eps s ∈ A.out l := by rw [ho]; simp
            have m2 : .eps e ∈ A.out l := by rw [ho]; simp
            have go : ∀ c1 : CanRead A s ctx p', UpTo eof x Q (execR S eof prog m' ctx ([.whileLA b l t] ++ ss) st') := fun c1 =>
              ihm m' (by omega) (by omega) ctx ss st' Q hcl' ⟨us, p', ha.eps m1 c1⟩ hla fun m'' hm'' => hk m'' (by omega)
            have no : ∀ c2 : CanRead A e ctx p', UpTo eof x Q (execR S eof prog m' ctx ([] ++ ss) st') := fun c2 =>
              hk m' (by omega) st' hcl' ⟨us, p', ha.eps m2 c2⟩
            cases p' with
            | nil =>
              have hce := (Seg.star ho h1.seg).can_end hA ha.can
              split
              · exact go ((Seg.seq h1.seg (Seg.star ho h1.seg)).can_start hA hce)
              · exact no hce
            | cons y p' =>
              have hla' : la st'.rest = y.type.num := by rw [ha.rest]; rfl
              rw [hla']
              rcases can_loop hA ho h1.seg ha.can with hcan | hcan
              · have hy : y.type.num ∈ a.first := by
                  obtain ⟨ws, hw⟩ := hcan
                  obtain ⟨u, v, f, c, e1, e2, e3⟩ := (h1.seg.accepts hA ctx _).1 hw
                  have := la_mem e2 (hla_star hA ho h1.seg hla _ e3)
                  rw [← e1] at this
                  simpa [hn, la] using this
                rw [if_pos (hf _ hy)]
                exact go hcan
              · have hy : y.type.num ∈ F := by
                  obtain ⟨ws, hw⟩ := hcan
                  exact hla _ hw
                rw [if_neg (by simp [hF _ hy])]
                exact no hcan
    | @whilePredict a b s l e d F hd ho h1 hn ih =>
      intro m
      induction m using Nat.strongRecOn with
      | _ m ihm =>
        intro hm ctx ss st Q hcl hi hla hk
        cases m with
        | zero => simp [execR, UpTo]
        | succ m =>
          rw [List.cons_append, List.nil_append, execR]
          refine ih m (by omega) ctx _ st Q hcl hi (hla_star hA ho h1.seg hla) ?_
          intro m' hm' st' hcl' hi'
          match m' with
          | 0 => simp [execR, UpTo]
          | 1 =>
            rw [execR]
            exact first_sync hS hcl' hi' (by simp [execR, UpTo])
          | m' + 2 =>
            rw [execR]
            refine first_sync hS hcl' hi' ?_
            rw [execR]
            obtain ⟨us, p', ha⟩ := hi'
            have m1 : .eps s ∈ A.out l := by rw [ho]; simp
            have m2 : .eps e ∈ A.out l := by rw [ho]; simp
            have hre : ∀ w, (∃ j, Reaches A d ctx w j) → CanRead A l ctx w := by
              rintro w ⟨j, ws, s', t, h1, h2, h3, h4⟩
              rw [hd] at h1
              cases h1
              exact CanRead.eps (List.mem_of_getElem? h3) ⟨ws, h4⟩
            have hrj : ∃ j, Reaches A d ctx p' j := by
              rcases can_loop hA ho h1.seg ha.can with ⟨ws, hw⟩ | ⟨ws, hw⟩
              · exact ⟨1, ws, l, s, hd, by omega, by rw [ho]; rfl, hw⟩
              · exact ⟨2, ws, l, e, hd, by omega, by rw [ho]; rfl, hw⟩
            obtain ⟨j, hrj⟩ := hrj
            cases hp : S.predict d ctx st'.rest with
            | none =>
              refine .inl ⟨hcl', ?_⟩
              rw [ha.rest] at hp
              have := hS.offending st'.mem d ctx p' x vs j hp hrj fun j hj => ha.not hx (hre _ ⟨j, hj⟩)
              dsimp only
              rw [ha.rest, this]
              have hm : min p'.length ((p' ++ x :: vs).length - 1) = p'.length := by
                rw [List.length_append, List.length_cons]; omega
              rw [skipTo, hm]
              simp
            | some i =>
              dsimp only
              obtain ⟨ws', s', t, h1', h2, h3, h4⟩ := hS.longest d ctx st'.rest i p' j hp
                (by rw [ha.rest]; exact List.prefix_append _ _) hrj
              rw [hd] at h1'
              cases h1'
              rw [ho] at h3
              match i, h2, h3 with
              | 1, _, h3 =>
                cases h3
                exact ihm m' (by omega) (by omega) ctx ss st' Q hcl' ⟨us, p', ha.eps m1 ⟨ws', h4⟩⟩ hla fun m'' hm'' => hk m'' (by omega)
              | 2, _, h3 =>
                cases h3
                exact hk m' (by omega) st' hcl' ⟨us, p', ha.eps m2 ⟨ws', h4⟩⟩
              | i + 3, _, h3 => simp at h3

end

end Fcsql
