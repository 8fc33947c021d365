/-
The first error is never reported too late: what was read before the token complained about is the beginning of a query.
-/
import Verif.Proofs.FirstError

set_option autoImplicit false
set_option linter.unusedSimpArgs false

namespace Fcsql

section
variable {A : Atn} {σ : Type} {S : Strategy σ} {eof : Tok} {prog : Rule → List Stmt}
variable {B : List Tok → Prop} {full : List Tok}

/-- A token of `full` such that `B` holds of what is before it. -/
def AfterGood (B : List Tok → Prop) (full : List Tok) (x : Tok) : Prop := ∃ us vs, full = us ++ x :: vs ∧ B us

/-- How statements may end: without an error, with `Q`; or the first error is at a token with `R`. -/
def UpToR (eof : Tok) (R : Tok → Prop) (Q : List Tok → Prop) : ROut σ → Prop
  | .ok _ s => (s.Clean ∧ Q s.rest) ∨ ∃ x, s.reports.head? = some x ∧ R x
  | .raised k s => (s.Clean ∧ R ((skipTo k s.rest).headD eof)) ∨ ∃ x, s.reports.head? = some x ∧ R x
  | .timeout => True

variable {R : Tok → Prop}

theorem UpToR.prepend {Q : List Tok → Prop} {r : ROut σ} {f : List PTree} (h : UpToR eof R Q r) : UpToR eof R Q (r.prepend f) := by
  cases r <;> exact h

theorem upToR_of_reported {Q : List Tok → Prop} {n : Nat} {ctx : List Nat} {ss : List Stmt} {s : RState σ}
    (h : ∃ x, s.reports.head? = some x ∧ R x) : UpToR eof R Q (execR S eof prog n ctx ss s) := by
  obtain ⟨x, h, hx⟩ := h
  have hm := execR_moves (S := S) (eof := eof) (prog := prog) n ctx ss s
  cases he : execR S eof prog n ctx ss s with
  | ok f s' => rw [he] at hm; exact .inr ⟨x, head_moves hm h, hx⟩
  | raised k s' => rw [he] at hm; exact .inr ⟨x, head_moves hm h, hx⟩
  | timeout => trivial

/-- What a step may do. -/
def StepUpToR (eof : Tok) (R : Tok → Prop) : Step σ → Prop
  | .go _ s => ∃ x, s.reports.head? = some x ∧ R x
  | .stop k s => (s.Clean ∧ R ((skipTo k s.rest).headD eof)) ∨ ∃ x, s.reports.head? = some x ∧ R x

theorem StepUpToR.andThen {Q : List Tok → Prop} {n : Nat} {ctx : List Nat} {ss : List Stmt} {step : Step σ}
    (h : StepUpToR eof R step) : UpToR eof R Q (step.andThen (execR S eof prog n ctx ss)) := by
  cases step with
  | go f s => exact (upToR_of_reported h).prepend
  | stop k s => exact h

theorem caught_headR {s : RState σ} {ctx : List Nat} {k : Nat}
    (h : (s.Clean ∧ R ((skipTo k s.rest).headD eof)) ∨ ∃ x, s.reports.head? = some x ∧ R x) :
    ∃ x, (caught S eof ctx k s).reports.head? = some x ∧ R x := by
  rcases h with ⟨hs, h⟩ | ⟨x, h, hx⟩
  · exact ⟨_, caught_head (.inl ⟨hs, rfl⟩), h⟩
  · exact ⟨x, head_moves (caught_moves ctx k s) h, hx⟩

theorem syncStep_firstR {st : Nat} {ctx : List Nat} {s : RState σ} (hs : s.Clean) (hR : R (s.rest.headD eof))
    (hn : S.sync st ctx s.rest = false) : StepUpToR eof R (syncStep S eof st ctx s) := by
  have h0 : (skipTo 0 s.rest).headD eof = s.rest.headD eof := by rw [skipTo_zero]
  have hh := reportAt_head (eof := eof) hs h0
  unfold syncStep
  rw [hs.2, hn]
  simp only [Bool.or_self, Bool.false_eq_true, if_false]
  split
  · exact ⟨_, hh, hR⟩
  · exact .inl ⟨⟨hs.1, rfl⟩, h0 ▸ hR⟩
  · exact ⟨_, hh, hR⟩
  · exact .inl ⟨⟨hs.1, rfl⟩, h0 ▸ hR⟩

theorem inlineStep_firstR {st : Nat} {ctx : List Nat} {ok : Int → Bool} {s : RState σ} (hs : s.Clean) (hR : R (s.rest.headD eof)) :
    StepUpToR eof R (inlineStep S eof st ctx ok s) := by
  have h0 : (skipTo 0 s.rest).headD eof = s.rest.headD eof := by rw [skipTo_zero]
  have hh := reportAt_head (eof := eof) hs h0
  unfold inlineStep
  split
  · split
    · exact ⟨_, hh, hR⟩
    · exact .inl ⟨hs, h0 ▸ hR⟩
  · exact .inl ⟨hs, h0 ▸ hR⟩
  · exact ⟨_, hh, hR⟩
  · exact .inl ⟨hs, h0 ▸ hR⟩

/-- The state `s`, called from `ctx`, with `rest` to be read: the end can be reached from here, and nothing can be consumed
from here that could not from the start. -/
structure InStepAt (A : Atn) (B : List Tok → Prop) (full : List Tok) (s : Nat) (ctx : List Nat) (us rest : List Tok) : Prop where
  split : us ++ rest = full
  can : CanRead A s ctx []
  sound : ∀ w, CanRead A s ctx w → B (us ++ w)

def InStep (A : Atn) (B : List Tok → Prop) (full : List Tok) (s : Nat) (ctx : List Nat) (rest : List Tok) : Prop :=
  ∃ us, InStepAt A B full s ctx us rest

theorem InStep.congr {s t : Nat} {ctx ctx' : List Nat} {rest : List Tok} (h : ∀ w, Accepts A s ctx w ↔ Accepts A t ctx' w)
    (hi : InStep A B full s ctx rest) : InStep A B full t ctx' rest := by
  obtain ⟨us, ha⟩ := hi
  exact ⟨us, ha.split, (CanRead.congr h _).1 ha.can, fun w hw => ha.sound w ((CanRead.congr h _).2 hw)⟩

/-- Along an edge without a token. -/
theorem InStep.eps {s t : Nat} {ctx : List Nat} {rest : List Tok} (ho : .eps t ∈ A.out s) (hc : CanRead A t ctx [])
    (ha : InStep A B full s ctx rest) : InStep A B full t ctx rest := by
  obtain ⟨us, ha⟩ := ha
  exact ⟨us, ha.split, hc, fun w hw => ha.sound w (hw.eps ho)⟩

/-- What is known of the beginnings of queries, and of the whole input. -/
structure Whole (B : List Tok → Prop) (full : List Tok) (eof : Tok) : Prop where
  left : ∀ us vs, B (us ++ vs) → B us
  last : ∃ us, full = us ++ [eof]

/-- Tokens that can be read from here are good. -/
theorem InStep.good (hw : Whole B full eof) {s : Nat} {ctx : List Nat} {rest : List Tok} (hi : InStep A B full s ctx rest) {k : Nat}
    (hc : CanRead A s ctx (rest.take k)) : AfterGood B full ((skipTo k rest).headD eof) := by
  obtain ⟨us, ha⟩ := hi
  have hB := ha.sound _ hc
  cases hr : rest with
  | nil =>
    obtain ⟨us', he⟩ := hw.last
    have := ha.split
    rw [hr, List.append_nil] at this
    refine ⟨us', [], by simpa [skipTo] using he, ?_⟩
    rw [hr, List.take_nil, List.append_nil, this, he] at hB
    exact hw.left _ _ hB
  | cons y ys =>
    have hlt : min k (rest.length - 1) < rest.length := by rw [hr]; simp; omega
    have hd : rest.drop (min k (rest.length - 1)) = rest[min k (rest.length - 1)] :: rest.drop (min k (rest.length - 1) + 1) :=
      List.drop_eq_getElem_cons hlt
    rw [← hr, skipTo, hd]
    refine ⟨us ++ rest.take (min k (rest.length - 1)), rest.drop (min k (rest.length - 1) + 1), ?_, ?_⟩
    · rw [List.headD_cons, List.append_assoc, ← hd, List.take_append_drop, ha.split]
    · have : rest.take k = rest.take (min k (rest.length - 1)) ++ (rest.take k).drop (min k (rest.length - 1)) := by
        have e := List.take_append_drop (min k (rest.length - 1)) (rest.take k)
        rw [List.take_take, show min (min k (rest.length - 1)) k = min k (rest.length - 1) by omega] at e
        exact e.symm
      rw [this, ← List.append_assoc] at hB
      exact hw.left _ _ hB

theorem InStep.here (hw : Whole B full eof) {s : Nat} {ctx : List Nat} {rest : List Tok} (hi : InStep A B full s ctx rest) :
    AfterGood B full (rest.headD eof) := by
  have := hi.good hw (k := 0) (by obtain ⟨us, ha⟩ := hi; simpa using ha.can)
  rwa [skipTo_zero] at this

/-- A statement that matches one token. -/
theorem late_match (hA : Implements A) (hw : Whole B full eof) {g : G} {s e : Nat} (hs : Seg A g s e) {ok : Int → Bool}
    (hg : ∀ us f, (∃ c, D g us f c) ↔ ∃ y, ok y.type.num = true ∧ us = [y] ∧ f = [.leaf y]) {n : Nat} {ctx : List Nat}
    {ss : List Stmt} {st : RState σ} {Q : List Tok → Prop} (hc : st.Clean) (hi : InStep A B full s ctx st.rest)
    (hk : ∀ st' : RState σ, st'.Clean → InStep A B full e ctx st'.rest → UpToR eof (AfterGood B full) Q (execR S eof prog n ctx ss st')) :
    UpToR eof (AfterGood B full) Q ((matchStep S eof s ctx ok st).andThen (execR S eof prog n ctx ss)) := by
  have hin := (inlineStep_firstR (S := S) (st := s) (ctx := ctx) (ok := ok) hc (hi.here hw)).andThen (S := S) (prog := prog) (Q := Q) (n := n) (ctx := ctx) (ss := ss)
  cases hr : st.rest with
  | nil =>
    rw [matchStep, hr]
    exact hin
  | cons y ys =>
    rw [matchStep, hr]
    dsimp only
    split
    · rename_i hy
      obtain ⟨us, ha⟩ := hi
      obtain ⟨c, hd⟩ := (hg [y] [.leaf y]).2 ⟨y, hy, rfl, rfl⟩
      refine UpToR.prepend (hk _ (hc.to _) ⟨us ++ [y], ?_, hs.can_end hA ha.can, ?_⟩)
      · have := ha.split
        rw [hr] at this
        simpa [RState.to] using this
      · intro w ⟨ws', hw'⟩
        have := ha.sound (y :: w) ⟨ws', (hs.accepts hA ctx _).2 ⟨[y], w ++ ws', _, c, rfl, hd, hw'⟩⟩
        simpa using this
    · exact hin

/-- `sync`. -/
theorem late_sync (hw : Whole B full eof) {s : Nat} {n : Nat} {ctx : List Nat}
    {ss : List Stmt} {st : RState σ} {Q : List Tok → Prop} (hc : st.Clean) (hi : InStep A B full s ctx st.rest)
    (hk : UpToR eof (AfterGood B full) Q (execR S eof prog n ctx ss st)) :
    UpToR eof (AfterGood B full) Q ((syncStep S eof s ctx st).andThen (execR S eof prog n ctx ss)) := by
  cases hy : S.sync s ctx st.rest with
  | true =>
    have : syncStep S eof s ctx st = .go [] st := by simp [syncStep, hy]
    rw [this]
    exact UpToR.prepend hk
  | false => exact (syncStep_firstR hc (hi.here hw) hy).andThen

theorem late_of_impl (hc : CodeOk A prog) (hS : S.Careful A) (hw : Whole B full eof) (n : Nat) {g : G} {code : List Stmt}
    {s e : Nat} {F : List Int} (h : Impl A g code s e F) : ∀ m, m ≤ n → ∀ ctx ss (st : RState σ) Q, st.Clean →
      InStep A B full s ctx st.rest →
      (∀ m', m' ≤ m → ∀ st' : RState σ, st'.Clean → InStep A B full e ctx st'.rest →
        UpToR eof (AfterGood B full) Q (execR S eof prog m' ctx ss st')) →
      UpToR eof (AfterGood B full) Q (execR S eof prog m ctx (code ++ ss) st) := by
  have hA := hc.impl
  induction n using Nat.strongRecOn generalizing g code s e F with
  | _ n ihn =>
    induction h with
    | pre ho _ ih =>
      intro m hm ctx ss st Q hcl hi hk
      exact ih m hm ctx ss st Q hcl (hi.congr fun w => accepts_eps hA ho) hk
    | post _ ho ih =>
      intro m hm ctx ss st Q hcl hi hk
      exact ih m hm ctx ss st Q hcl hi fun m' hm' st' h1 h2 => hk m' hm' st' h1 (h2.congr fun w => accepts_eps hA ho)
    | sync hi' ih =>
      intro m hm ctx ss st Q hcl hi hk
      cases m with
      | zero => simp [execR, UpToR]
      | succ m =>
        rw [List.cons_append, execR]
        exact late_sync hw hcl hi (ih m (by omega) ctx ss st Q hcl hi fun m' hm' => hk m' (by omega))
    | eps =>
      intro m hm ctx ss st Q hcl hi hk
      exact hk m (Nat.le_refl _) st hcl hi
    | @tok t s e F ho =>
      intro m hm ctx ss st Q hcl hi hk
      cases m with
      | zero => simp [execR, UpToR]
      | succ m =>
        rw [List.cons_append, List.nil_append, execR]
        refine late_match hA hw (.tok ho) ?_ hcl hi fun st' h1 h2 => hk m (by omega) st' h1 h2
        intro us f
        constructor
        · rintro ⟨c, hd⟩
          obtain ⟨y, hy, rfl, rfl, -⟩ := D_tok.1 hd
          exact ⟨y, by simp [hy], rfl, rfl⟩
        · rintro ⟨y, hy, rfl, rfl⟩
          exact ⟨_, .tok (TokType.num_inj (by simpa using hy))⟩
    | @set l ks t s e F ho h0 hl ht =>
      obtain ⟨h0, -⟩ := h0
      intro m hm ctx ss st Q hcl hi hk
      cases m with
      | zero => simp [execR, UpToR]
      | succ m =>
        rw [List.cons_append, List.nil_append, execR]
        refine late_match hA hw (.set ho h0 hl) ?_ hcl hi fun st' h1 h2 => hk m (by omega) st' h1 h2
        intro us f
        rw [D_alts_toks h0]
        constructor
        · rintro ⟨y, hy, rfl, rfl⟩
          exact ⟨y, (ht _).2 hy, rfl, rfl⟩
        · rintro ⟨y, hy, rfl, rfl⟩
          exact ⟨y, (ht _).1 hy, rfl, rfl⟩
    | @rule r s e F ho hF =>
      intro m hm ctx ss st Q hcl hi hk
      cases m with
      | zero => simp [execR, UpToR]
      | succ m =>
        obtain ⟨e', he, hr⟩ := hc.rule r
        have hf : A.follow s = some e := by simp [Atn.follow, ho]
        have hend : ∀ w, Accepts A e' (s :: ctx) w ↔ Accepts A e ctx w := fun w => accepts_stop hA he hf
        have hst : ∀ w, Accepts A s ctx w ↔ Accepts A (A.start r) (s :: ctx) w := by
          intro w
          rw [(Seg.rule ho).accepts hA, hr.seg.accepts hA]
          constructor
          · rintro ⟨us, vs, f, c, rfl, hd, hw⟩
            obtain ⟨f', hd', -⟩ := D_rule.1 hd
            exact ⟨us, vs, f', c, rfl, hd', (hend _).2 hw⟩
          · rintro ⟨us, vs, f, c, rfl, hd, hw⟩
            exact ⟨us, vs, _, c, rfl, .rule hd, (hend _).1 hw⟩
        have hg := ihn m (by omega) hr m (Nat.le_refl _) (s :: ctx) [] st (InStep A B full e ctx) hcl (hi.congr hst) (by
            intro m' _ st' h1 h2
            cases m' with
            | zero => simp [execR, UpToR]
            | succ m' =>
              rw [execR]
              exact .inl ⟨h1, h2.congr hend⟩)
        rw [List.append_nil] at hg
        rw [List.cons_append, List.nil_append, execR]
        cases hex : execR S eof prog m (s :: ctx) (prog r) st with
        | timeout => trivial
        | ok f st' =>
          rw [hex] at hg
          rcases hg with ⟨h1, h2⟩ | h
          · exact (hk m (by omega) st' h1 h2).prepend
          · exact (upToR_of_reported h).prepend
        | raised k st' =>
          rw [hex] at hg
          exact (upToR_of_reported (caught_headR hg)).prepend
    | @seq a b c c' s m e F h1 h2 ih ih' =>
      intro m hm ctx ss st Q hcl hi hk
      rw [List.append_assoc]
      exact ih m hm ctx _ st Q hcl hi fun m' hm' st' hcl' hi' =>
        ih' m' (by omega) ctx ss st' Q hcl' hi' fun m'' hm'' => hk m'' (by omega)
    | @predict gs ss0 bs d s e F hd ho hlen h0 hi0 ih =>
      intro m hm ctx ss st Q hcl hi hk
      cases m with
      | zero => simp [execR, UpToR]
      | succ m =>
        have hcan : CanRead A s ctx [] := by obtain ⟨us, ha⟩ := hi; exact ha.can
        have hout : ∀ j (hj : j < ss0.length), (A.out s)[j]? = some (.eps ss0[j]) := by
          intro j hj; rw [ho]; simp [hj]
        have hmem : ∀ j (hj : j < ss0.length), .eps ss0[j] ∈ A.out s := fun j hj => List.mem_of_getElem? (hout j hj)
        have hre : ∀ w, (∃ j, Reaches A d ctx w j) → CanRead A s ctx w := by
          rintro w ⟨j, ws, s', t, h1, h2, h3, h4⟩
          rw [hd] at h1
          cases h1
          exact CanRead.eps (List.mem_of_getElem? h3) ⟨ws, h4⟩
        have hce := (Seg.alt ho hlen h0 (fun i h h' => (hi0 i h h').seg)).can_end hA hcan
        rw [List.cons_append, List.nil_append, execR]
        cases hp : S.predict d ctx st.rest with
        | none =>
          obtain ⟨j, hj, hj', ws, hcan'⟩ := Seg.can_alts hA ho hlen h0 (fun i h h' => (hi0 i h h').seg) hcan
          have hr := hS.offending st.mem d ctx st.rest hp ⟨j + 1, ws, s, ss0[j], hd, by omega, by simpa using hout j hj', hcan'⟩
          exact .inl ⟨hcl, hi.good hw (hre _ hr)⟩
        | some i =>
          dsimp only
          obtain ⟨h1, h2⟩ := hS.ideal.range d ctx st.rest i s hp hd
          rw [ho, List.length_map] at h2
          have := ih (i - 1) (by omega) (by omega) m (by omega) ctx ss st Q hcl
            (hi.eps (hmem _ (by omega)) ((hi0 (i - 1) (by omega) (by omega)).seg.can_start hA hce)) fun m' hm' => hk m' (by omega)
          rwa [show i - 1 + 1 = i by omega] at this
    | @switch gs ss0 cs s e F ho hlen hlen' h0 hi0 hcond ih =>
      intro m hm ctx ss st Q hcl hi hk
      cases m with
      | zero => simp [execR, UpToR]
      | succ m =>
        have hcan : CanRead A s ctx [] := by obtain ⟨us, ha⟩ := hi; exact ha.can
        have hmem : ∀ j (hj : j < ss0.length), .eps ss0[j] ∈ A.out s := by
          intro j hj; rw [ho]; exact List.mem_map_of_mem (List.getElem_mem hj)
        have hseg : ∀ (i : Nat) (h : i < gs.length) (h' : i < ss0.length), Seg A gs[i] ss0[i] e :=
          fun i h h' => (hi0 i h h' (by omega)).seg
        have hce := (Seg.alt ho hlen h0 hseg).can_end hA hcan
        rw [List.cons_append, List.nil_append, execR]
        cases hsw : switchCase (la st.rest) cs with
        | none => exact .inl ⟨hcl, by rw [skipTo_zero]; exact hi.here hw⟩
        | some b =>
          dsimp only
          obtain ⟨i, hi', rfl⟩ := switchCase_some hsw
          exact ih i (by omega) (by omega) hi' m (by omega) ctx ss st Q hcl
            (hi.eps (hmem i (by omega)) ((hseg i (by omega) (by omega)).can_start hA hce)) fun m' hm' => hk m' (by omega)
    | @ifLA a t b s s1 s2 e F ho h1 h2 hn hf hF ih ih' =>
      intro m hm ctx ss st Q hcl hi hk
      cases m with
      | zero => simp [execR, UpToR]
      | succ m =>
        have hcan : CanRead A s ctx [] := by obtain ⟨us, ha⟩ := hi; exact ha.can
        have hseg : ∀ (i : Nat) (h : i < [a, G.eps].length) (h' : i < [s1, s2].length), Seg A ([a, G.eps])[i] ([s1, s2])[i] e := by
          intro i h h'
          match i, h with
          | 0, _ => exact h1.seg
          | 1, _ => exact h2.seg
        have m1 : .eps s1 ∈ A.out s := by rw [ho]; simp
        have m2 : .eps s2 ∈ A.out s := by rw [ho]; simp
        have hce := (Seg.alt (gs := [a, .eps]) (ss := [s1, s2]) ho rfl (by simp) hseg).can_end hA hcan
        rw [List.cons_append, List.nil_append, execR]
        split
        · exact ih m (by omega) ctx ss st Q hcl (hi.eps m1 (h1.seg.can_start hA hce)) fun m' hm' => hk m' (by omega)
        · exact ih' m (by omega) ctx ss st Q hcl (hi.eps m2 (h2.seg.can_start hA hce)) fun m' hm' => hk m' (by omega)
    | @whileLA a t b s l e F ho h1 hn hf hF ih =>
      intro m
      induction m using Nat.strongRecOn with
      | _ m ihm =>
        intro hm ctx ss st Q hcl hi hk
        cases m with
        | zero => simp [execR, UpToR]
        | succ m =>
          rw [List.cons_append, List.nil_append, execR]
          refine ih m (by omega) ctx _ st Q hcl hi ?_
          intro m' hm' st' hcl' hi'
          match m' with
          | 0 => simp [execR, UpToR]
          | 1 =>
            rw [execR]
            exact late_sync hw hcl' hi' (by simp [execR, UpToR])
          | m' + 2 =>
            rw [execR]
            refine late_sync hw hcl' hi' ?_
            rw [execR]
            have hcan : CanRead A l ctx [] := by obtain ⟨us, ha⟩ := hi'; exact ha.can
            have m1 : .eps s ∈ A.out l := by rw [ho]; simp
            have m2 : .eps e ∈ A.out l := by rw [ho]; simp
            have hce := (Seg.star ho h1.seg).can_end hA hcan
            split
            · exact ihm m' (by omega) (by omega) ctx ss st' Q hcl'
                (hi'.eps m1 ((Seg.seq h1.seg (Seg.star ho h1.seg)).can_start hA hce)) fun m'' hm'' => hk m'' (by omega)
            · exact hk m' (by omega) st' hcl' (hi'.eps m2 hce)
    | @whilePredict a b s l e d F hd ho h1 hn ih =>
      intro m
      induction m using Nat.strongRecOn with
      | _ m ihm =>
        intro hm ctx ss st Q hcl hi hk
        cases m with
        | zero => simp [execR, UpToR]
        | succ m =>
          rw [List.cons_append, List.nil_append, execR]
          refine ih m (by omega) ctx _ st Q hcl hi ?_
          intro m' hm' st' hcl' hi'
          match m' with
          | 0 => simp [execR, UpToR]
          | 1 =>
            rw [execR]
            exact late_sync hw hcl' hi' (by simp [execR, UpToR])
          | m' + 2 =>
            rw [execR]
            refine late_sync hw hcl' hi' ?_
            rw [execR]
            have hcan : CanRead A l ctx [] := by obtain ⟨us, ha⟩ := hi'; exact ha.can
            have m1 : .eps s ∈ A.out l := by rw [ho]; simp
            have m2 : .eps e ∈ A.out l := by rw [ho]; simp
            have hce := (Seg.star ho h1.seg).can_end hA hcan
            have hre : ∀ w, (∃ j, Reaches A d ctx w j) → CanRead A l ctx w := by
              rintro w ⟨j, ws, s', t, h1, h2, h3, h4⟩
              rw [hd] at h1
              cases h1
              exact CanRead.eps (List.mem_of_getElem? h3) ⟨ws, h4⟩
            cases hp : S.predict d ctx st'.rest with
            | none =>
              obtain ⟨ws, hce'⟩ := hce
              have hr := hS.offending st'.mem d ctx st'.rest hp ⟨2, ws, l, e, hd, by omega, by rw [ho]; rfl, hce'⟩
              exact .inl ⟨hcl', hi'.good hw (hre _ hr)⟩
            | some i =>
              dsimp only
              obtain ⟨r1, r2⟩ := hS.ideal.range d ctx st'.rest i l hp hd
              rw [ho] at r2
              match i, r1, r2 with
              | 1, _, _ =>
                exact ihm m' (by omega) (by omega) ctx ss st' Q hcl'
                  (hi'.eps m1 ((Seg.seq h1.seg (Seg.star ho h1.seg)).can_start hA hce)) fun m'' hm'' => hk m'' (by omega)
              | 2, _, _ => exact hk m' (by omega) st' hcl' (hi'.eps m2 hce)

end

end Fcsql
