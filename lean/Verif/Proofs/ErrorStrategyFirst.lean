/-
The first message of the parser says something true about the query.
-/
import Verif.Proofs.AdaptiveFail
import Verif.Proofs.ErrorStrategyEnds
import Verif.Proofs.ErrorStrategyForm
import Verif.Proofs.ErrorStrategyOrder
import Verif.Proofs.NeverLate

set_option autoImplicit false
set_option linter.unusedSimpArgs false

namespace Fcsql

attribute [local irreducible] parserAtn

/-! ### What the token sets say -/

section

theorem hasTok_mem {l : List (Option (List (Int × Int)))} {k : Int} (h : Atn.hasTok l k = true) : ∃ m, some m ∈ l ∧ InIntervals k m := by
  unfold Atn.hasTok at h
  rw [List.any_eq_true] at h
  obtain ⟨o, ho, h⟩ := h
  cases o with
  | none => cases h
  | some m =>
    simp only [List.any_eq_true, Bool.and_eq_true, decide_eq_true_eq] at h
    exact ⟨m, ho, h⟩

theorem hasEps_mem {l : List (Option (List (Int × Int)))} (h : Atn.hasEps l = true) : none ∈ l := by
  unfold Atn.hasEps at h
  rw [List.any_eq_true] at h
  obtain ⟨o, ho, h⟩ := h
  cases o with
  | none => exact ho
  | some m => cases h

end

/-- A token in the set of a state can come next. -/
theorem tok_next {s : Nat} {ctx : List Nat} {w : List Tok} (hc : Accepts parserAtn s ctx w) {y : Tok}
    (h : Atn.hasTok (parserAtn.nextTokens s) y.type.num = true) : ∃ ws, Accepts parserAtn s ctx (y :: ws) := by
  obtain ⟨m, hm, hi⟩ := hasTok_mem h
  obtain ⟨vs, hr⟩ := (lookSet_sound parserTab_ok parserNear_ok parserNear_length _ s [] [] (by simp) _ hm).2 m y rfl hi
  have := run_acceptsR parserTab_ok hr
  cases this with
  | done hw =>
    cases hc with
    | done _ => exact ⟨vs, .done hw⟩
    | ret _ hf ha => exact ⟨_, by rw [← List.cons_append]; exact .ret hw hf ha⟩

theorem accepts_follow {A : Atn} {s : Nat} {ctx : List Nat} {w : List Tok} (h : Accepts A s ctx w) : ∀ st ∈ ctx, ∃ t, A.follow st = some t := by
  induction h with
  | done _ => simp
  | ret _ hf _ ih =>
    intro st hst
    rcases List.mem_cons.1 hst with rfl | h
    · exact ⟨_, hf⟩
    · exact ih st h

/-- So can a token that the search with a context finds. -/
theorem tok_context {s : Nat} {ctx : List Nat} {w : List Tok} (hc : Accepts parserAtn s ctx w) {k : Int}
    (h : parserAtn.nextInContext k s ctx = true) :
    (∀ x : Tok, x.type.num = k → ∃ ws, Accepts parserAtn s ctx (x :: ws)) ∨ (k = -1 ∧ Accepts parserAtn s ctx []) := by
  unfold Atn.nextInContext at h
  have hs := lookSet_sound parserTab_ok parserNear_ok parserNear_length ((parserAtn.states.length + 1) * (ctx.length + 1)) s
    (parserAtn.returnStates ctx) [] (returnStates_near parserNear_ok parserNear_length ctx)
  rw [Bool.or_eq_true, Bool.and_eq_true, decide_eq_true_eq] at h
  have hacc : ∀ {ts}, Run parserAtn s (parserAtn.returnStates ctx) ts → Accepts parserAtn s ctx ts := fun hr =>
    acceptsR_accepts (run_acceptsR parserTab_ok hr) ctx rfl (accepts_follow hc)
  rcases h with h | ⟨h, hk⟩
  · left
    intro x hx
    obtain ⟨m, hm, hi⟩ := hasTok_mem h
    obtain ⟨vs, hr⟩ := (hs _ hm).2 m x rfl (hx ▸ hi)
    exact ⟨vs, hacc hr⟩
  · exact .inr ⟨hk, hacc ((hs _ (hasEps_mem h)).1 rfl)⟩

/-! ### Reports are not forgotten -/

section
variable {A : Atn} {eof : Tok} {prog : Rule → List Stmt}

theorem tells_report (t : Tok) (m : PyStr) (s : EState) : s.reports <+: (s.report t m).reports := by
  unfold EState.report
  split
  · exact List.prefix_refl _
  · exact List.prefix_append _ _

theorem tells_failure (ctx : List Nat) (f : Failure) (s : EState) : s.reports <+: (reportFailure A eof ctx f s).reports := by
  unfold reportFailure
  split
  · exact List.prefix_refl _
  · cases f
    · exact tells_report _ _ { s with unread := 0 }
    · exact tells_report _ _ s

theorem tells_sync (ctx : List Nat) (s : EState) : s.reports <+: (syncE A eof ctx s).state.reports := by
  unfold syncE
  split
  · exact List.prefix_refl _
  · dsimp only
    split
    · exact List.prefix_refl _
    · split
      · split
        · exact tells_report _ _ (s.look 1)
        · exact List.prefix_refl _
      · split
        · exact tells_report _ _ s
        · exact List.prefix_refl _

theorem tells_inline (ctx : List Nat) (s : EState) : s.reports <+: (inlineE A eof ctx s).state.reports := by
  unfold inlineE
  dsimp only
  split
  · exact tells_report _ _ (s.look 1)
  · split
    · exact tells_report _ _ (s.look 1)
    · exact List.prefix_refl _

theorem tells_match (ctx : List Nat) (ok : Int → Bool) (s : EState) : s.reports <+: (matchE A eof ctx ok s).state.reports := by
  unfold matchE
  split
  · exact tells_inline ctx s
  · split
    · exact List.prefix_refl _
    · exact tells_inline ctx s

theorem tells_caught (ctx : List Nat) (f : Failure) (s : EState) : s.reports <+: (caughtE A eof ctx f s).reports := tells_failure ctx f s

theorem tells : ∀ (n : Nat) (ctx : List Nat) (ss : List Stmt) (s : EState), s.reports <+: (execE A eof prog n ctx ss s).state.reports := by
  intro n
  induction n with
  | zero => intro ctx ss s; exact List.prefix_refl _
  | succ n ih =>
    intro ctx ss s
    cases ss with
    | nil => exact List.prefix_refl _
    | cons c ss =>
      cases c with
      | sync st => 
        rw [execE]
        have h := tells_sync (A := A) (eof := eof) ctx (s.at st)
        cases hs : syncE A eof ctx (s.at st) with
        | go s1 => rw [hs] at h; exact h.trans (ih ctx ss s1)
        | stop f s1 => rw [hs] at h; exact h
      | matchTok st k =>
        rw [execE]
        have h := tells_match (A := A) (eof := eof) ctx (fun j => decide (j = k)) (s.at st)
        cases hs : matchE A eof ctx (fun j => decide (j = k)) (s.at st) with
        | go s1 => rw [hs] at h; exact h.trans (ih ctx ss s1)
        | stop f s1 => rw [hs] at h; exact h
      | matchSet st t =>
        rw [execE]
        have h := tells_match (A := A) (eof := eof) ctx t.eval (s.at st)
        cases hs : matchE A eof ctx t.eval (s.at st) with
        | go s1 => rw [hs] at h; exact h.trans (ih ctx ss s1)
        | stop f s1 => rw [hs] at h; exact h
      | call st r =>
        rw [execE]
        have h := ih (st :: ctx) (prog r) (s.at st)
        cases hs : execE A eof prog n (st :: ctx) (prog r) (s.at st) with
        | ok s1 => rw [hs] at h; exact h.trans (ih ctx ss (s1.at st))
        | raised f s1 => rw [hs] at h; exact (h.trans (tells_caught (A := A) (eof := eof) (st :: ctx) f s1)).trans (ih ctx ss ((caughtE A eof (st :: ctx) f s1).at st))
        | timeout s1 => rw [hs] at h; exact h
      | predict d bs =>
        rw [execE]
        cases A.simulator.predictor.predict d ctx s.rest with
        | none => exact List.prefix_refl _
        | some a => exact ih _ _ (s.look _)
      | switchLA cs =>
        rw [execE]
        cases switchCase (la s.rest) cs with
        | none => exact List.prefix_refl _
        | some b => exact ih _ _ s
      | ifLA t b => rw [execE]; exact ih _ _ s
      | whileLA b st t => rw [execE]; exact ih _ _ s
      | whilePredict b st d => rw [execE]; exact ih _ _ s
      | loopPredict b st d =>
        rw [execE]
        cases A.simulator.predictor.predict d ctx s.rest with
        | none => exact List.prefix_refl _
        | some a =>
          dsimp only
          split
          · exact ih _ _ (s.look _)
          · split
            · exact ih _ _ (s.look _)
            · exact List.prefix_refl _


end

/-! ### Runs up to the first error -/

section
variable {eof : Tok} {full : List Tok}

/-- No error so far. -/
def EState.Clean (s : EState) : Prop := s.reports = [] ∧ s.recovering = false

/-- The first report is helpful. -/
def FirstOk (full : List Tok) (s : EState) : Prop :=
  ∃ r us vs, s.reports.head? = some r ∧ full = us ++ r.token :: vs ∧ Helpful us r.token vs r.message

theorem FirstOk.of_prefix {s s' : EState} (h : FirstOk full s) (hp : s.reports <+: s'.reports) : FirstOk full s' := by
  obtain ⟨r, us, vs, h1, h2, h3⟩ := h
  obtain ⟨l, hl⟩ := hp
  exact ⟨r, us, vs, by rw [← hl, List.head?_append, h1]; rfl, h2, h3⟩

theorem FirstOk.report {s : EState} (hs : s.Clean) {t : Tok} {msg : PyStr} {us vs : List Tok} (h1 : full = us ++ t :: vs)
    (h2 : Helpful us t vs msg) : FirstOk full (s.report t msg) := by
  refine ⟨⟨t, msg, s.unread⟩, us, vs, ?_, h1, h2⟩
  simp [EState.report, hs.1, hs.2]

/-- How statements may end: without an error, with `Q`; or the first report is helpful. -/
def UpToE (eof : Tok) (full : List Tok) (ctx : List Nat) (Q : List Tok → Prop) : EOut → Prop
  | .ok s => (s.Clean ∧ Q s.rest) ∨ FirstOk full s
  | .raised f s => FirstOk full (reportFailure parserAtn eof ctx f s)
  | .timeout _ => True

theorem upToE_of_reported {Q : List Tok → Prop} {n : Nat} {ctx : List Nat} {ss : List Stmt} {s : EState} (h : FirstOk full s) :
    UpToE eof full ctx Q (execE parserAtn eof code n ctx ss s) := by
  have hm := tells (A := parserAtn) (eof := eof) (prog := code) n ctx ss s
  cases he : execE parserAtn eof code n ctx ss s with
  | ok s' => rw [he] at hm; exact .inr (h.of_prefix hm)
  | raised f s' => rw [he] at hm; exact h.of_prefix (hm.trans (tells_failure ctx f s'))
  | timeout s' => trivial

/-- What a step may do. -/
def StepOk (eof : Tok) (full : List Tok) (ctx : List Nat) : EStep → Prop
  | .go s => FirstOk full s
  | .stop f s => FirstOk full (reportFailure parserAtn eof ctx f s)

theorem StepOk.andThen {Q : List Tok → Prop} {n : Nat} {ctx : List Nat} {ss : List Stmt} {step : EStep}
    (h : StepOk eof full ctx step) : UpToE eof full ctx Q (step.andThen (execE parserAtn eof code n ctx ss)) := by
  cases step with
  | go s => exact upToE_of_reported h
  | stop f s => exact h

/-- The state `s`, called from `ctx`, with `rest` to be read after `us`: the end can be reached from here, and whatever leads
to it makes a query. -/
structure OnWayAt (full : List Tok) (s : Nat) (ctx : List Nat) (us rest : List Tok) : Prop where
  split : us ++ rest = full
  can : ∃ w, Accepts parserAtn s ctx w
  sound : ∀ w, Accepts parserAtn s ctx w → ∃ f c, D (.rule .query) (us ++ w) f c

def OnWay (full : List Tok) (s : Nat) (ctx : List Nat) (rest : List Tok) : Prop := ∃ us, OnWayAt full s ctx us rest

theorem OnWay.congr {s t : Nat} {ctx ctx' : List Nat} {rest : List Tok} (h : ∀ w, Accepts parserAtn s ctx w ↔ Accepts parserAtn t ctx' w)
    (hi : OnWay full s ctx rest) : OnWay full t ctx' rest := by
  obtain ⟨us, ha⟩ := hi
  obtain ⟨w, hw⟩ := ha.can
  exact ⟨us, ha.split, ⟨w, (h w).1 hw⟩, fun w hw => ha.sound w ((h w).2 hw)⟩

theorem OnWay.canRead {s : Nat} {ctx : List Nat} {rest : List Tok} (h : OnWay full s ctx rest) : CanRead parserAtn s ctx [] := by
  obtain ⟨us, ha⟩ := h
  exact ha.can

/-- Along an edge without a token. -/
theorem OnWay.eps {s t : Nat} {ctx : List Nat} {rest : List Tok} (ho : .eps t ∈ parserAtn.out s) (hc : CanRead parserAtn t ctx [])
    (ha : OnWay full s ctx rest) : OnWay full t ctx rest := by
  obtain ⟨us, ha⟩ := ha
  refine ⟨us, ha.split, hc, fun w hw => ha.sound w ?_⟩
  cases hw with
  | done hw => exact .done (.eps ho hw)
  | ret hw hf ha' => exact .ret (.eps ho hw) hf ha'

/-- After the end of input nothing can be read. -/
theorem OnWayAt.ended (hf : Ending full eof) {s : Nat} {ctx : List Nat} {us : List Tok} (h : OnWayAt full s ctx us []) {w : List Tok}
    (hw : Accepts parserAtn s ctx w) : w = [] := by
  obtain ⟨f, c, hd⟩ := h.sound w hw
  have hs := h.split
  rw [List.append_nil] at hs
  obtain ⟨vs, hv⟩ := hf.ends
  obtain ⟨ws, x, e, hx, hin⟩ := query_tokens hd
  rw [hs, hv] at e
  cases hw' : w.reverse with
  | nil => exact List.reverse_eq_nil_iff.1 hw'
  | cons y l =>
    exfalso
    have : w = l.reverse ++ [y] := by rw [← List.reverse_reverse w, hw']; simp
    rw [this, ← List.append_assoc] at e
    have e := (List.append_inj' e rfl).1
    have := hin eof (by rw [← e]; simp)
    exact innerTy_eof this hf.eof

/-- A word that can be read makes a beginning. -/
theorem OnWayAt.begins {s : Nat} {ctx : List Nat} {us rest : List Tok} (h : OnWayAt full s ctx us rest) {w ws : List Tok}
    (hw : Accepts parserAtn s ctx (w ++ ws)) : Begins (us ++ w) := by
  obtain ⟨f, c, hd⟩ := h.sound _ hw
  exact ⟨ws, f, c, by rw [List.append_assoc]; exact hd⟩

theorem mem_listed {has : Int → Bool} {t : TokType} : t ∈ inOrder has ↔ has t.num = true := by
  simp [inOrder, mem_symbolOrder]

theorem expected_noEps {A : Atn} {s : Nat} (h : Atn.hasEps (A.nextTokens s) = false) (ctx : List Nat) :
    (fun k => A.expectedTok k s ctx) = fun k => Atn.hasTok (A.nextTokens s) k := by
  funext k
  cases ctx <;> simp [Atn.expectedTok, h]

/-- What the messages of a state have in common. -/
structure Asks (s : Nat) (ctx : List Nat) (us : List Tok) (x : Tok) (l : List TokType) : Prop where
  ne : l ≠ []
  sub : l.Sublist symbolOrder
  eq : (showSet fun k => parserAtn.expectedTok k s ctx) = listing l
  has : ∀ t, t ∈ l ↔ Atn.hasTok (parserAtn.nextTokens s) t.num = true
  not : x.type ∉ l
  good : ∀ y : Tok, y.type ∈ l → Begins (us ++ [y])

theorem asks {s : Nat} {ctx : List Nat} {us : List Tok} {x : Tok} {rest : List Tok} (h : OnWayAt full s ctx us rest)
    (he : Atn.hasEps (parserAtn.nextTokens s) = false) (hs : parserAtn.Some s) (hx : Atn.hasTok (parserAtn.nextTokens s) x.type.num = false) :
    Asks s ctx us x (inOrder fun k => parserAtn.expectedTok k s ctx) := by
  have hm : ∀ t, t ∈ (inOrder fun k => parserAtn.expectedTok k s ctx) ↔ Atn.hasTok (parserAtn.nextTokens s) t.num = true := by
    intro t
    rw [expected_noEps he]
    exact mem_listed
  refine ⟨inOrder_ne (hs.expected ctx), inOrder_sublist _, showSet_listing _, hm, by rw [hm, hx]; simp, ?_⟩
  intro y hy
  obtain ⟨w, hw⟩ := h.can
  obtain ⟨ws, hacc⟩ := tok_next hw ((hm _).1 hy)
  exact h.begins (w := [y]) hacc

theorem told_mismatch {s : EState} {ctx : List Nat} {us : List Tok} {x : Tok} {vs : List Tok} {l : List TokType} (hc : s.Clean)
    (hr : s.rest = x :: vs) (hf : us ++ s.rest = full) (ha : Asks s.state ctx us x l) :
    FirstOk full (reportFailure parserAtn eof ctx .mismatch s) := by
  unfold reportFailure
  rw [if_neg (by rw [hc.2]; simp)]
  have hcur : s.current eof = x := by simp [EState.current, hr]
  rw [hcur]
  refine FirstOk.report hc (us := us) (vs := vs) (by rw [← hf, hr]) ?_
  exact .mismatched l ha.ne ha.sub (by rw [ha.eq]; rfl) ha.not ha.good

theorem told_unwanted {s : EState} {ctx : List Nat} {us : List Tok} {x z : Tok} {vs : List Tok} {l : List TokType} (hc : s.Clean)
    (hr : s.rest = x :: z :: vs) (hf : us ++ s.rest = full) (ha : Asks s.state ctx us x l) (hz : z.type ∈ l) :
    FirstOk full (reportUnwanted parserAtn eof ctx s) := by
  unfold reportUnwanted
  have hcur : s.current eof = x := by simp [EState.current, hr]
  rw [hcur]
  refine FirstOk.report hc (us := us) (vs := z :: vs) (by rw [← hf, hr]) ?_
  exact .extraneous l ha.ne ha.sub (by rw [ha.eq]; rfl) ha.not ha.good ⟨z, vs, rfl, hz⟩

theorem told_missing {s : EState} {ctx : List Nat} {us : List Tok} {x : Tok} {vs : List Tok} {l : List TokType} (hc : s.Clean)
    (hr : s.rest = x :: vs) (hf : us ++ s.rest = full) (ha : Asks s.state ctx us x l) (hi : ∀ y : Tok, y.type ∈ l → Begins (us ++ [y, x])) :
    FirstOk full (reportMissing parserAtn eof ctx s) := by
  unfold reportMissing
  have hcur : s.current eof = x := by simp [EState.current, hr]
  rw [hcur]
  refine FirstOk.report hc (us := us) (vs := vs) (by rw [← hf, hr]) ?_
  exact .missing l ha.ne ha.sub (by rw [ha.eq]; rfl) ha.not hi

/-- The token after the current one. -/
theorem second {s : EState} {x : Tok} {vs : List Tok} (hr : s.rest = x :: vs) {p : Int → Bool} (hx : p x.type.num = false) (h : p (la2 s.rest) = true) :
    ∃ z ws, vs = z :: ws ∧ p z.type.num = true := by
  rw [hr] at h
  cases vs with
  | nil => rw [show la2 [x] = x.type.num from rfl, hx] at h; cases h
  | cons z ws => exact ⟨z, ws, rfl, h⟩

theorem step_sync (hf : Ending full eof) {s : EState} {ctx : List Nat} (hat : parserAtn.SyncAt s.state) (hc : s.Clean)
    (hi : OnWay full s.state ctx s.rest) : syncE parserAtn eof ctx s = .go s ∨ StepOk eof full ctx (syncE parserAtn eof ctx s) := by
  unfold syncE
  rw [if_neg (by rw [hc.2]; simp)]
  dsimp only
  split
  · exact .inl rfl
  · right
    rename_i hn
    simp only [Bool.or_eq_true, not_or, Bool.not_eq_true] at hn
    have hty : parserAtn.stateType s.state ∈ [3, 5, 4, 10] ∧ parserAtn.Some s.state := by
      rcases hat with h' | h'
      · rw [h'] at hn; exact absurd hn.2 (by simp)
      · exact h'
    rw [if_pos hty.1]
    obtain ⟨us, ha⟩ := hi
    cases hr : s.rest with
    | nil =>
      exfalso
      rw [hr] at ha
      obtain ⟨w, hw⟩ := ha.can
      have := ha.ended hf hw
      subst this
      have h1 := (sync_iff s.state ctx []).2 hw.expected
      have h2 : (Atn.hasTok (parserAtn.nextTokens s.state) (la []) || Atn.hasEps (parserAtn.nextTokens s.state)) = true := by
        change parserAtn.syncOk s.state [] = true at h1
        unfold Atn.syncOk at h1
        rw [List.any_eq_true] at h1
        obtain ⟨o, ho, h1⟩ := h1
        rw [Bool.or_eq_true]
        cases o with
        | none => exact .inr (List.any_eq_true.2 ⟨_, ho, rfl⟩)
        | some m => exact .inl (List.any_eq_true.2 ⟨_, ho, h1⟩)
      rw [hr] at hn
      rw [hn.1, hn.2] at h2
      cases h2
    | cons x vs =>
      have hx : Atn.hasTok (parserAtn.nextTokens s.state) x.type.num = false := by have := hn.1; rw [hr] at this; exact this
      have hask := asks (x := x) ha hn.2 hty.2 hx
      have hsp := ha.split
      have hr1 : (s.look 1).rest = x :: vs := hr
      split
      · rename_i hd
        have hd' : parserAtn.expectedTok (la2 s.rest) s.state ctx = true := hd
        rw [show parserAtn.expectedTok (la2 s.rest) s.state ctx = Atn.hasTok (parserAtn.nextTokens s.state) (la2 s.rest) from
          congrFun (expected_noEps hn.2 ctx) _] at hd'
        obtain ⟨z, ws, rfl, hz⟩ := second (p := fun k => Atn.hasTok (parserAtn.nextTokens s.state) k) hr hx hd'
        exact (told_unwanted (eof := eof) (s := s.look 1) (us := us) hc hr1 hsp hask ((hask.has _).2 hz)).of_prefix (List.prefix_refl _)
      · exact told_mismatch (eof := eof) (s := (s.look 1).note _) (us := us) hc hr1 hsp hask

theorem step_inline (hf : Ending full eof) {g : G} {e : Nat} {s : EState} {ctx : List Nat} {ok : Int → Bool} (hseg : Seg parserAtn g s.state e)
    (hg : ∀ us f, (∃ c, D g us f c) ↔ ∃ y, ok y.type.num = true ∧ us = [y] ∧ f = [.leaf y]) (hft : parserAtn.firstTarget s.state = e)
    (hat : parserAtn.Only s.state ok) (hc : s.Clean) (hi : OnWay full s.state ctx s.rest) (hno : ∀ x xs, s.rest = x :: xs → ok x.type.num = false) :
    StepOk eof full ctx (inlineE parserAtn eof ctx s) := by
  obtain ⟨us, ha⟩ := hi
  have hstart : ∀ {w}, Accepts parserAtn s.state ctx w → ∃ y v, w = y :: v ∧ Accepts parserAtn e ctx v := by
    intro w hw
    obtain ⟨u, v, f, c, rfl, hd, hv⟩ := (hseg.accepts code_ok.impl ctx _).1 hw
    obtain ⟨y, -, rfl, -⟩ := (hg _ _).1 ⟨c, hd⟩
    exact ⟨y, v, rfl, hv⟩
  cases hr : s.rest with
  | nil =>
    exfalso
    rw [hr] at ha
    obtain ⟨w, hw⟩ := ha.can
    obtain ⟨y, v, rfl, -⟩ := hstart hw
    cases ha.ended hf hw
  | cons x vs =>
    have hokx := hno x vs hr
    have hx : Atn.hasTok (parserAtn.nextTokens s.state) x.type.num = false := by
      cases h : Atn.hasTok (parserAtn.nextTokens s.state) x.type.num with
      | false => rfl
      | true => rw [hat.2.1 _ h] at hokx; cases hokx
    have hask := asks (x := x) ha hat.1 hat.2.2 hx
    have hsp := ha.split
    have hr1 : (s.look 1).rest = x :: vs := hr
    unfold inlineE
    dsimp only
    split
    · rename_i hd
      have hd' : parserAtn.expectedTok (la2 s.rest) s.state ctx = true := hd
      rw [show parserAtn.expectedTok (la2 s.rest) s.state ctx = Atn.hasTok (parserAtn.nextTokens s.state) (la2 s.rest) from
        congrFun (expected_noEps hat.1 ctx) _] at hd'
      obtain ⟨z, ws, rfl, hz⟩ := second (p := fun k => Atn.hasTok (parserAtn.nextTokens s.state) k) hr hx hd'
      exact (told_unwanted (eof := eof) (s := s.look 1) (us := us) hc hr1 hsp hask ((hask.has _).2 hz)).of_prefix (List.prefix_refl _)
    · split
      · rename_i hins
        have hins' : parserAtn.nextInContext (la s.rest) (parserAtn.firstTarget s.state) ctx = true := hins
        rw [hft, hr] at hins'
        obtain ⟨w, hw⟩ := ha.can
        obtain ⟨-, v, -, hv⟩ := hstart hw
        have hgo : ∀ y : Tok, y.type ∈ (inOrder fun k => parserAtn.expectedTok k s.state ctx) → ∀ v, Accepts parserAtn e ctx v →
            Accepts parserAtn s.state ctx (y :: v) := by
          intro y hy v hv
          obtain ⟨c, hd⟩ := (hg [y] [.leaf y]).2 ⟨y, hat.2.1 _ ((hask.has _).1 hy), rfl, rfl⟩
          exact (hseg.accepts code_ok.impl ctx _).2 ⟨[y], v, _, c, rfl, hd, hv⟩
        refine (told_missing (eof := eof) (s := s.look 1) (us := us) hc hr1 hsp hask ?_).of_prefix (List.prefix_refl _)
        intro y hy
        rcases tok_context hv hins' with h | ⟨hk, h⟩
        · obtain ⟨ws, hacc⟩ := h x rfl
          exact ha.begins (w := [y, x]) (hgo y hy _ hacc)
        · exfalso
          obtain ⟨f, c, hd⟩ := ha.sound _ (hgo y hy _ h)
          obtain ⟨ws, z, e, hz, -⟩ := query_tokens hd
          have := (List.append_inj' e rfl).2
          simp only [List.cons.injEq, and_true] at this
          have hty : y.type = x.type := by rw [this, hz]; exact (TokType.num_inj (show x.type.num = TokType.EOF.num from hk)).symm
          rw [← hty, hat.2.1 _ ((hask.has _).1 hy)] at hokx
          cases hokx
      · exact told_mismatch (eof := eof) (s := (s.look 1).note _) (us := us) hc hr1 hsp hask

/-! ### The generated functions -/

theorem Clean.look {s : EState} (h : s.Clean) (k : Nat) : (s.look k).Clean := h

/-- No alternative. -/
theorem told_noViable (hf : Ending full eof) {s : EState} {ctx : List Nat} (hc : s.Clean) (hr : s.rest <:+ full) (k : Nat) :
    FirstOk full (reportFailure parserAtn eof ctx (.noViable k) s) := by
  unfold reportFailure
  rw [if_neg (by rw [hc.2]; simp)]
  have hread : Reading full { s with unread := 0, reports := [] } :=
    ⟨hr, Nat.zero_le _, (by intro r h; cases h), (by intro r h; cases h), (by intro r h; cases h), List.Pairwise.nil⟩
  obtain ⟨ws, mid, vs, h1, h2⟩ := hread.noViable hf k
  exact FirstOk.report (s := { s with unread := 0 }) hc h1 (.noViable ws mid rfl h2)

theorem OnWay.suffix {s : Nat} {ctx : List Nat} {rest : List Tok} (h : OnWay full s ctx rest) : rest <:+ full := by
  obtain ⟨us, ha⟩ := h
  exact ⟨us, ha.split⟩

theorem told_caught {s : EState} {ctx : List Nat} {f : Failure} (h : FirstOk full (reportFailure parserAtn eof ctx f s)) :
    FirstOk full (caughtE parserAtn eof ctx f s) := h

/-- A statement that matches one token. -/
theorem told_match (hf : Ending full eof) {g : G} {s e : Nat} (hs : Seg parserAtn g s e) {ok : Int → Bool}
    (hg : ∀ us f, (∃ c, D g us f c) ↔ ∃ y, ok y.type.num = true ∧ us = [y] ∧ f = [.leaf y]) (hft : parserAtn.firstTarget s = e)
    (hat : parserAtn.Only s ok) {n : Nat} {ctx : List Nat}
    {ss : List Stmt} {st : EState} {Q : List Tok → Prop} (hc : st.Clean) (hi : OnWay full s ctx st.rest)
    (hk : ∀ st' : EState, st'.Clean → OnWay full e ctx st'.rest → UpToE eof full ctx Q (execE parserAtn eof code n ctx ss st')) :
    UpToE eof full ctx Q ((matchE parserAtn eof ctx ok (st.at s)).andThen (execE parserAtn eof code n ctx ss)) := by
  have hin : (∀ x xs, st.rest = x :: xs → ok x.type.num = false) →
      UpToE eof full ctx Q ((inlineE parserAtn eof ctx (st.at s)).andThen (execE parserAtn eof code n ctx ss)) := fun hno =>
    (step_inline hf (s := st.at s) hs hg hft hat hc hi hno).andThen
  cases hr : st.rest with
  | nil =>
    rw [matchE, show (st.at s).rest = [] from hr]
    exact hin (by rw [hr]; intro x xs h; cases h)
  | cons y ys =>
    rw [matchE, show (st.at s).rest = y :: ys from hr]
    dsimp only
    split
    · rename_i hy
      have hcan := hi.canRead
      obtain ⟨us, ha⟩ := hi
      obtain ⟨c, hd⟩ := (hg [y] [.leaf y]).2 ⟨y, hy, rfl, rfl⟩
      refine hk _ ⟨hc.1, rfl⟩ ⟨us ++ [y], ?_, ?_, ?_⟩
      · have := ha.split
        rw [hr] at this
        simpa [EState.matched, EState.look, EState.endError] using this
      · obtain ⟨w, hw⟩ := hs.can_end code_ok.impl hcan
        exact ⟨w, by simpa using hw⟩
      · intro w hw
        have := ha.sound (y :: w) ((hs.accepts code_ok.impl ctx _).2 ⟨[y], w, _, c, rfl, hd, hw⟩)
        simpa using this
    · rename_i hy
      refine hin ?_
      rw [hr]
      intro x xs h
      cases h
      simpa using hy

/-- `sync`. -/
theorem told_sync (hf : Ending full eof) {s : Nat} (hat : parserAtn.SyncAt s) {n : Nat} {ctx : List Nat}
    {ss : List Stmt} {st : EState} {Q : List Tok → Prop} (hc : st.Clean) (hi : OnWay full s ctx st.rest)
    (hk : UpToE eof full ctx Q (execE parserAtn eof code n ctx ss (st.at s))) :
    UpToE eof full ctx Q ((syncE parserAtn eof ctx (st.at s)).andThen (execE parserAtn eof code n ctx ss)) := by
  rcases step_sync hf (s := st.at s) hat hc hi with h | h
  · rw [h]; exact hk
  · exact h.andThen

theorem told_of_impl (hf : Ending full eof) (n : Nat) {g : G} {cd : List Stmt} {s e : Nat} {F : List Int}
    (h : Impl parserAtn g cd s e F) : AtStates parserAtn cd → ∀ m, m ≤ n → ∀ ctx ss (st : EState) Q, st.Clean →
      OnWay full s ctx st.rest →
      (∀ m', m' ≤ m → ∀ st' : EState, st'.Clean → OnWay full e ctx st'.rest →
        UpToE eof full ctx Q (execE parserAtn eof code m' ctx ss st')) →
      UpToE eof full ctx Q (execE parserAtn eof code m ctx (cd ++ ss) st) := by
  have hc := code_ok
  have hA := hc.impl
  induction n using Nat.strongRecOn generalizing g cd s e F with
  | _ n ihn =>
    induction h with
    | pre ho _ ih =>
      intro hat m hm ctx ss st Q hcl hi hk
      exact ih hat m hm ctx ss st Q hcl (hi.congr fun w => accepts_eps hA ho) hk
    | post _ ho ih =>
      intro hat m hm ctx ss st Q hcl hi hk
      exact ih hat m hm ctx ss st Q hcl hi fun m' hm' st' h1 h2 => hk m' hm' st' h1 (h2.congr fun w => accepts_eps hA ho)
    | sync hi' ih =>
      intro hat m hm ctx ss st Q hcl hi hk
      cases hat with
      | sync _ hat1 hat2 =>
        cases m with
        | zero => simp [execE, UpToE]
        | succ m =>
          rw [List.cons_append, execE]
          exact told_sync hf hat1 hcl hi (ih hat2 m (by omega) ctx ss (st.at _) Q hcl hi fun m' hm' => hk m' (by omega))
    | eps =>
      intro hat m hm ctx ss st Q hcl hi hk
      exact hk m (Nat.le_refl _) st hcl hi
    | @tok t s e F ho =>
      intro hat m hm ctx ss st Q hcl hi hk
      cases hat with
      | matchTok _ hat1 _ =>
        cases m with
        | zero => simp [execE, UpToE]
        | succ m =>
          rw [List.cons_append, List.nil_append, execE]
          refine told_match hf (.tok ho) ?_ (by simp [Atn.firstTarget, ho]) hat1 hcl hi fun st' h1 h2 => hk m (by omega) st' h1 h2
          intro us f
          constructor
          · rintro ⟨c, hd⟩
            obtain ⟨y, hy, rfl, rfl, -⟩ := D_tok.1 hd
            exact ⟨y, by simp [hy], rfl, rfl⟩
          · rintro ⟨y, hy, rfl, rfl⟩
            exact ⟨_, .tok (TokType.num_inj (by simpa using hy))⟩
    | @set l ks t s e F ho h0 hl ht =>
      obtain ⟨h0, -⟩ := h0
      intro hat m hm ctx ss st Q hcl hi hk
      cases hat with
      | matchSet _ hat1 _ =>
        cases m with
        | zero => simp [execE, UpToE]
        | succ m =>
          rw [List.cons_append, List.nil_append, execE]
          refine told_match hf (.set ho h0 hl) ?_ (by simp [Atn.firstTarget, ho]) hat1 hcl hi fun st' h1 h2 => hk m (by omega) st' h1 h2
          intro us f
          rw [D_alts_toks h0]
          constructor
          · rintro ⟨y, hy, rfl, rfl⟩
            exact ⟨y, (ht _).2 hy, rfl, rfl⟩
          · rintro ⟨y, hy, rfl, rfl⟩
            exact ⟨y, (ht _).1 hy, rfl, rfl⟩
    | @rule r s e F ho hF =>
      intro hat m hm ctx ss st Q hcl hi hk
      cases m with
      | zero => simp [execE, UpToE]
      | succ m =>
        obtain ⟨e', he, hr⟩ := hc.rule r
        have hfo : parserAtn.follow s = some e := by simp [Atn.follow, ho]
        have hend : ∀ w, Accepts parserAtn e' (s :: ctx) w ↔ Accepts parserAtn e ctx w := fun w => accepts_stop hA he hfo
        have hst : ∀ w, Accepts parserAtn s ctx w ↔ Accepts parserAtn (parserAtn.start r) (s :: ctx) w := by
          intro w
          rw [(Seg.rule ho).accepts hA, hr.seg.accepts hA]
          constructor
          · rintro ⟨us, vs, f, c, rfl, hd, hw⟩
            obtain ⟨f', hd', -⟩ := D_rule.1 hd
            exact ⟨us, vs, f', c, rfl, hd', (hend _).2 hw⟩
          · rintro ⟨us, vs, f, c, rfl, hd, hw⟩
            exact ⟨us, vs, _, c, rfl, .rule hd, (hend _).1 hw⟩
        have hg := ihn m (by omega) hr (code_atStates r) m (Nat.le_refl _) (s :: ctx) [] (st.at s) (OnWay full e ctx) hcl (hi.congr hst) (by
            intro m' _ st' h1 h2
            cases m' with
            | zero => simp [execE, UpToE]
            | succ m' =>
              rw [execE]
              exact .inl ⟨h1, h2.congr hend⟩)
        rw [List.append_nil] at hg
        rw [List.cons_append, List.nil_append, execE]
        cases hex : execE parserAtn eof code m (s :: ctx) (code r) (st.at s) with
        | timeout st' => trivial
        | ok st' =>
          rw [hex] at hg
          rcases hg with ⟨h1, h2⟩ | h
          · exact hk m (by omega) (st'.at s) h1 h2
          · exact upToE_of_reported (s := st'.at s) h
        | raised k st' =>
          rw [hex] at hg
          exact upToE_of_reported (s := (caughtE parserAtn eof (s :: ctx) k st').at s) (told_caught hg)
    | @seq a b c c' s m e F h1 h2 ih ih' =>
      intro hat m hm ctx ss st Q hcl hi hk
      rw [List.append_assoc]
      exact ih hat.left.1 m hm ctx _ st Q hcl hi fun m' hm' st' hcl' hi' =>
        ih' hat.left.2 m' (by omega) ctx ss st' Q hcl' hi' fun m'' hm'' => hk m'' (by omega)
    | @predict gs ss0 bs d s e F hd ho hlen h0 hi0 ih =>
      intro hat m hm ctx ss st Q hcl hi hk
      cases hat with
      | predict hat1 _ =>
        cases m with
        | zero => simp [execE, UpToE]
        | succ m =>
          have hcan := hi.canRead
          have hmem : ∀ j (hj : j < ss0.length), .eps ss0[j] ∈ parserAtn.out s := by
            intro j hj; rw [ho]; exact List.mem_map_of_mem (List.getElem_mem hj)
          have hce := (Seg.alt ho hlen h0 (fun i h h' => (hi0 i h h').seg)).can_end hA hcan
          rw [List.cons_append, List.nil_append, execE]
          cases hp : parserAtn.simulator.predictor.predict d ctx st.rest with
          | none => exact told_noViable hf (s := st.look _) hcl hi.suffix _
          | some i =>
            dsimp only
            obtain ⟨h1, h2⟩ := predict_range hd ctx st.rest hp
            rw [ho, List.length_map] at h2
            have := ih (i - 1) (by omega) (by omega) (branch_atStates hat1 _) m (by omega) ctx ss (st.look (parserAtn.looksAt d ctx st.rest)) Q hcl
              (hi.eps (hmem _ (by omega)) ((hi0 (i - 1) (by omega) (by omega)).seg.can_start hA hce)) fun m' hm' => hk m' (by omega)
            rwa [show i - 1 + 1 = i by omega] at this
    | @switch gs ss0 cs s e F ho hlen hlen' h0 hi0 hcond ih =>
      intro hat m hm ctx ss st Q hcl hi hk
      cases hat with
      | switchLA hat1 _ =>
        cases m with
        | zero => simp [execE, UpToE]
        | succ m =>
          have hcan := hi.canRead
          have hmem : ∀ j (hj : j < ss0.length), .eps ss0[j] ∈ parserAtn.out s := by
            intro j hj; rw [ho]; exact List.mem_map_of_mem (List.getElem_mem hj)
          have hseg : ∀ (i : Nat) (h : i < gs.length) (h' : i < ss0.length), Seg parserAtn gs[i] ss0[i] e :=
            fun i h h' => (hi0 i h h' (by omega)).seg
          have hce := (Seg.alt ho hlen h0 hseg).can_end hA hcan
          rw [List.cons_append, List.nil_append, execE]
          cases hsw : switchCase (la st.rest) cs with
          | none => exact told_noViable hf hcl hi.suffix _
          | some b =>
            dsimp only
            obtain ⟨i, hi', rfl⟩ := switchCase_some hsw
            exact ih i (by omega) (by omega) hi' (hat1 _ (List.getElem_mem hi')) m (by omega) ctx ss st Q hcl
              (hi.eps (hmem i (by omega)) ((hseg i (by omega) (by omega)).can_start hA hce)) fun m' hm' => hk m' (by omega)
    | @ifLA a t b s s1 s2 e F ho h1 h2 hn hfst hF ih ih' =>
      intro hat m hm ctx ss st Q hcl hi hk
      cases hat with
      | ifLA hat1 _ =>
        cases m with
        | zero => simp [execE, UpToE]
        | succ m =>
          have hcan := hi.canRead
          have hseg : ∀ (i : Nat) (h : i < [a, G.eps].length) (h' : i < [s1, s2].length), Seg parserAtn ([a, G.eps])[i] ([s1, s2])[i] e := by
            intro i h h'
            match i, h with
            | 0, _ => exact h1.seg
            | 1, _ => exact h2.seg
          have m1 : .eps s1 ∈ parserAtn.out s := by rw [ho]; simp
          have m2 : .eps s2 ∈ parserAtn.out s := by rw [ho]; simp
          have hce := (Seg.alt (gs := [a, .eps]) (ss := [s1, s2]) ho rfl (by simp) hseg).can_end hA hcan
          rw [List.cons_append, List.nil_append, execE]
          split
          · exact ih hat1 m (by omega) ctx ss st Q hcl (hi.eps m1 (h1.seg.can_start hA hce)) fun m' hm' => hk m' (by omega)
          · exact ih' .nil m (by omega) ctx ss st Q hcl (hi.eps m2 (h2.seg.can_start hA hce)) fun m' hm' => hk m' (by omega)
    | @whileLA a t b s l e F ho h1 hn hfst hF ih =>
      intro hat
      cases hat with
      | whileLA _ hat1 hat2 _ =>
        intro m
        induction m using Nat.strongRecOn with
        | _ m ihm =>
          intro hm ctx ss st Q hcl hi hk
          cases m with
          | zero => simp [execE, UpToE]
          | succ m =>
            rw [List.cons_append, List.nil_append, execE]
            refine ih hat2 m (by omega) ctx _ st Q hcl hi ?_
            intro m' hm' st' hcl' hi'
            match m' with
            | 0 => simp [execE, UpToE]
            | 1 =>
              rw [execE]
              exact told_sync hf hat1 hcl' hi' (by simp [execE, UpToE])
            | m' + 2 =>
              rw [execE]
              refine told_sync hf hat1 hcl' hi' ?_
              rw [execE]
              have hcan := hi'.canRead
              have m1 : .eps s ∈ parserAtn.out l := by rw [ho]; simp
              have m2 : .eps e ∈ parserAtn.out l := by rw [ho]; simp
              have hce := (Seg.star ho h1.seg).can_end hA hcan
              split
              · exact ihm m' (by omega) (by omega) ctx ss (st'.at l) Q hcl'
                  (hi'.eps m1 ((Seg.seq h1.seg (Seg.star ho h1.seg)).can_start hA hce)) fun m'' hm'' => hk m'' (by omega)
              · exact hk m' (by omega) (st'.at l) hcl' (hi'.eps m2 hce)
    | @whilePredict a b s l e d F hd ho h1 hn ih =>
      intro hat
      cases hat with
      | whilePredict _ hat1 hat2 _ =>
        intro m
        induction m using Nat.strongRecOn with
        | _ m ihm =>
          intro hm ctx ss st Q hcl hi hk
          cases m with
          | zero => simp [execE, UpToE]
          | succ m =>
            rw [List.cons_append, List.nil_append, execE]
            refine ih hat2 m (by omega) ctx _ st Q hcl hi ?_
            intro m' hm' st' hcl' hi'
            match m' with
            | 0 => simp [execE, UpToE]
            | 1 =>
              rw [execE]
              exact told_sync hf hat1 hcl' hi' (by simp [execE, UpToE])
            | m' + 2 =>
              rw [execE]
              refine told_sync hf hat1 hcl' hi' ?_
              rw [execE]
              have hcan := hi'.canRead
              have m1 : .eps s ∈ parserAtn.out l := by rw [ho]; simp
              have m2 : .eps e ∈ parserAtn.out l := by rw [ho]; simp
              have hce := (Seg.star ho h1.seg).can_end hA hcan
              cases hp : parserAtn.simulator.predictor.predict d ctx (st'.at l).rest with
              | none => exact told_noViable hf (s := (st'.at l).look _) hcl' hi'.suffix _
              | some i =>
                dsimp only
                obtain ⟨r1, r2⟩ := predict_range hd ctx (st'.at l).rest hp
                rw [ho] at r2
                match i, r1, r2 with
                | 1, _, _ =>
                  exact ihm m' (by omega) (by omega) ctx ss ((st'.at l).look _) Q hcl'
                    (hi'.eps m1 ((Seg.seq h1.seg (Seg.star ho h1.seg)).can_start hA hce)) fun m'' hm'' => hk m'' (by omega)
                | 2, _, _ => exact hk m' (by omega) ((st'.at l).look _) hcl' (hi'.eps m2 hce)

/-- At the beginning. -/
theorem onWay_start {e : Nat} (he : parserAtn.isStop e = true)
    (hi : Impl parserAtn (body .query) (code .query) (parserAtn.start .query) e (followOf .query)) (ts : List Tok) :
    OnWay ts (parserAtn.start .query) [] ts := by
  have hacc : ∀ w, Accepts parserAtn (parserAtn.start .query) [] w ↔ ∃ f c, D (.rule .query) w f c := by
    intro w
    rw [hi.seg.accepts code_ok.impl]
    constructor
    · rintro ⟨u, v, f, c, rfl, hd, hv⟩
      rw [accepts_stop_nil code_ok.impl he] at hv
      subst hv
      exact ⟨_, c, by rw [List.append_nil]; exact .rule hd⟩
    · rintro ⟨f, c, hd⟩
      obtain ⟨f', hd, -⟩ := D_rule.1 hd
      exact ⟨w, [], f', c, by simp, hd, (accepts_stop_nil code_ok.impl he).2 rfl⟩
  refine ⟨[], rfl, ?_, fun w hw => (hacc _).1 hw⟩
  obtain ⟨ws, f, c, hd⟩ := begins_nil
  exact ⟨ws, (hacc _).2 ⟨f, c, hd⟩⟩

/-- The first report of a run. -/
theorem first_helpful {n : Nat} {q : PyStr} {r : Report} {rs : List Report} {u : Nat}
    (h : callE parserAtn (eofTok q) code n .query (tokenStream q) = some (r :: rs, u)) :
    ∃ us vs, tokenStream q = us ++ r.token :: vs ∧ Helpful us r.token vs r.message := by
  obtain ⟨e, he, hi⟩ := code_ok.rule .query
  have hg := told_of_impl (ending_stream q) n hi (code_atStates .query) n (Nat.le_refl _) [] [] (EState.new (tokenStream q))
    (fun _ => True) ⟨rfl, rfl⟩ (onWay_start he hi _) (by
      intro m' _ st' h1 _
      cases m' with
      | zero => simp [execE, UpToE]
      | succ m' => rw [execE]; exact .inl ⟨h1, trivial⟩)
  rw [List.append_nil] at hg
  have key : ∀ s : EState, FirstOk (tokenStream q) s → s.reports = r :: rs →
      ∃ us vs, tokenStream q = us ++ r.token :: vs ∧ Helpful us r.token vs r.message := by
    rintro s ⟨r', us, vs, h1, h2, h3⟩ hs
    rw [hs] at h1
    cases h1
    exact ⟨us, vs, h2, h3⟩
  unfold callE at h
  cases hex : execE parserAtn (eofTok q) code n [] (code .query) (EState.new (tokenStream q)) with
  | timeout s => rw [hex] at h; cases h
  | ok s =>
    rw [hex] at h hg
    simp only [Option.some.injEq, Prod.mk.injEq] at h
    rcases hg with ⟨h1, -⟩ | hg
    · rw [h1.1] at h; cases h.1
    · exact key s hg h.1
  | raised f s =>
    rw [hex] at h hg
    simp only [Option.some.injEq, Prod.mk.injEq] at h
    exact key _ (told_caught hg) h.1

end

end Fcsql
