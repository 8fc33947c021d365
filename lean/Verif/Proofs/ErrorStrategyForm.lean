/-
The reports of the error strategy: their tokens, their order, and their texts.
-/
import Verif.Proofs.ErrorStrategySeen
import Verif.Spec.Messages

set_option autoImplicit false
set_option linter.unusedSimpArgs false

namespace Fcsql

/-! ### Texts -/

theorem joinStr_commas : ∀ l : List PyStr, joinStr py!", " l = commas l := by
  intro l
  induction l with
  | nil => rfl
  | cons x l ih =>
    cases l with
    | nil => rfl
    | cons y l => simp only [joinStr, commas, ih]

theorem symbolOrder_numbers : symbolOrder.map TokType.num = typeNumbers := by decide

theorem symbol_eq (t : TokType) : elementName t.num = symbol t := by cases t <;> decide

theorem mem_symbolOrder (t : TokType) : t ∈ symbolOrder := by cases t <;> decide

/-- The inOrder types. -/
def inOrder (has : Int → Bool) : List TokType := symbolOrder.filter fun t => has t.num

theorem showSet_listing (has : Int → Bool) : showSet has = listing (inOrder has) := by
  have h : (typeNumbers.filter has).map elementName = (inOrder has).map symbol := by
    rw [← symbolOrder_numbers, inOrder, List.filter_map, List.map_map]
    exact List.map_congr_left fun t _ => symbol_eq t
  unfold showSet listing
  rw [h]
  generalize hl : inOrder has = l
  match l with
  | [] => rfl
  | [t] => rfl
  | t :: t' :: l => simp [joinStr_commas]

theorem inOrder_sublist (has : Int → Bool) : (inOrder has).Sublist symbolOrder := List.filter_sublist

theorem inOrder_ne {has : Int → Bool} (h : ∃ t : TokType, has t.num = true) : inOrder has ≠ [] := by
  obtain ⟨t, ht⟩ := h
  exact List.ne_nil_of_mem (List.mem_filter.2 ⟨mem_symbolOrder t, ht⟩)

theorem quoted_eq (s : PyStr) : escapeWSAndQuote s = quoted s := rfl

theorem textUpTo_texts : ∀ (k : Nat) (ts : List Tok), (∀ us x vs, ts = us ++ x :: vs → x.type = .EOF → vs = []) →
    textUpTo k ts = texts (ts.take (k + 1)) := by
  intro k
  induction k with
  | zero =>
    intro ts h
    cases ts with
    | nil => rfl
    | cons x xs => simp only [textUpTo, List.take_succ_cons, List.take_zero, texts, List.append_nil]
  | succ k ih =>
    intro ts h
    cases ts with
    | nil => rfl
    | cons x xs =>
      simp only [textUpTo, List.take_succ_cons, texts]
      split
      · rename_i hx
        have := h [] x xs rfl hx
        subst this
        rfl
      · rw [ih xs (fun us y vs e => h (x :: us) y vs (by rw [e]; rfl))]

/-! ### What is known while reading -/

variable {A : Atn} {eof : Tok} {prog : Rule → List Stmt} {full : List Tok}

/-- What is known of the reports on the tokens `full`. -/
structure Reading (full : List Tok) (s : EState) : Prop where
  rest : s.rest <:+ full
  unread : s.unread ≤ s.rest.length - 1
  token : ∀ r ∈ s.reports, ∃ us vs, full = us ++ r.token :: vs ∧ r.unread ≤ vs.length
  worded : ∀ r ∈ s.reports, Worded full r.token r.message
  last : ∀ r ∈ s.reports, s.unread ≤ r.unread
  order : s.reports.Pairwise fun a b => b.unread ≤ a.unread

/-- The tokens end with the end of input. -/
structure Ending (full : List Tok) (eof : Tok) : Prop where
  ends : ∃ us, full = us ++ [eof]
  eof : eof.type = .EOF
  only : ∀ us x vs, full = us ++ x :: vs → x.type = .EOF → vs = []

theorem Reading.same {s s' : EState} (h : Reading full s) (h1 : s'.rest = s.rest) (h2 : s'.unread = s.unread)
    (h3 : s'.reports = s.reports) : Reading full s' :=
  ⟨h1 ▸ h.rest, by rw [h1, h2]; exact h.unread, h3 ▸ h.token, h3 ▸ h.worded, by rw [h2, h3]; exact h.last, h3 ▸ h.order⟩

theorem Reading.less {s : EState} (h : Reading full s) {u : Nat} (hu : u ≤ s.unread) : Reading full { s with unread := u } :=
  ⟨h.rest, Nat.le_trans hu h.unread, h.token, h.worded, fun r hr => Nat.le_trans hu (h.last r hr), h.order⟩

theorem Reading.look {s : EState} (h : Reading full s) (k : Nat) : Reading full (s.look k) :=
  h.less (Nat.min_le_left _ _)

theorem Reading.to {s : EState} (h : Reading full s) {ts : List Tok} (hts : ts <:+ s.rest) :
    Reading full ({ s with rest := ts }.look 0) :=
  ⟨hts.trans h.rest, by simp only [EState.look]; omega, h.token, h.worded,
    fun r hr => Nat.le_trans (Nat.min_le_left _ _) (h.last r hr), h.order⟩

theorem Reading.skip {s : EState} (h : Reading full s) (k : Nat) : Reading full (s.skip k) := h.to (List.drop_suffix _ _)

theorem Reading.endError {s : EState} (h : Reading full s) : Reading full s.endError := h.same rfl rfl rfl

theorem Reading.note {s : EState} (h : Reading full s) (d : Choice) : Reading full (s.note d) := h.same rfl rfl rfl

theorem Reading.at {s : EState} (h : Reading full s) (st : Nat) : Reading full (s.at st) := h.same rfl rfl rfl

theorem Reading.matched {s : EState} (h : Reading full s) {ts : List Tok} (hts : ts <:+ s.rest) : Reading full (s.matched ts) :=
  (h.to hts).same rfl rfl rfl

theorem Reading.report {s : EState} (h : Reading full s) {t : Tok} {msg : PyStr}
    (ht : ∃ us vs, full = us ++ t :: vs ∧ s.unread ≤ vs.length) (hm : Worded full t msg) : Reading full (s.report t msg) := by
  unfold EState.report
  split
  · exact h
  · refine ⟨h.rest, h.unread, ?_, ?_, ?_, ?_⟩
    · intro r hr
      rcases List.mem_append.1 hr with hr | hr
      · exact h.token r hr
      · rw [List.mem_singleton] at hr; subst hr; exact ht
    · intro r hr
      rcases List.mem_append.1 hr with hr | hr
      · exact h.worded r hr
      · rw [List.mem_singleton] at hr; subst hr; exact hm
    · intro r hr
      rcases List.mem_append.1 hr with hr | hr
      · exact h.last r hr
      · rw [List.mem_singleton] at hr; subst hr; exact Nat.le_refl _
    · rw [List.pairwise_append]
      refine ⟨h.order, List.pairwise_singleton _ _, ?_⟩
      intro a ha b hb
      rw [List.mem_singleton] at hb
      subst hb
      exact h.last a ha

/-- A token from the current one on. -/
theorem Reading.ahead (hf : Ending full eof) {s : EState} (h : Reading full s) (k : Nat) :
    ∃ us mid vs, full = us ++ mid ++ (skipTo k s.rest).headD eof :: vs ∧ mid ++ [(skipTo k s.rest).headD eof] = (if s.rest = [] then [eof] else s.rest.take (k + 1)) ∧
      vs.length = s.rest.length - 1 - k := by
  obtain ⟨ws, e⟩ := h.rest
  by_cases hr : s.rest = []
  · obtain ⟨us, hu⟩ := hf.ends
    refine ⟨us, [], [], ?_, ?_, ?_⟩
    · simp [hr, skipTo, hu]
    · simp [hr, skipTo]
    · simp [hr]
  · have hpos : 0 < s.rest.length := List.length_pos_iff.2 hr
    have hlt : min k (s.rest.length - 1) < s.rest.length := by omega
    have hd : s.rest.drop (min k (s.rest.length - 1)) = s.rest[min k (s.rest.length - 1)] :: s.rest.drop (min k (s.rest.length - 1) + 1) :=
      List.drop_eq_getElem_cons hlt
    have hsk : skipTo k s.rest = s.rest[min k (s.rest.length - 1)] :: s.rest.drop (min k (s.rest.length - 1) + 1) := hd
    rw [hsk, List.headD_cons]
    refine ⟨ws, s.rest.take (min k (s.rest.length - 1)), s.rest.drop (min k (s.rest.length - 1) + 1), ?_, ?_, ?_⟩
    · rw [List.append_assoc, ← hd, List.take_append_drop, e]
    · rw [if_neg hr, List.take_append_getElem hlt]
      rcases Nat.le_total k (s.rest.length - 1) with hle | hle
      · rw [Nat.min_eq_left hle]
      · rw [Nat.min_eq_right hle, List.take_of_length_le (by omega), List.take_of_length_le (by omega)]
    · rw [List.length_drop]; omega

theorem Reading.here (hf : Ending full eof) {s : EState} (h : Reading full s) :
    ∃ us vs, full = us ++ s.current eof :: vs ∧ s.unread ≤ vs.length := by
  obtain ⟨us, mid, vs, h1, h2, h3⟩ := h.ahead hf 0
  rw [skipTo_none] at h1
  refine ⟨us ++ mid, vs, h1, ?_⟩
  have := h.unread
  omega

theorem Reading.unwanted (hf : Ending full eof) {s : EState} (h : Reading full s) {ctx : List Nat}
    (hex : ∃ t : TokType, A.expectedTok t.num s.state ctx = true) : Reading full (reportUnwanted A eof ctx s) := by
  refine h.report (h.here hf) (.extraneous (inOrder fun k => A.expectedTok k s.state ctx) (inOrder_ne hex) (inOrder_sublist _) ?_)
  rw [showSet_listing]; rfl

theorem Reading.missing (hf : Ending full eof) {s : EState} (h : Reading full s) {ctx : List Nat}
    (hex : ∃ t : TokType, A.expectedTok t.num s.state ctx = true) : Reading full (reportMissing A eof ctx s) := by
  refine h.report (h.here hf) (.missing (inOrder fun k => A.expectedTok k s.state ctx) (inOrder_ne hex) (inOrder_sublist _) ?_)
  rw [showSet_listing]; rfl

/-- What a mismatch is raised with. -/
def Failure.Fine (A : Atn) (ctx : List Nat) (s : EState) : Failure → Prop
  | .noViable _ => True
  | .mismatch => ∃ t : TokType, A.expectedTok t.num s.state ctx = true

/-- `reportNoViableAlternative`: the tokens shown. -/
theorem Reading.noViable (hf : Ending full eof) {s : EState} (h : Reading full s) (k : Nat) :
    ∃ us mid vs, full = us ++ mid ++ (skipTo k s.rest).headD eof :: vs ∧
      (py!"no viable alternative at input " ++ escapeWSAndQuote (if (s.current eof).type = .EOF then py!"<EOF>" else textUpTo k s.rest)) =
        py!"no viable alternative at input " ++ quoted (if mid = [] ∧ ((skipTo k s.rest).headD eof).type = .EOF then py!"<EOF>"
          else texts (mid ++ [(skipTo k s.rest).headD eof])) := by
  obtain ⟨us, mid, vs, h1, h2, h3⟩ := h.ahead hf k
  refine ⟨us, mid, vs, h1, ?_⟩
  rw [quoted_eq]
  congr 2
  by_cases hr : s.rest = []
  · rw [if_pos hr] at h2
    have hm : mid = [] := by
      cases mid with
      | nil => rfl
      | cons y l => simp at h2
    subst hm
    simp only [List.nil_append, List.cons.injEq, and_true] at h2
    rw [h2]
    simp [EState.current, hr, hf.eof]
  · rw [if_neg hr] at h2
    have honly : ∀ us x vs, s.rest = us ++ x :: vs → x.type = .EOF → vs = [] := by
      intro us x vs e hx
      obtain ⟨ws, hw⟩ := h.rest
      exact hf.only (ws ++ us) x vs (by rw [← hw, e]; simp) hx
    rw [textUpTo_texts k s.rest honly, h2]
    cases hrest : s.rest with
    | nil => exact absurd hrest hr
    | cons x xs =>
      rw [hrest] at h2 honly
      simp only [EState.current, hrest, List.headD_cons]
      by_cases hx : x.type = .EOF
      · have := honly [] x xs rfl hx
        subst this
        rw [List.take_succ_cons] at h2
        cases mid with
        | nil => simp at h2 ⊢; simp [h2, hx]
        | cons y l => simp at h2
      · rw [if_neg hx, if_neg]
        rintro ⟨rfl, hy⟩
        simp only [List.nil_append, List.take_succ_cons, List.cons.injEq] at h2
        rw [h2.1] at hy
        exact hx hy

theorem Reading.failure (hf : Ending full eof) {s : EState} (h : Reading full s) {ctx : List Nat} {f : Failure} (hfine : f.Fine A ctx s) :
    Reading full (reportFailure A eof ctx f s) := by
  unfold reportFailure
  split
  · exact h
  · cases f with
    | mismatch =>
      refine h.report (h.here hf) (.mismatched (inOrder fun k => A.expectedTok k s.state ctx) (inOrder_ne hfine) (inOrder_sublist _) ?_)
      rw [showSet_listing]; rfl
    | noViable k =>
      obtain ⟨us, mid, vs, h1, h2⟩ := h.noViable hf k
      have h0 : Reading full { s with unread := 0 } := h.less (Nat.zero_le _)
      refine h0.report ⟨us ++ mid, vs, h1, Nat.zero_le _⟩ (.noViable us mid vs h1 h2)

theorem Reading.recover {s : EState} (h : Reading full s) (ctx : List Nat) : Reading full (recover A ctx s) := by
  unfold Fcsql.recover
  dsimp only
  refine Reading.note (Reading.skip ?_ _) _
  exact (h.skip _).same rfl rfl rfl

theorem Reading.caught (hf : Ending full eof) {s : EState} (h : Reading full s) {ctx : List Nat} {f : Failure} (hfine : f.Fine A ctx s) :
    Reading full (caughtE A eof ctx f s) := (h.failure hf hfine).recover ctx

/-! ### Runs -/

theorem Atn.Some.expected {st : Nat} (h : A.Some st) (ctx : List Nat) : ∃ t : TokType, A.expectedTok t.num st ctx = true := by
  obtain ⟨t, ht⟩ := h
  exact ⟨t, by cases ctx <;> simp [Atn.expectedTok, ht]⟩

/-- After a statement. -/
def EStep.Fine (A : Atn) (ctx : List Nat) (full : List Tok) : EStep → Prop
  | .go s => Reading full s
  | .stop f s => Reading full s ∧ f.Fine A ctx s

theorem fine_sync (hf : Ending full eof) {s : EState} {ctx : List Nat}
    (hat : A.SyncAt s.state) (h : Reading full s) : (syncE A eof ctx s).Fine A ctx full := by
  unfold syncE
  split
  · exact h
  · dsimp only
    split
    · exact h
    · rename_i hn
      simp only [Bool.or_eq_true, not_or, Bool.not_eq_true] at hn
      have hty : A.stateType s.state ∈ [3, 5, 4, 10] ∧ A.Some s.state := by
        rcases hat with h' | h'
        · rw [h'] at hn; exact absurd hn.2 (by simp)
        · exact h'
      have hex := hty.2.expected ctx
      rw [if_pos hty.1]
      split
      · exact (((h.look 1).unwanted hf hex).skip 1).endError.note _
      · exact ⟨(h.look 1).note _, hex⟩

theorem drop_two_suffix {s : EState} : s.rest.drop 2 <:+ (EState.skip 1 s).rest := by
  simp only [EState.skip, EState.look, skipTo]
  have : min 1 (s.rest.length - 1) ≤ 2 := by omega
  obtain ⟨d, hd⟩ := Nat.le.dest this
  rw [← hd, ← List.drop_drop]
  exact List.drop_suffix _ _

theorem fine_inline (hf : Ending full eof) {s : EState} {ctx : List Nat} {ok : Int → Bool}
    (hat : A.Only s.state ok) (h : Reading full s) : (inlineE A eof ctx s).Fine A ctx full := by
  have hex := hat.2.2.expected ctx
  unfold inlineE
  dsimp only
  split
  · refine Reading.note (Reading.matched (((h.look 1).unwanted hf hex).skip 1) ?_) _
    have := drop_two_suffix (s := reportUnwanted A eof ctx (s.look 1))
    rwa [(same_unwanted (A := A) (eof := eof) ctx (s.look 1)).rest] at this
  · split
    · exact ((h.look 1).missing hf hex).note _
    · exact ⟨(h.look 1).note _, hex⟩

theorem fine_match (hf : Ending full eof) {s : EState} {ctx : List Nat} {ok : Int → Bool}
    (hat : A.Only s.state ok) (h : Reading full s) : (matchE A eof ctx ok s).Fine A ctx full := by
  unfold matchE
  split
  · exact fine_inline hf hat h
  · rename_i x xs hr
    split
    · exact h.matched (by rw [hr]; exact List.suffix_cons _ _)
    · exact fine_inline hf hat h

/-- After statements. -/
def EOut.Fine (A : Atn) (ctx : List Nat) (full : List Tok) : EOut → Prop
  | .ok s => Reading full s
  | .raised f s => Reading full s ∧ f.Fine A ctx s
  | .timeout _ => True

theorem EStep.Fine.andThen {e : EStep} {ctx : List Nat} {k : EState → EOut} (h : e.Fine A ctx full)
    (hk : ∀ s, Reading full s → (k s).Fine A ctx full) : (e.andThen k).Fine A ctx full := by
  cases e with
  | go s => exact hk s h
  | stop f s => exact h

theorem fine (hf : Ending full eof) (hat : ∀ r, AtStates A (prog r)) : ∀ (n : Nat) (ctx : List Nat) (ss : List Stmt) (s : EState),
    AtStates A ss → Reading full s → (execE A eof prog n ctx ss s).Fine A ctx full := by
  intro n
  induction n with
  | zero => intro ctx ss s _ _; exact trivial
  | succ n ih =>
    intro ctx ss s has h
    cases has with
    | nil => exact h
    | @sync st ss h1 h2 h3 => rw [execE]; exact (fine_sync hf (s := s.at st) h2 (h.at st)).andThen fun s' hs' => ih ctx ss s' h3 hs'
    | @matchTok st k ss h1 h2 h3 => rw [execE]; exact (fine_match hf (s := s.at st) h2 (h.at st)).andThen fun s' hs' => ih ctx ss s' h3 hs'
    | @matchSet st t ss h1 h2 h3 => rw [execE]; exact (fine_match hf (s := s.at st) h2 (h.at st)).andThen fun s' hs' => ih ctx ss s' h3 hs'
    | @call st r ss h1 h3 =>
      rw [execE]
      have hin := ih (st :: ctx) (prog r) (s.at st) (hat r) (h.at st)
      cases hres : execE A eof prog n (st :: ctx) (prog r) (s.at st) with
      | ok s' => rw [hres] at hin; exact ih ctx ss (s'.at st) h3 (hin.at st)
      | raised f s' => rw [hres] at hin; exact ih ctx ss _ h3 ((hin.1.caught hf hin.2).at st)
      | timeout s' => exact trivial
    | @predict d bs ss h1 h3 =>
      rw [execE]
      cases A.simulator.predictor.predict d ctx s.rest with
      | none => exact ⟨h.look _, trivial⟩
      | some a => exact ih ctx _ _ ((branch_atStates h1 a).append h3) (h.look _)
    | @switchLA cs ss h1 h3 =>
      rw [execE]
      cases hsw : switchCase (la s.rest) cs with
      | none => exact ⟨h, trivial⟩
      | some b =>
        obtain ⟨c, hcm, rfl⟩ := switchCase_mem hsw
        exact ih ctx _ s ((h1 c hcm).append h3) h
    | @ifLA t b ss h1 h3 =>
      rw [execE]
      refine ih ctx _ s (AtStates.append ?_ h3) h
      split
      · exact h1
      · exact .nil
    | @whileLA b st t ss h1 h2 h4 h3 => rw [execE]; exact ih ctx _ s (h4.append (.sync h1 h2 (.ifLA (.whileLA h1 h2 h4 .nil) h3))) h
    | @whilePredict b st d ss h1 h2 h4 h3 => rw [execE]; exact ih ctx _ s (h4.append (.sync h1 h2 (.loopPredict h1 h2 h4 h3))) h
    | @loopPredict b st d ss h1 h2 h4 h3 =>
      rw [execE]
      cases A.simulator.predictor.predict d ctx s.rest with
      | none => exact ⟨h.look _, trivial⟩
      | some a =>
        dsimp only
        split
        · exact ih ctx _ _ h3 (h.look _)
        · split
          · exact ih ctx _ _ (.whilePredict h1 h2 h4 h3) (h.look _)
          · exact ⟨h.look _, trivial⟩

/-- Statements end with the last one. -/
theorem ok_last (hf : Ending full eof) (hat : ∀ r, AtStates A (prog r)) {c : Stmt} {s' : EState} {ctx : List Nat} :
    ∀ (n : Nat) (ss : List Stmt) (s : EState), AtStates A ss → Reading full s → execE A eof prog n ctx (ss ++ [c]) s = .ok s' →
      ∃ m s0, Reading full s0 ∧ execE A eof prog m ctx [c] s0 = .ok s' := by
  intro n
  induction n with
  | zero => intro ss s _ _ h; rw [execE] at h; cases h
  | succ n ih =>
    intro ss s has h he
    have step : ∀ {e : EStep} {ss : List Stmt}, e.Fine A ctx full → AtStates A ss → e.andThen (execE A eof prog n ctx (ss ++ [c])) = .ok s' →
        ∃ m s0, Reading full s0 ∧ execE A eof prog m ctx [c] s0 = .ok s' := by
      intro e ss hfi h3 he
      cases e with
      | go s1 => exact ih ss s1 h3 hfi he
      | stop f s1 => cases he
    cases has with
    | nil => exact ⟨n + 1, s, h, he⟩
    | @sync st ss h1 h2 h3 => rw [List.cons_append, execE] at he; exact step (fine_sync hf (s := s.at st) h2 (h.at st)) h3 he
    | @matchTok st k ss h1 h2 h3 => rw [List.cons_append, execE] at he; exact step (fine_match hf (s := s.at st) h2 (h.at st)) h3 he
    | @matchSet st t ss h1 h2 h3 => rw [List.cons_append, execE] at he; exact step (fine_match hf (s := s.at st) h2 (h.at st)) h3 he
    | @call st r ss h1 h3 =>
      rw [List.cons_append, execE] at he
      have hin := fine hf hat n (st :: ctx) (prog r) (s.at st) (hat r) (h.at st)
      cases hres : execE A eof prog n (st :: ctx) (prog r) (s.at st) with
      | ok s1 => rw [hres] at hin he; exact ih ss (s1.at st) h3 (hin.at st) he
      | raised f s1 => rw [hres] at hin he; exact ih ss _ h3 ((hin.1.caught hf hin.2).at st) he
      | timeout s1 => rw [hres] at he; cases he
    | @predict d bs ss h1 h3 =>
      rw [List.cons_append, execE] at he
      cases hpr : A.simulator.predictor.predict d ctx s.rest with
      | none => rw [hpr] at he; cases he
      | some a => rw [hpr] at he; exact ih _ _ ((branch_atStates h1 a).append h3) (h.look _) (by rw [List.append_assoc]; exact he)
    | @switchLA cs ss h1 h3 =>
      rw [List.cons_append, execE] at he
      cases hsw : switchCase (la s.rest) cs with
      | none => rw [hsw] at he; cases he
      | some b =>
        rw [hsw] at he
        obtain ⟨c', hcm, rfl⟩ := switchCase_mem hsw
        exact ih _ s ((h1 c' hcm).append h3) h (by rw [List.append_assoc]; exact he)
    | @ifLA t b ss h1 h3 =>
      rw [List.cons_append, execE, ← List.append_assoc] at he
      refine ih _ s (AtStates.append ?_ h3) h he
      split
      · exact h1
      · exact .nil
    | @whileLA b st t ss h1 h2 h4 h3 =>
      rw [List.cons_append, execE] at he
      exact ih _ s (h4.append (.sync h1 h2 (.ifLA (.whileLA h1 h2 h4 .nil) h3))) h (by rw [List.append_assoc]; exact he)
    | @whilePredict b st d ss h1 h2 h4 h3 =>
      rw [List.cons_append, execE] at he
      exact ih _ s (h4.append (.sync h1 h2 (.loopPredict h1 h2 h4 h3))) h (by rw [List.append_assoc]; exact he)
    | @loopPredict b st d ss h1 h2 h4 h3 =>
      rw [List.cons_append, execE] at he
      cases hpr : A.simulator.predictor.predict d ctx s.rest with
      | none => rw [hpr] at he; cases he
      | some a =>
        rw [hpr] at he
        dsimp only at he
        split at he
        · exact ih _ _ h3 (h.look _) he
        · split at he
          · exact ih _ _ (.whilePredict h1 h2 h4 h3) (h.look _) he
          · cases he

end Fcsql
