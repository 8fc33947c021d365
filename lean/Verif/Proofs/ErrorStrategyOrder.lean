/-
The order in which the listener is told about the errors of the lexer and of the parser.
-/
import Verif.Proofs.ErrorStrategyEnds
import Verif.Proofs.ErrorStrategyForm
import Verif.Props.Records

set_option autoImplicit false
set_option linter.unusedSimpArgs false

namespace Fcsql

/-! ### The end of the run -/

theorem query_last : parserAtn.lookSet ((parserAtn.states.length + 1) * (([] : List Nat).length + 1)) (parserAtn.firstTarget 51) (parserAtn.returnStates []) [] = [none] := by
  decide +kernel

theorem code_query_last : ∃ pre, code .query = pre ++ [.matchTok 51 (-1)] :=
  ⟨[.call 46 .main_query, .sync 49, .ifLA (.eq 18) [.matchTok 47 18, .call 48 .within_part]], rfl⟩

theorem AtStates.left {A : Atn} : ∀ {a b : List Stmt}, AtStates A (a ++ b) → AtStates A a ∧ AtStates A b := by
  intro a
  induction a with
  | nil => intro b h; exact ⟨.nil, h⟩
  | cons c a ih =>
    intro b h
    cases h with
    | sync h1 h2 h3 => exact ⟨.sync h1 h2 (ih h3).1, (ih h3).2⟩
    | matchTok h1 h2 h3 => exact ⟨.matchTok h1 h2 (ih h3).1, (ih h3).2⟩
    | matchSet h1 h2 h3 => exact ⟨.matchSet h1 h2 (ih h3).1, (ih h3).2⟩
    | call h1 h3 => exact ⟨.call h1 (ih h3).1, (ih h3).2⟩
    | predict h1 h3 => exact ⟨.predict h1 (ih h3).1, (ih h3).2⟩
    | switchLA h1 h3 => exact ⟨.switchLA h1 (ih h3).1, (ih h3).2⟩
    | ifLA h1 h3 => exact ⟨.ifLA h1 (ih h3).1, (ih h3).2⟩
    | whileLA h1 h2 h4 h3 => exact ⟨.whileLA h1 h2 h4 (ih h3).1, (ih h3).2⟩
    | whilePredict h1 h2 h4 h3 => exact ⟨.whilePredict h1 h2 h4 (ih h3).1, (ih h3).2⟩
    | loopPredict h1 h2 h4 h3 => exact ⟨.loopPredict h1 h2 h4 (ih h3).1, (ih h3).2⟩

attribute [local irreducible] parserAtn parseQuery

theorem ending_stream (q : PyStr) : Ending (tokenStream q) (eofTok q) := by
  refine ⟨⟨lexTokens q, rfl⟩, rfl, ?_⟩
  intro us x vs h hx
  cases hv : vs.reverse with
  | nil => exact List.reverse_eq_nil_iff.1 hv
  | cons y l =>
    exfalso
    have hvs : vs = l.reverse ++ [y] := by rw [← List.reverse_reverse vs, hv]; simp
    rw [hvs, tokenStream, show us ++ x :: (l.reverse ++ [y]) = (us ++ x :: l.reverse) ++ [y] by simp] at h
    have := (List.append_inj' h rfl).1
    exact lexTokens_noEof q x (by rw [this]; simp) hx

theorem reading_new (q : PyStr) : Reading (tokenStream q) (EState.new (tokenStream q)) :=
  ⟨List.suffix_refl _, Nat.le_refl _, (by intro r hr; cases hr), (by intro r hr; cases hr), (by intro r hr; cases hr), List.Pairwise.nil⟩

theorem untilTok_all {ts : List Tok} (h : ∀ us x vs, ts = us ++ x :: vs → x.type = .EOF → vs = []) :
    (skipTo (untilTok (fun _ => false) ts) ts).length ≤ 1 ∨ ∀ x ∈ ts, x.type ≠ .EOF := by
  by_cases hall : ∃ x ∈ ts, x.type = .EOF
  case neg => exact .inr fun x hx he => hall ⟨x, hx, he⟩
  left
  obtain ⟨x, hx, he⟩ := hall
  obtain ⟨us, vs, rfl⟩ := List.append_of_mem hx
  have := h us x vs rfl he
  subst this
  have hu : us.length ≤ untilTok (fun _ => false) (us ++ [x]) := by
    unfold untilTok
    rw [List.takeWhile_append_of_pos]
    · simp
    · intro y hy
      obtain ⟨a, b, rfl⟩ := List.append_of_mem hy
      have : y.type ≠ .EOF := by
        intro hye
        have := h a y (b ++ [x]) (by simp) hye
        simp at this
      simp [this]
  rw [length_skipTo]
  simp only [List.length_append, List.length_cons, List.length_nil]
  omega

theorem Reading.only {full : List Tok} {eof : Tok} (hf : Ending full eof) {s : EState} (h : Reading full s) :
    ∀ us x vs, s.rest = us ++ x :: vs → x.type = .EOF → vs = [] := by
  intro us x vs e hx
  obtain ⟨ws, hw⟩ := h.rest
  exact hf.only (ws ++ us) x vs (by rw [← hw, e]; simp) hx

theorem Reading.hasEof {full : List Tok} {eof : Tok} (hf : Ending full eof) {s : EState} (h : Reading full s) (hall : ∀ x ∈ s.rest, x.type ≠ .EOF) :
    s.rest = [] := by
  obtain ⟨ws, hw⟩ := h.rest
  obtain ⟨us, hu⟩ := hf.ends
  cases hr : s.rest.reverse with
  | nil => exact List.reverse_eq_nil_iff.1 hr
  | cons y l =>
    exfalso
    have hvs : s.rest = l.reverse ++ [y] := by rw [← List.reverse_reverse s.rest, hr]; simp
    rw [hvs, hu, ← List.append_assoc] at hw
    have := (List.append_inj' hw rfl).2
    simp only [List.cons.injEq, and_true] at this
    exact hall y (by rw [hvs]; simp) (this ▸ hf.eof)

/-- At the end of the run all has been read. -/
theorem callE_reading {n : Nat} {q : PyStr} {rs : List Report} {u : Nat}
    (h : callE parserAtn (eofTok q) code n .query (tokenStream q) = some (rs, u)) : u = 0 ∧ ∃ s, Reading (tokenStream q) s ∧ s.reports = rs := by
  have hf := ending_stream q
  have hfine := fine hf code_atStates n [] (code .query) (EState.new (tokenStream q)) (code_atStates .query) (reading_new q)
  unfold callE at h
  cases ho : execE parserAtn (eofTok q) code n [] (code .query) (EState.new (tokenStream q)) with
  | timeout s => rw [ho] at h; cases h
  | raised f s =>
    rw [ho] at h hfine
    simp only [Option.some.injEq, Prod.mk.injEq] at h
    refine ⟨?_, _, hfine.1.caught hf hfine.2, h.1⟩
    rw [← h.2]
    have h1 := hfine.1.failure hf hfine.2
    have hlen : (caughtE parserAtn (eofTok q) [] f s).rest.length ≤ 1 := by
      unfold caughtE recover
      dsimp only
      generalize hg : reportFailure parserAtn (eofTok q) [] f s = s1 at h1
      generalize (if s1.lastIndex = some s1.rest.length ∧ s1.state ∈ s1.lastStates then 1 else 0) = k0
      have h2 := h1.skip k0
      change (skipTo (untilTok (fun t => parserAtn.recoveryTok t []) (s1.skip k0).rest) (s1.skip k0).rest).length ≤ 1
      rw [show (fun t => parserAtn.recoveryTok t []) = (fun _ => false) from rfl]
      rcases untilTok_all (h2.only hf) with h3 | h3
      · exact h3
      · rw [h2.hasEof hf h3]; simp [skipTo]
    have := (hfine.1.caught hf hfine.2).unread
    omega
  | ok s =>
    rw [ho] at h hfine
    simp only [Option.some.injEq, Prod.mk.injEq] at h
    refine ⟨?_, s, hfine, h.1⟩
    rw [← h.2]
    have hrd : Reading (tokenStream q) s := hfine
    obtain ⟨pre, hpre⟩ := code_query_last
    have hat := code_atStates .query
    rw [hpre] at ho hat
    obtain ⟨m, s0, hs0, hm⟩ := ok_last hf code_atStates n pre _ hat.left.1 (reading_new q) ho
    suffices s.rest.length ≤ 1 by have := hrd.unread; omega
    have hlast : ∀ e : EStep, e.andThen (execE parserAtn (eofTok q) code (m - 1) [] []) = .ok s → e = .go s := by
      intro e he
      cases e with
      | stop f s1 => cases he
      | go s1 =>
        change execE parserAtn (eofTok q) code (m - 1) [] [] s1 = .ok s at he
        cases hm1 : m - 1 with
        | zero => rw [hm1, execE] at he; cases he
        | succ k => rw [hm1, execE] at he; cases he; rfl
    cases m with
    | zero => rw [execE] at hm; cases hm
    | succ m =>
      rw [execE] at hm
      have hgo := hlast _ hm
      have h51 : (51 : Nat) < parserAtn.states.length ∧ parserAtn.Only 51 (fun j => j = (-1 : Int)) := by
        have := hat.left.2
        cases this with
        | matchTok h1 h2 _ => exact ⟨h1, h2⟩
      have hs1 : Reading (tokenStream q) (s0.at 51) := hs0.at 51
      have hcase : ∀ {x xs}, (s0.at 51).rest = x :: xs → x.type = .EOF → xs = [] := fun e hx => hs1.only hf [] _ _ e hx
      have hinl : inlineE parserAtn (eofTok q) [] (s0.at 51) = .go s → (∀ x xs, (s0.at 51).rest = x :: xs → x.type ≠ .EOF) → s.rest.length ≤ 1 := by
        intro hin hne
        unfold inlineE at hin
        dsimp only at hin
        split at hin
        · rename_i hd
          cases hin
          have hd' : Atn.expectedTok parserAtn (la2 (s0.at 51).rest) 51 [] = true := hd
          simp only [Atn.expectedTok, h51.2.1, Bool.false_and, Bool.or_false] at hd'
          have := h51.2.2.1 _ hd'
          simp only [decide_eq_true_eq] at this
          change ((s0.at 51).rest.drop 2).length ≤ 1
          match hrest : (s0.at 51).rest with
          | [] => simp
          | [x] => simp
          | x :: y :: ts =>
            rw [hrest] at this
            have := hs1.only hf [x] y ts hrest (TokType.num_inj this)
            subst this
            simp
        · split at hin
          · rename_i hi
            have hi' : parserAtn.nextInContext (la (s0.at 51).rest) (parserAtn.firstTarget 51) [] = true := hi
            unfold Atn.nextInContext at hi'
            dsimp only at hi'
            rw [query_last] at hi'
            simp only [Atn.hasTok, Atn.hasEps, List.any_cons, List.any_nil, Bool.or_false, Bool.false_or, Bool.true_and, decide_eq_true_eq] at hi'
            match hrest : (s0.at 51).rest with
            | [] =>
              cases hin
              have : (reportMissing parserAtn (eofTok q) [] ((s0.at 51).look 1)).rest = _ := (same_missing [] _).rest
              change (reportMissing parserAtn (eofTok q) [] ((s0.at 51).look 1)).rest.length ≤ 1
              rw [this]
              change (s0.at 51).rest.length ≤ 1
              rw [hrest]; simp
            | x :: xs =>
              rw [hrest] at hi'
              exact absurd (TokType.num_inj (show x.type.num = TokType.EOF.num from hi')) (hne x xs hrest)
          · cases hin
      unfold matchE at hgo
      split at hgo
      · rename_i hr
        exact hinl hgo (by intro x xs e; rw [hr] at e; cases e)
      · rename_i x xs hr
        split at hgo
        · rename_i hx
          cases hgo
          have := hcase hr (TokType.num_inj (show x.type.num = TokType.EOF.num from (show x.type.num = -1 by simpa using hx)))
          subst this
          simp [EState.matched, EState.look, EState.endError]
        · rename_i hx
          refine hinl hgo ?_
          intro y ys e hy
          rw [hr] at e
          cases e
          rw [hy] at hx
          exact hx (by decide)

/-! ### The errors of the lexer -/

/-- The pieces the lexer does not recognise. -/
abbrev errsOf (ps : List Piece) : List Piece := ps.filter fun p => p.kind = .err

theorem go_append : ∀ (n : Nat) (a b : List Piece), (a.filterMap Piece.tok?).length < n →
    lexErrorsBy.go n (a ++ b) = errsOf a ++ lexErrorsBy.go (n - (a.filterMap Piece.tok?).length) b := by
  intro n a
  induction a generalizing n with
  | nil => intro b _; simp [errsOf]
  | cons p a ih =>
    intro b hn
    cases n with
    | zero => cases hn
    | succ n =>
      cases hk : p.kind with
      | err =>
        have ht : p.tok? = none := by simp [Piece.tok?, hk]
        rw [List.filterMap_cons_none ht] at hn ⊢
        rw [List.cons_append, lexErrorsBy.go, hk]
        simp only [errsOf, List.filter_cons, hk, decide_true, if_true, List.cons_append]
        rw [ih (n + 1) b hn]
      | skip =>
        have ht : p.tok? = none := by simp [Piece.tok?, hk]
        rw [List.filterMap_cons_none ht] at hn ⊢
        rw [List.cons_append, lexErrorsBy.go, hk]
        rw [ih (n + 1) b hn]
        simp [errsOf, List.filter_cons, hk]
      | tok t =>
        obtain ⟨x, hx⟩ : ∃ x, p.tok? = some x := by simp [Piece.tok?, hk]
        rw [List.filterMap_cons_some hx] at hn ⊢
        rw [List.length_cons] at hn ⊢
        rw [List.cons_append, lexErrorsBy.go, hk]
        rw [ih n b (by omega), Nat.add_sub_add_right]
        simp [errsOf, List.filter_cons, hk]

theorem go_le : ∀ (ps : List Piece) (n m : Nat), n ≤ m → lexErrorsBy.go n ps <+: lexErrorsBy.go m ps := by
  intro ps
  induction ps with
  | nil => intro n m _; cases n <;> cases m <;> simp [lexErrorsBy.go]
  | cons p ps ih =>
    intro n m h
    cases n with
    | zero => simp [lexErrorsBy.go]
    | succ n =>
      cases m with
      | zero => cases h
      | succ m =>
        rw [lexErrorsBy.go, lexErrorsBy.go]
        split
        · rw [List.prefix_cons_inj]; exact ih _ _ h
        · exact ih _ _ h
        · exact ih _ _ (by omega)

theorem lexErrorsBy_le (q : PyStr) {k j : Nat} (h : j ≤ k) : lexErrorsBy q k <+: lexErrorsBy q j := go_le _ _ _ (by omega)

theorem lexErrorsBy_zero (q : PyStr) : lexErrorsBy q 0 = lexErrors q := by
  have hlen : (tokenStream q).length = ((lexPieces q).filterMap Piece.tok?).length + 1 := by simp [tokenStream, lexTokens]
  have h := go_append (tokenStream q).length (lexPieces q) [] (by omega)
  have h0 : ∀ n, lexErrorsBy.go n [] = [] := by intro n; cases n <;> rfl
  rw [List.append_nil, h0, List.append_nil] at h
  exact h

theorem lexErrorsBy_prefix (q : PyStr) (k : Nat) : lexErrorsBy q k <+: lexErrors q := by
  rw [← lexErrorsBy_zero]; exact lexErrorsBy_le q (Nat.zero_le _)

theorem filterMap_split {α β : Type} {f : α → Option β} : ∀ {l : List α} {us : List β} {x : β} {vs : List β},
    l.filterMap f = us ++ x :: vs → ∃ a y b, l = a ++ y :: b ∧ a.filterMap f = us ∧ f y = some x ∧ b.filterMap f = vs := by
  intro l
  induction l with
  | nil => intro us x vs h; simp at h
  | cons y l ih =>
    intro us x vs h
    cases hy : f y with
    | none =>
      rw [List.filterMap_cons_none hy] at h
      obtain ⟨a, z, b, rfl, h1, h2, h3⟩ := ih h
      exact ⟨y :: a, z, b, rfl, by rw [List.filterMap_cons_none hy, h1], h2, h3⟩
    | some v =>
      rw [List.filterMap_cons_some hy] at h
      cases us with
      | nil =>
        simp only [List.nil_append, List.cons.injEq] at h
        exact ⟨[], y, l, rfl, rfl, by rw [hy, h.1], h.2⟩
      | cons u us =>
        simp only [List.cons_append, List.cons.injEq] at h
        obtain ⟨a, z, b, rfl, h1, h2, h3⟩ := ih h.2
        exact ⟨y :: a, z, b, rfl, by rw [List.filterMap_cons_some hy, h1, h.1], h2, h3⟩

/-- When the lexer has reached a token it has complained about everything before it. -/
theorem lexErrorsBy_before {q : PyStr} {us : List Tok} {t : Tok} {vs : List Tok} (hs : tokenStream q = us ++ t :: vs) {k : Nat}
    (hk : k ≤ vs.length) {p : Piece} (hp : p ∈ lexErrors q) (hlt : (p.start : Int) < t.start) : p ∈ lexErrorsBy q k := by
  cases vs with
  | nil =>
    have : k = 0 := by simpa using hk
    subst this
    rwa [lexErrorsBy_zero]
  | cons v vs =>
    have hlex : ∃ vs', lexTokens q = us ++ t :: vs' := by
      have h : lexTokens q ++ [eofTok q] = (us ++ t :: (v :: vs).dropLast) ++ [(v :: vs).getLast (by simp)] := by
        rw [List.append_assoc, List.cons_append, List.dropLast_concat_getLast]
        exact hs
      exact ⟨_, (List.append_inj' h rfl).1⟩
    obtain ⟨vs', hvs'⟩ := hlex
    have hlen : (tokenStream q).length = us.length + (v :: vs).length + 1 := by rw [hs]; simp; omega
    obtain ⟨a, y, b, hab, h1, h2, h3⟩ := filterMap_split hvs'
    have hgo := go_append ((tokenStream q).length - k) a (y :: b) (by rw [h1, hlen]; omega)
    rw [← hab] at hgo
    change p ∈ lexErrorsBy.go _ _
    rw [hgo]
    refine List.mem_append_left _ (List.mem_filter.2 ⟨?_, (List.mem_filter.1 hp).2⟩)
    have hpm := (List.mem_filter.1 hp).1
    have hpw := splits_pairwise (lexPieces_splits q)
    obtain ⟨hk1, -, hk2, -⟩ := piece_tok h2
    rw [hab] at hpm hpw
    rcases List.mem_append.1 hpm with h | h
    · exact h
    · exfalso
      rcases List.mem_cons.1 h with h | h
      · subst h; omega
      · rw [List.pairwise_append, List.pairwise_cons] at hpw
        have := hpw.2.1.1 p h
        omega

/-! ### The listener -/

theorem listener_toks (q : PyStr) : ∀ (rs : List Report) (done u : Nat),
    (listenerErrors q done rs u).filterMap RawErr.tok? = rs.map (·.token) := by
  have t1 : ∀ l : List Piece, (l.map RawErr.lexer).filterMap RawErr.tok? = [] := by
    intro l; induction l <;> simp_all [RawErr.tok?]
  intro rs
  induction rs with
  | nil => intro done u; rw [listenerErrors, t1]; rfl
  | cons r rs ih =>
    intro done u
    rw [listenerErrors, List.filterMap_append, t1, List.nil_append, List.filterMap_cons_some (f := RawErr.tok?) (b := r.token) rfl, ih]
    rfl

theorem pieces_map : ∀ l : List Piece, (l.map RawErr.lexer).filterMap RawErr.piece? = l := by
  intro l; induction l <;> simp_all [RawErr.piece?]

theorem drop_append_drop {α : Type} {a b : List α} (h : a <+: b) (d : Nat) : a.drop d ++ b.drop (max d a.length) = b.drop d := by
  obtain ⟨c, rfl⟩ := h
  rcases Nat.le_total d a.length with hd | hd
  · rw [Nat.max_eq_right hd, List.drop_append_of_le_length hd, List.drop_left]
  · rw [Nat.max_eq_left hd, List.drop_of_length_le hd, List.nil_append]

theorem listener_pieces (q : PyStr) : ∀ (rs : List Report) (done u : Nat), (∀ r ∈ rs, u ≤ r.unread) →
    (listenerErrors q done rs u).filterMap RawErr.piece? = (lexErrorsBy q u).drop done := by
  intro rs
  induction rs with
  | nil => intro done u _; rw [listenerErrors, pieces_map]
  | cons r rs ih =>
    intro done u h
    rw [listenerErrors, List.filterMap_append, pieces_map, List.filterMap_cons_none rfl, ih _ _ fun r' hr' => h r' (by simp [hr'])]
    exact drop_append_drop (lexErrorsBy_le q (h r (by simp))) done

theorem lexer_pieces_eq : ∀ {l : List Piece} {as : List RawErr} {t : Tok} {msg : PyStr} {bs es : List RawErr} {t' : Tok} {msg' : PyStr},
    l.map RawErr.lexer ++ .parser t' msg' :: es = as ++ .parser t msg :: bs →
      (as = l.map .lexer ∧ t = t' ∧ msg = msg' ∧ bs = es) ∨ ∃ as', as = l.map .lexer ++ .parser t' msg' :: as' ∧ es = as' ++ .parser t msg :: bs := by
  intro l
  induction l with
  | nil =>
    intro as t msg bs es t' msg' h
    cases as with
    | nil =>
      simp only [List.map_nil, List.nil_append, List.cons.injEq, RawErr.parser.injEq] at h
      exact .inl ⟨rfl, h.1.1.symm, h.1.2.symm, h.2.symm⟩
    | cons a as =>
      simp only [List.map_nil, List.nil_append, List.cons_append, List.cons.injEq] at h
      exact .inr ⟨as, by rw [← h.1]; rfl, h.2⟩
  | cons p l ih =>
    intro as t msg bs es t' msg' h
    cases as with
    | nil => simp at h
    | cons a as =>
      simp only [List.map_cons, List.cons_append, List.cons.injEq] at h
      rcases ih h.2 with ⟨rfl, h1⟩ | ⟨as', rfl, h1⟩
      · exact .inl ⟨by rw [← h.1]; rfl, h1⟩
      · exact .inr ⟨as', by rw [← h.1]; rfl, h1⟩

/-- Before an error of the parser come those of the lexer by then. -/
theorem listener_split (q : PyStr) : ∀ (rs : List Report) (done u : Nat) (as : List RawErr) (t : Tok) (msg : PyStr) (bs : List RawErr),
    rs.Pairwise (fun a b => b.unread ≤ a.unread) → listenerErrors q done rs u = as ++ .parser t msg :: bs →
    ∃ r ∈ rs, r.token = t ∧ r.message = msg ∧ as.filterMap RawErr.piece? = (lexErrorsBy q r.unread).drop done := by
  intro rs
  induction rs with
  | nil =>
    intro done u as t msg bs _ h
    rw [listenerErrors] at h
    have : RawErr.parser t msg ∈ (((lexErrorsBy q u).drop done).map RawErr.lexer) := by rw [h]; simp
    obtain ⟨p, -, hp⟩ := List.mem_map.1 this
    cases hp
  | cons r rs ih =>
    intro done u as t msg bs hpw h
    rw [List.pairwise_cons] at hpw
    rw [listenerErrors] at h
    rcases lexer_pieces_eq h with ⟨rfl, h1, h2, -⟩ | ⟨as', rfl, h1⟩
    · exact ⟨r, by simp, h1.symm, h2.symm, pieces_map _⟩
    · obtain ⟨r', hr', e1, e2, e3⟩ := ih _ _ _ _ _ _ hpw.2 h1
      refine ⟨r', by simp [hr'], e1, e2, ?_⟩
      rw [List.filterMap_append, pieces_map, List.filterMap_cons_none rfl, e3]
      exact drop_append_drop (lexErrorsBy_le q (hpw.1 r' hr')) done

theorem mem_pieces {as : List RawErr} {p : Piece} (h : p ∈ as.filterMap RawErr.piece?) : RawErr.lexer p ∈ as := by
  obtain ⟨e, he, h⟩ := List.mem_filterMap.1 h
  cases e with
  | lexer p' => cases h; exact he
  | parser t m => cases h

/-- What the listener is told. -/
theorem AntlrReports.reportedBy {q : PyStr} {rs : List Report} {u : Nat} (h : AntlrReports q rs u) :
    ∃ T, ReportedBy (parserAtn.replay T) 0 q (listenerErrors q 0 rs u) := by
  obtain ⟨T, f, hf⟩ := h.returns
  obtain ⟨N, hN⟩ := h
  obtain ⟨rfl, s, hs, rfl⟩ := callE_reading (hN N (Nat.le_refl _))
  refine ⟨T, ⟨f, by rw [listener_toks]; exact hf⟩, ?_, ?_⟩
  · rw [listener_pieces _ _ _ _ fun r _ => Nat.zero_le _, lexErrorsBy_zero]
    exact List.prefix_refl _
  · intro as t msg bs e p hp hlt
    obtain ⟨r, hr, rfl, -, e3⟩ := listener_split q _ _ _ _ _ _ _ hs.order e
    obtain ⟨us, vs, h1, h2⟩ := hs.token r hr
    exact mem_pieces (by rw [e3]; exact lexErrorsBy_before h1 h2 hp hlt)

theorem AntlrReports.pieces {q : PyStr} {rs : List Report} {u : Nat} (h : AntlrReports q rs u) :
    (listenerErrors q 0 rs u).filterMap RawErr.piece? = lexErrors q := by
  obtain ⟨N, hN⟩ := h
  obtain ⟨rfl, s, hs, rfl⟩ := callE_reading (hN N (Nat.le_refl _))
  rw [listener_pieces _ _ _ _ fun r _ => Nat.zero_le _, lexErrorsBy_zero, List.drop_zero]

theorem AntlrReports.worded {q : PyStr} {rs : List Report} {u : Nat} (h : AntlrReports q rs u) :
    ∀ r ∈ rs, Worded (tokenStream q) r.token r.message := by
  obtain ⟨N, hN⟩ := h
  obtain ⟨rfl, s, hs, rfl⟩ := callE_reading (hN N (Nat.le_refl _))
  exact hs.worded

end Fcsql
