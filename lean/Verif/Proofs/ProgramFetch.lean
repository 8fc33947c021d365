/-
Tokens fetched from the lexer one at a time, and the calls of the listener on the way.
-/
import Verif.Model.Program
import Verif.Proofs.LexerSimAll
import Verif.Proofs.ErrorStrategyOrder
import Verif.Props.Exact

set_option autoImplicit false
set_option linter.unusedSimpArgs false

namespace Fcsql

attribute [local irreducible] parserAtn parseQuery lexerAtn lexPieces

/-! ### The objects -/

/-- The token object of a token. -/
def rawOf (q : PyStr) (x : Tok) : RawTok :=
  { type := x.type.num, start := x.start.toNat, stop := x.stop, line := lineAt q x.start.toNat, column := columnAt q x.start.toNat }

/-- What the listener is told about a text that is not recognised. -/
def reportOf (q : PyStr) (p : Piece) : LexReport := { line := lineAt q p.start, column := p.column, text := p.text }

/-- A call of the listener. -/
def callOf (q : PyStr) : RawErr → ListenerCall
  | .lexer p => .lexer (reportOf q p)
  | .parser t msg => .parser (rawOf q t) msg

theorem ofNum_num (t : TokType) : TokType.ofNum t.num = t := by cases t <;> decide

theorem tok_rawOf {q : PyStr} {x : Tok} (hx : x ∈ tokenStream q) : (rawOf q x).tok q = x := by
  rcases List.mem_append.1 hx with h | h
  · obtain ⟨p, hp, ht⟩ := List.mem_filterMap.1 h
    obtain ⟨h1, h2, h3, h4⟩ := piece_tok ht
    obtain ⟨b1, b2, b3⟩ := piece_bounds hp
    have := List.length_pos_iff.2 b1
    have hst : x.start.toNat = p.start := by omega
    have htext : RawTok.text q (rawOf q x) = x.text := by
      unfold RawTok.text
      rw [if_pos]
      · simp only [rawOf, hst]
        have hl : (x.stop + 1 - (p.start : Int)).toNat = p.text.length := by omega
        rw [hl, ← b3, h2]
      · simp only [rawOf, Bool.and_eq_true, decide_eq_true_eq, hst]
        omega
    unfold RawTok.tok
    rw [htext]
    simp only [rawOf, ofNum_num]
    cases x
    simp only [Tok.mk.injEq, true_and] at *
    exact ⟨by omega, trivial⟩
  · rw [List.mem_singleton] at h
    subst h
    simp [RawTok.tok, rawOf, eofTok, RawTok.text, ofNum_num]

theorem rawOf_eof (q : PyStr) : rawOf q (eofTok q) = eofRaw q := by
  simp only [rawOf, eofTok, eofRaw, Int.toNat_natCast]
  rw [advanceColumn_eq, columnAt, List.take_length]
  simp [TokType.num]

/-! ### Events -/

/-- All that the lexer does, without the last token. -/
abbrev lexEvents (q : PyStr) : List LexEvent := (lexPieces q).flatMap (Piece.events q)

/-- The reports among the events. -/
def LexEvent.report? : LexEvent → Option LexReport
  | .token _ => none
  | .report r => some r

theorem events_raw {q : PyStr} : ∀ {ps : List Piece}, (∀ p ∈ ps, p ∈ lexPieces q) →
    (ps.flatMap (Piece.events q)).filterMap LexEvent.tok? = (ps.filterMap Piece.tok?).map (rawOf q) := by
  intro ps
  induction ps with
  | nil => intro _; rfl
  | cons p ps ih =>
    intro h
    rw [List.flatMap_cons, List.filterMap_append, ih fun p hp => h p (List.mem_cons_of_mem _ hp)]
    cases hk : p.kind with
    | err => simp [Piece.events, Piece.tok?, hk, LexEvent.tok?]
    | skip => simp [Piece.events, Piece.tok?, hk, LexEvent.tok?]
    | tok t =>
      simp only [Piece.events, Piece.tok?, hk, LexEvent.tok?, List.filterMap_cons, List.filterMap_nil, List.singleton_append, List.map_cons,
        rawOf, Int.toNat_natCast]
      rw [piece_column (h p (List.mem_cons_self ..))]

theorem stream_raw (q : PyStr) : (tokenStream q).map (rawOf q) = (lexEvents q).filterMap LexEvent.tok? ++ [eofRaw q] := by
  rw [tokenStream, List.map_append, lexEvents, events_raw fun p hp => hp]
  simp [lexTokens, rawOf_eof]

theorem events_reports {q : PyStr} : ∀ ps : List Piece,
    (ps.flatMap (Piece.events q)).filterMap LexEvent.report? = (ps.filter fun p => p.kind = .err).map (reportOf q) := by
  intro ps
  induction ps with
  | nil => rfl
  | cons p ps ih =>
    rw [List.flatMap_cons, List.filterMap_append, ih]
    cases hk : p.kind <;> simp [Piece.events, hk, LexEvent.report?, reportOf, List.filter_cons]

/-- The reports up to the `n`-th token. -/
def reportsBy : Nat → List LexEvent → List LexReport
  | _, [] => []
  | 0, _ => []
  | n + 1, .report r :: es => r :: reportsBy (n + 1) es
  | n + 1, .token _ :: es => reportsBy n es

theorem go_reports {q : PyStr} : ∀ (ps : List Piece) (n : Nat),
    (lexErrorsBy.go n ps).map (reportOf q) = reportsBy n (ps.flatMap (Piece.events q)) := by
  intro ps
  induction ps with
  | nil => intro n; cases n <;> rfl
  | cons p ps ih =>
    intro n
    cases n with
    | zero =>
      rw [lexErrorsBy.go]
      · cases (p :: ps).flatMap (Piece.events q) <;> rfl
      · simp
    | succ n =>
      rw [lexErrorsBy.go, List.flatMap_cons]
      cases hk : p.kind with
      | err => simp [Piece.events, hk, reportsBy, ih, reportOf]
      | skip => simp [Piece.events, hk, ih]
      | tok t => simp [Piece.events, hk, reportsBy, ih]

theorem reportsBy_zero (es : List LexEvent) : reportsBy 0 es = [] := by cases es <;> rfl

/-- The events so far are nothing, or the last one is a token. -/
def Closed (es : List LexEvent) : Prop := es = [] ∨ ∃ as t, es = as ++ [.token t]

theorem reportsBy_more : ∀ (as bs : List LexEvent) (n : Nat), (as.filterMap LexEvent.tok?).length < n →
    reportsBy n (as ++ bs) = as.filterMap LexEvent.report? ++ reportsBy (n - (as.filterMap LexEvent.tok?).length) bs := by
  intro as
  induction as with
  | nil => intro bs n _; simp
  | cons a as ih =>
    intro bs n hn
    cases n with
    | zero => omega
    | succ n =>
      cases a with
      | report r =>
        rw [List.filterMap_cons_none (f := LexEvent.tok?) rfl] at hn ⊢
        rw [List.filterMap_cons_some (f := LexEvent.report?) (b := r) rfl, List.cons_append, reportsBy, ih bs (n + 1) hn]
        rfl
      | token t =>
        rw [List.filterMap_cons_some (f := LexEvent.tok?) (b := t) rfl] at hn ⊢
        rw [List.filterMap_cons_none (f := LexEvent.report?) rfl, List.cons_append, reportsBy]
        rw [List.length_cons] at hn ⊢
        rw [ih bs n (by omega), Nat.add_sub_add_right]

theorem reportsBy_closed {as bs : List LexEvent} (h : Closed as) :
    reportsBy (as.filterMap LexEvent.tok?).length (as ++ bs) = as.filterMap LexEvent.report? := by
  rcases h with rfl | ⟨as, t, rfl⟩
  · simp [reportsBy_zero]
  · simp only [List.filterMap_append, List.filterMap_cons, LexEvent.tok?, LexEvent.report?, List.filterMap_nil, List.length_append,
      List.length_cons, List.length_nil, List.append_nil, List.append_assoc, List.singleton_append]
    rw [reportsBy_more _ _ _ (by omega)]
    simp only [Nat.zero_add, Nat.add_sub_cancel_left, reportsBy, reportsBy_zero, List.append_nil]

/-! ### The listener -/

theorem listener_less (q : PyStr) {u v : Nat} (hv : v ≤ u) : ∀ (rs : List Report) (d : Nat), (∀ r ∈ rs, u ≤ r.unread) →
    listenerErrors q d rs v = listenerErrors q d rs u ++ ((lexErrorsBy q v).drop (max d (lexErrorsBy q u).length)).map .lexer := by
  intro rs
  induction rs with
  | nil =>
    intro d _
    rw [listenerErrors, listenerErrors, ← List.map_append, drop_append_drop (lexErrorsBy_le q hv)]
  | cons r rs ih =>
    intro d h
    rw [listenerErrors, listenerErrors, ih _ fun r hr => h r (List.mem_cons_of_mem _ hr)]
    have hl := (lexErrorsBy_le q (h r (List.mem_cons_self ..))).length_le
    rw [show max (max d (lexErrorsBy q r.unread).length) (lexErrorsBy q u).length = max d (lexErrorsBy q u).length by omega]
    simp

theorem listener_report (q : PyStr) {u : Nat} (t : Tok) (msg : PyStr) : ∀ (rs : List Report) (d : Nat),
    (∀ r ∈ rs, u ≤ r.unread) → listenerErrors q d (rs ++ [⟨t, msg, u⟩]) u = listenerErrors q d rs u ++ [.parser t msg] := by
  intro rs
  induction rs with
  | nil =>
    intro d _
    rw [List.nil_append, listenerErrors, listenerErrors, listenerErrors, List.drop_of_length_le (Nat.le_max_right _ _)]
    simp
  | cons r rs ih =>
    intro d h
    rw [List.cons_append, listenerErrors, listenerErrors, ih _ fun r hr => h r (List.mem_cons_of_mem _ hr)]
    simp

/-- One more token. -/
theorem listener_fetch (q : PyStr) {u : Nat} {rs : List Report} (h : ∀ r ∈ rs, u ≤ r.unread) {l : List LexReport}
    (hl : (lexErrorsBy q (u - 1)).map (reportOf q) = (lexErrorsBy q u).map (reportOf q) ++ l) :
    (listenerErrors q 0 rs (u - 1)).map (callOf q) = (listenerErrors q 0 rs u).map (callOf q) ++ l.map .lexer := by
  rw [listener_less q (Nat.sub_le u 1) rs 0 h, List.map_append]
  congr 1
  obtain ⟨z, hz⟩ := lexErrorsBy_le q (Nat.sub_le u 1)
  rw [← hz, List.map_append] at hl
  have := List.append_cancel_left hl
  rw [← hz, Nat.max_eq_right (Nat.zero_le _), List.drop_left, ← this]
  simp [callOf]

/-! ### Fetching -/

/-- The lexer stands before the pieces `ps`. -/
structure LexAt (q : PyStr) (lx : LexObj) (ps : List Piece) : Prop where
  pos : AtPos q lx.pos
  eof : lx.hitEOF = true → lx.pos.index = q.length
  splits : Splits (q.drop lx.pos.index) lx.pos.index lx.pos.column ps

/-- The state of the program and that of the parser with all tokens known beforehand. -/
structure Sim (q : PyStr) (s : PState) (e : EState) : Prop where
  state : s.state = e.state
  recovering : s.recovering = e.recovering
  lastStates : s.lastStates = e.lastStates
  index : s.index + e.rest.length = (tokenStream q).length
  lastIndex : (e.lastIndex = none ∧ s.lastIndex = none) ∨
    ∃ k, k ≤ (tokenStream q).length ∧ e.lastIndex = some k ∧ s.lastIndex = some ((tokenStream q).length - k)
  rest : e.rest <:+ tokenStream q
  unread : e.unread ≤ e.rest.length
  tokens : s.tokens = (e.rest.take (e.rest.length - e.unread)).map (rawOf q)
  fetched : s.fetchedEOF = decide (e.unread = 0)
  last : e.unread = 0 → s.last = eofRaw q
  lexer : e.unread ≠ 0 → ∃ done ps, LexAt q s.lexer ps ∧ lexEvents q = done ++ ps.flatMap (Piece.events q) ∧ Closed done ∧
    (done.filterMap LexEvent.tok?).length = (tokenStream q).length - e.unread
  calls : s.calls = (listenerErrors q 0 e.reports e.unread).map (callOf q)
  order : ∀ r ∈ e.reports, e.unread ≤ r.unread

theorem sim_fetch {m : Nat} (hm : 28 ≤ m) {q : PyStr} {s : PState} {e : EState} (h : Sim q s e) :
    ∃ s', s.fetch lexerAtn m q = some s' ∧ Sim q s' { e with unread := e.unread - 1 } := by
  by_cases hu : e.unread = 0
  · refine ⟨s, ?_, ?_⟩
    · unfold PState.fetch
      rw [h.fetched, if_pos (by simp [hu])]
    · rw [hu]
      have : ({ e with unread := 0 - 1 } : EState) = e := by cases e; simp at hu; simp [hu]
      rw [this]; exact h
  · obtain ⟨done, ps, hlx, hev, hcl, hnum⟩ := h.lexer hu
    obtain ⟨us, hus⟩ := h.rest
    have hlen : (tokenStream q).length = us.length + e.rest.length := by rw [← hus]; simp
    have hunr := h.unread
    -- what is left of the tokens
    have hleft : (e.rest.drop (e.rest.length - e.unread)).map (rawOf q) = (ps.flatMap (Piece.events q)).filterMap LexEvent.tok? ++ [eofRaw q] := by
      have h1 := congrArg (List.drop ((tokenStream q).length - e.unread)) (stream_raw q)
      rw [hev, List.filterMap_append, List.append_assoc, ← hnum, List.drop_left, hnum, ← List.map_drop] at h1
      rw [← h1]
      congr 1
      have hd : (tokenStream q).length - e.unread = us.length + (e.rest.length - e.unread) := by omega
      rw [hd, ← hus, ← List.drop_drop, List.drop_left]
    have htake : ∀ t, (e.rest.drop (e.rest.length - e.unread)).map (rawOf q) = t :: ((e.rest.drop (e.rest.length - e.unread)).map (rawOf q)).tail →
        s.tokens ++ [t] = (e.rest.take (e.rest.length - (e.unread - 1))).map (rawOf q) := by
      intro t ht
      rw [h.tokens, show e.rest.length - (e.unread - 1) = (e.rest.length - e.unread) + 1 by omega, List.take_add, List.map_append]
      congr 1
      rw [List.map_take, ht]
      rfl
    have hby : (lexErrorsBy q e.unread).map (reportOf q) = done.filterMap LexEvent.report? := by
      unfold lexErrorsBy
      rw [go_reports]
      change reportsBy _ (lexEvents q) = _
      rw [hev, ← hnum, reportsBy_closed hcl]
    have hfetch : ∀ rs t lx, lexNextToken lexerAtn m q (q.length + 1) s.lexer = some (rs, t, lx) →
        s.fetch lexerAtn m q = some { s with lexer := lx, fetchedEOF := t.type = -1, tokens := s.tokens ++ [t], last := t, calls := s.calls ++ rs.map .lexer } := by
      intro rs t lx hl
      unfold PState.fetch
      rw [h.fetched, if_neg (by simp [hu]), hl]
    rcases lexNextToken_spec q hm (q.length + 1) s.lexer ps hlx.pos hlx.eof hlx.splits (by have := hlx.pos.index; omega) with
      ⟨rs, lx', k1, k2⟩ | ⟨rs, t', lx', ps'', k1, k2, k3, k4, k5, k6, k7⟩
    · have hno : (ps.flatMap (Piece.events q)).filterMap LexEvent.tok? = [] := by
        rw [k2, List.filterMap_eq_nil_iff]
        intro x hx
        obtain ⟨r, -, rfl⟩ := List.mem_map.1 hx
        rfl
      rw [hno, List.nil_append] at hleft
      have hone : e.unread = 1 := by
        have := congrArg List.length hleft
        simp at this
        omega
      refine ⟨_, hfetch _ _ _ k1, ⟨h.state, h.recovering, h.lastStates, h.index, h.lastIndex, h.rest, ?_, htake _ (by rw [hleft]; rfl), ?_, fun _ => rfl, ?_, ?_, ?_⟩⟩
      · simp only; omega
      · simp [eofRaw, hone]
      · intro hne; exact absurd (by simp only; omega) hne
      · simp only
        rw [listener_fetch q h.order (l := rs), h.calls]
        rw [hby, hone, lexErrorsBy_zero, lexErrors, ← events_reports]
        change (lexEvents q).filterMap LexEvent.report? = _
        rw [hev, List.filterMap_append, k2]
        congr 1
        rw [List.filterMap_map]
        exact List.filterMap_some
      · intro r hr
        have := h.order r hr
        simp only; omega
    · have hsh : ∀ l, ((List.map LexEvent.report rs ++ LexEvent.token t' :: l)).filterMap LexEvent.tok? = t' :: l.filterMap LexEvent.tok? := by
        intro l
        rw [List.filterMap_append, List.filterMap_cons_some (f := LexEvent.tok?) (b := t') rfl]
        rw [List.filterMap_eq_nil_iff.2]
        · rfl
        · intro x hx
          obtain ⟨r, -, rfl⟩ := List.mem_map.1 hx
          rfl
      have hsh' : ∀ l, ((List.map LexEvent.report rs ++ LexEvent.token t' :: l)).filterMap LexEvent.report? = rs ++ l.filterMap LexEvent.report? := by
        intro l
        rw [List.filterMap_append, List.filterMap_cons_none (f := LexEvent.report?) rfl]
        congr 1
        rw [List.filterMap_map]
        exact List.filterMap_some
      rw [k3, hsh] at hleft
      have htwo : 2 ≤ e.unread := by
        have := congrArg List.length hleft
        simp at this
        omega
      have hcl' : Closed (done ++ (List.map LexEvent.report rs ++ [LexEvent.token t'])) := .inr ⟨done ++ List.map LexEvent.report rs, t', by simp⟩
      have hev' : lexEvents q = (done ++ (List.map LexEvent.report rs ++ [LexEvent.token t'])) ++ ps''.flatMap (Piece.events q) := by
        rw [hev, k3]; simp
      have hnum' : ((done ++ (List.map LexEvent.report rs ++ [LexEvent.token t'])).filterMap LexEvent.tok?).length = (tokenStream q).length - (e.unread - 1) := by
        rw [List.filterMap_append, hsh]
        simp only [List.filterMap_nil, List.length_append, List.length_cons, List.length_nil, hnum]
        omega
      refine ⟨_, hfetch _ _ _ k1, ⟨h.state, h.recovering, h.lastStates, h.index, h.lastIndex, h.rest, ?_, htake _ (by rw [hleft]; rfl), ?_, ?_, ?_, ?_, ?_⟩⟩
      · simp only; omega
      · have : ¬ e.unread - 1 = 0 := by omega
        simp [k2, this]
      · intro hz; simp only at hz; omega
      · intro _
        exact ⟨_, ps'', ⟨k4, k5, k6⟩, hev', hcl', hnum'⟩
      · simp only
        rw [listener_fetch q h.order (l := rs), h.calls]
        rw [hby]
        unfold lexErrorsBy
        rw [go_reports]
        change reportsBy _ (lexEvents q) = _
        rw [hev', ← hnum', reportsBy_closed hcl', List.filterMap_append, hsh']
        simp
      · intro r hr
        have := h.order r hr
        simp only; omega

theorem sim_fetchN {m : Nat} (hm : 28 ≤ m) {q : PyStr} : ∀ (k : Nat) {s : PState} {e : EState}, Sim q s e →
    ∃ s', s.fetchN lexerAtn m q k = some s' ∧ Sim q s' { e with unread := e.unread - k } := by
  intro k
  induction k with
  | zero => intro s e h; exact ⟨s, rfl, h⟩
  | succ k ih =>
    intro s e h
    obtain ⟨s1, h1, h2⟩ := sim_fetch hm h
    obtain ⟨s2, h3, h4⟩ := ih h2
    refine ⟨s2, ?_, ?_⟩
    · rw [PState.fetchN, h1]; exact h3
    · rw [show e.unread - (k + 1) = e.unread - 1 - k by omega]; exact h4

theorem Sim.tokens_length {q : PyStr} {s : PState} {e : EState} (h : Sim q s e) : s.tokens.length = e.rest.length - e.unread := by
  rw [h.tokens, List.length_map, List.length_take]; omega

theorem sim_look {m : Nat} (hm : 28 ≤ m) {q : PyStr} (k : Nat) {s : PState} {e : EState} (h : Sim q s e) :
    ∃ s', s.look lexerAtn m q k = some s' ∧ Sim q s' (e.look k) := by
  obtain ⟨s', h1, h2⟩ := sim_fetchN hm (k + 1 - s.tokens.length) h
  refine ⟨s', h1, ?_⟩
  unfold EState.look
  rw [show min e.unread (e.rest.length - 1 - k) = e.unread - (k + 1 - s.tokens.length) by
    have := h.unread; rw [h.tokens_length]; omega]
  exact h2

end Fcsql
