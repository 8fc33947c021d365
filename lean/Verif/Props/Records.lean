/-
C82: the first error record of a failed parse.
-/
import Verif.Spec.Records
import Verif.Props.NeverLate
import Verif.Props.Errors
import Verif.Props.Blanked

set_option autoImplicit false
set_option linter.unusedSimpArgs false

namespace Fcsql

attribute [local irreducible] parseQuery

variable {σ : Type}

/-- **C82.** When `parse` raises because of syntax, the message of the exception is that of the first record, and this record
is about the first unrecognised text, or about a token (or the end) of the query such that the tokens before it are the
beginning of some query; the latter only if nothing before that token is unrecognised, and it is the first one the parser
reports an error at. -/
theorem C82_first_record (S : Strategy σ) (hS : S.Antlr) (m : σ) (rt : Runtime) (cfg : Config) (q : PyStr)
    (hr : (∀ t, antlrParse q ≠ .ok t) → ReportedBy S m q (rawErrors rt q))
    (hq : ¬ (lexErrors q = [] ∧ Grammatical (tokenStream q))) :
    ∃ d ds, parseQuery rt cfg q = (.error ⟨py!"unable to parse query: " ++ d.message⟩, d :: ds) ∧
      ((∃ p ps, lexErrors q = p :: ps ∧ AtPiece q d p) ∨
       ∃ us x vs, tokenStream q = us ++ x :: vs ∧ Begins us ∧ AtToken q d x ∧
         (∀ p ∈ lexErrors q, x.start ≤ p.start) ∧ ∃ f es, Returns S m (eofTok q) code .query (tokenStream q) f (x :: es)) := by
  obtain ⟨e, es, he, hp⟩ := parseQuery_error rt cfg q hq
  refine ⟨_, _, hp, ?_⟩
  by_cases hg : ∃ t, antlrParse q = .ok t
  · obtain ⟨t, ht⟩ := hg
    have : rawErrors rt q = (lexErrors q).map .lexer := by rw [rawErrors, antlrParse_ok.1 ht]
    rw [this] at he
    cases hl : lexErrors q with
    | nil => rw [hl] at he; cases he
    | cons p ps =>
      rw [hl] at he
      simp only [List.map_cons, List.cons.injEq] at he
      obtain ⟨rfl, -⟩ := he
      exact .inl ⟨p, ps, rfl, at_piece (by rw [hl]; simp)⟩
  · obtain ⟨⟨f, hret⟩, hlex, hord⟩ := hr (by simpa using hg)
    rw [he] at hret hlex hord
    cases e with
    | lexer p =>
      left
      simp only [List.filterMap_cons, RawErr.piece?] at hlex
      obtain ⟨ps, hl⟩ := hlex
      exact ⟨p, _, hl.symm, at_piece (by rw [← hl]; simp)⟩
    | parser x msg =>
      right
      simp only [List.filterMap_cons, RawErr.tok?] at hret
      have hmem := (C79_reports S m q f _ hret).1 x (by simp)
      obtain ⟨us, vs, hs, h1⟩ := C80_not_late S hS m q f x _ hret
      refine ⟨us, x, vs, hs, h1, at_token msg hmem, fun p hpe => ?_, f, _, hret⟩
      rcases Int.lt_or_le (p.start : Int) x.start with hlt | hle
      · have := hord [] x msg es rfl p hpe hlt
        cases this
      · exact hle

/-! The text of the record -/

theorem blanked_take {q q' : PyStr} (h : Blanked q q') {n : Nat} (hn : ∀ p ∈ lexErrors q, n ≤ p.start) : q'.take n = q.take n := by
  apply List.ext_getElem?
  intro i
  rw [List.getElem?_take, List.getElem?_take]
  split
  · refine h.same i ?_
    rintro ⟨p, hp, h1, -⟩
    have := hn p hp
    omega
  · rfl

theorem error_after {q : PyStr} {x : Tok} (hx : x ∈ tokenStream q) {p : Piece} (hp : p ∈ lexErrors q) (h : x.start ≤ p.start) :
    x.stop + 1 ≤ p.start := by
  rcases List.mem_append.1 hx with hx | hx
  · obtain ⟨px, hpx, ht⟩ := List.mem_filterMap.1 hx
    obtain ⟨k, h1, h2, h3⟩ := piece_tok ht
    have hk := (List.mem_filter.1 hp).2
    have hne : px ≠ p := by rintro rfl; simp [k] at hk
    have hb := piece_bounds (List.mem_filter.1 hp).1
    have hb1 : 0 < p.text.length := List.length_pos_iff.2 hb.1
    have hpw := splits_pairwise (lexPieces_splits q)
    obtain ⟨a, b, e⟩ := List.append_of_mem hpx
    have hpm := (List.mem_filter.1 hp).1
    rw [e] at hpm hpw
    have hbx := token_bounds hx
    rw [List.pairwise_append, List.pairwise_cons] at hpw
    rcases List.mem_append.1 hpm with hm | hm
    · have := hpw.2.2 p hm px (by simp)
      omega
    · rcases List.mem_cons.1 hm with hm | hm
      · exact absurd hm.symm hne
      · have := hpw.2.1.1 p hm
        omega
  · rw [List.mem_singleton] at hx
    subst hx
    simp only [eofTok] at h ⊢
    omega

/-- **C82.** A record about a token says where the query goes wrong: position is a range `a, b` of the query, the fragment is
the query up to `b`, and if nothing before is unrecognised, its first `a` characters can be completed to a query that
`antlr_parse` accepts.  If the tokens through this one are not the beginning of a query, the fragment, followed by whitespace,
cannot be completed (unless the error is at the end of the query). -/
theorem C82_fragment (q : PyStr) (hq : q ≠ []) (us vs : List Tok) (x : Tok) (hs : tokenStream q = us ++ x :: vs) (h1 : Begins us)
    (d : ErrorDetail) (hd : AtToken q d x) (hl : ∀ p ∈ lexErrors q, x.start ≤ p.start) :
    ∃ (a b : Nat) (fr : PyStr), a ≤ b ∧ b ≤ q.length ∧ d.position = .loc ⟨a, b⟩ ∧ d.fragment = some fr ∧ fr = q.take b ∧
      (∃ rest t, antlrParse (fr.take a ++ rest) = .ok t) ∧
      (¬ Begins (us ++ [x]) → x.type ≠ .EOF → ∀ c, isWs c = true → ∀ rest t, antlrParse (fr ++ c :: rest) ≠ .ok t) ∧
      (x.type = .EOF → fr = q ∧ a = q.length) := by
  have hxm : x ∈ tokenStream q := by rw [hs]; simp
  obtain ⟨q', hb⟩ := (C76_exists q).1
  obtain ⟨hl', ht', -⟩ := C76_like_blanks q q' hb
  rw [← ht'] at hs
  obtain ⟨hb0, hb1, hb2⟩ := hd.bounds
  have e1 : q'.take x.start.toNat = q.take x.start.toNat := blanked_take hb fun p hp => by have := hl p hp; omega
  have e2 : q'.take (x.stop + 1).toNat = q.take (x.stop + 1).toNat :=
    blanked_take hb fun p hp => by have := error_after hxm hp (hl p hp); omega
  refine ⟨x.start.toNat, (x.stop + 1).toNat, q.take (x.stop + 1).toNat, by omega, by omega, ?_, hd.fragment, rfl, ?_, ?_, ?_⟩
  · rw [hd.position, if_neg hq, Int.toNat_of_nonneg hb0, Int.toNat_of_nonneg (by omega)]
  · rw [List.take_take, Nat.min_eq_left (by omega), ← e1]
    exact text_before hl' hs h1
  · intro h2 hx c hc rest t
    rw [← e2]
    exact text_through hl' hs h2 hx c hc rest t
  · intro hx
    rcases List.mem_append.1 hxm with hm | hm
    · exact absurd hx (lexTokens_noEof q x hm)
    · rw [List.mem_singleton] at hm
      subst hm
      simp only [eofTok]
      constructor
      · rw [show ((q.length : Int) - 1 + 1).toNat = q.length by omega, List.take_length]
      · simp

/-! ### Non-vacuity -/

/-- The reports of a run on `q`. -/
noncomputable def runReports (q : PyStr) : List Tok :=
  (C79_antlr_terminates antlrSkip antlrSkip_antlr () q).choose_spec.choose

theorem runReports_spec (q : PyStr) :
    ∃ f, Returns antlrSkip () (eofTok q) code .query (tokenStream q) f (runReports q) :=
  ⟨_, (C79_antlr_terminates antlrSkip antlrSkip_antlr () q).choose_spec.choose_spec.1⟩

/-- A runtime in which the lexer runs first. -/
noncomputable def rtRun : Runtime :=
  { rt0 with
    syntaxErrors := fun q =>
      match (lexErrors q).map .lexer ++ (runReports q).map (.parser · py!"mismatched input") with
      | [] => (.parser (eofTok q) [], [])
      | e :: es => (e, es) }

/-- It is as assumed, for every malformed query. -/
theorem rtRun_reportedBy (q : PyStr) (h : ∀ t, antlrParse q ≠ .ok t) :
    ReportedBy antlrSkip () q (rawErrors rtRun q) := by
  obtain ⟨f, hf⟩ := runReports_spec q
  have hn : runReports q ≠ [] := by
    intro e
    rw [e] at hf
    exact h _ ((C79_antlr_silent_iff_accepted _ antlrSkip_antlr () q f).1 hf)
  have hraw : rawErrors rtRun q = (lexErrors q).map .lexer ++ (runReports q).map (.parser · py!"mismatched input") := by
    cases hp : parseTokens (tokenStream q) with
    | some t => exact absurd (antlrParse_ok.2 hp) (h t)
    | none =>
      rw [rawErrors, hp]
      simp only [rtRun]
      split
      · rename_i e
        simp at e
        exact absurd e.2 hn
      · rename_i e
        rw [e]
  have t1 : ∀ l : List Piece, (l.map RawErr.lexer).filterMap RawErr.tok? = [] := by
    intro l; induction l <;> simp_all [RawErr.tok?]
  have t2 : ∀ l : List Tok, (l.map (RawErr.parser · py!"mismatched input")).filterMap RawErr.tok? = l := by
    intro l; induction l <;> simp_all [RawErr.tok?]
  have p1 : ∀ l : List Piece, (l.map RawErr.lexer).filterMap RawErr.piece? = l := by
    intro l; induction l <;> simp_all [RawErr.piece?]
  have p2 : ∀ l : List Tok, (l.map (RawErr.parser · py!"mismatched input")).filterMap RawErr.piece? = [] := by
    intro l; induction l <;> simp_all [RawErr.piece?]
  rw [hraw]
  refine ⟨⟨f, ?_⟩, ?_, ?_⟩
  · rw [List.filterMap_append, t1, t2, List.nil_append]
    exact hf
  · rw [List.filterMap_append, p1, p2, List.append_nil]
    exact List.prefix_refl _
  · intro as t msg bs e p hp _
    have key : ∀ {l : List RawErr} {l' as bs : List RawErr} {e : RawErr}, (∀ x ∈ l, x ≠ e) → l ++ l' = as ++ e :: bs → l <+: as := by
      intro l
      induction l with
      | nil => intros; simp
      | cons y l ih =>
        intro l' as bs e hne he
        cases as with
        | nil =>
          simp only [List.cons_append, List.nil_append, List.cons.injEq] at he
          exact absurd he.1 (hne y (by simp))
        | cons z as =>
          simp only [List.cons_append, List.cons.injEq] at he
          rw [he.1, List.prefix_cons_inj]
          exact ih (fun x hx => hne x (by simp [hx])) he.2
    exact (key (by
      intro x hx
      obtain ⟨p', -, rfl⟩ := List.mem_map.1 hx
      simp) e).subset (List.mem_map.2 ⟨p, hp, rfl⟩)

-- `'a' [b= | $`: the first record is about the unrecognised `$`, or about `|`
example : ∃ d ds, parseQuery rtRun defaultConfig py!"'a' [b= | $" =
      (.error ⟨py!"unable to parse query: " ++ d.message⟩, d :: ds) := by
  obtain ⟨d, ds, h, -⟩ := C82_first_record antlrSkip antlrSkip_antlr () rtRun defaultConfig py!"'a' [b= | $"
    (rtRun_reportedBy _) (fun h => absurd h.1 (by decide +kernel))
  exact ⟨d, ds, h⟩

-- `'a' [b= | )`: the first record has the range of `|` and the query up to it
example : ∃ d ds, parseQuery rtRun defaultConfig py!"'a' [b= | )" =
      (.error ⟨py!"unable to parse query: " ++ d.message⟩, d :: ds) ∧ d.position = .loc ⟨8, 9⟩ ∧
      d.fragment = some py!"'a' [b= |" := by
  have hm : ∀ t, antlrParse py!"'a' [b= | )" ≠ .ok t := by
    intro t ht
    rw [antlrParse_toBool_false (by decide +kernel)] at ht
    cases ht
  obtain ⟨d, ds, h, h'⟩ := C82_first_record antlrSkip antlrSkip_antlr () rtRun defaultConfig py!"'a' [b= | )"
    (rtRun_reportedBy _) (fun h => by
      obtain ⟨t, ht⟩ := (grammatical_iff _).1 h.2
      exact hm t (antlrParse_ok.2 ht))
  have hl : lexErrors py!"'a' [b= | )" = [] := by decide +kernel
  rcases h' with ⟨p, ps, e, -⟩ | ⟨us, x, vs, e, h1, hd, -, f, es, hr⟩
  · rw [hl] at e; cases e
  · obtain ⟨f', es', hr'⟩ := bar_run
    cases (hr.unique hr').2
    refine ⟨d, ds, h, ?_, ?_⟩
    · rw [hd.position]; decide +kernel
    · rw [hd.fragment]; decide +kernel

-- with an unrecognised character after the error: `'a' [b= | ) $`
example : (∃ rest t, antlrParse (py!"'a' [b= " ++ rest) = .ok t) ∧ ∀ rest t, antlrParse (py!"'a' [b= | " ++ rest) ≠ .ok t := by
  have hb := bar_bad
  rw [show (tokenStream py!"'a' [b= | )").take 4 = (tokenStream py!"'a' [b= | ) $").take 4 by decide +kernel] at hb
  have hs : tokenStream py!"'a' [b= | ) $" = (tokenStream py!"'a' [b= | ) $").take 4 ++ barTok :: (tokenStream py!"'a' [b= | ) $").drop 5 := by
    decide +kernel
  obtain ⟨a, b, fr, -, -, h1, h2, -, h3, h4, -⟩ := C82_fragment py!"'a' [b= | ) $" (by decide) _ _ barTok hs hb.1 _
    (at_token [] (by rw [hs]; simp)) (by decide +kernel)
  have e : listenerDetail py!"'a' [b= | ) $" (.parser barTok []) =
      { message := [], type := some py!"syntax-error", position := .loc ⟨8, 9⟩, fragment := some py!"'a' [b= |" } := by decide +kernel
  rw [e] at h1 h2
  simp only [Position.loc.injEq, Loc.mk.injEq, Option.some.injEq] at h1 h2
  have ha : a = 8 := by omega
  subst ha h2
  exact ⟨h3, fun rest t => h4 hb.2 (by decide +kernel) 32 (by decide) rest t⟩

end Fcsql
