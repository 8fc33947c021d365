/-
C93: the lexer of the runtime library, run as a program on the network in FCSLexer.py, cuts every text into the pieces
C14-C16 and C54 speak of; C94: its recursion has a bound that does not depend on the text, and the state the lexers of a process
share does not matter.
-/
import Verif.Proofs.LexerSimAll
import Verif.Proofs.LexerCache
import Verif.Props.Generated

set_option autoImplicit false
set_option linter.unusedSimpArgs false

namespace Fcsql

attribute [local irreducible] lexerAtn lexPieces deserialize lexerData

/-- **C93.** On every text the lexer ends, and hands out and reports what the pieces of the text say: for every piece that is
a token the token object, for every error span one call of the error listeners, nothing for skipped text, and `EOF` last. -/
theorem C93_lexer_runs (A : Atn) (hA : deserialize lexerData = some A) (q : PyStr) (m : Nat) (hm : 28 ≤ m) :
    runLexer A m q = some ((lexPieces q).flatMap (Piece.events q) ++ [.token (eofRaw q)]) := by
  rw [lexerAtn_eq] at hA
  cases hA
  exact runLexer_spec q m hm

/-- **C93.** Every way to cut the text along the paths of the network is the one the lexer reports. -/
theorem C93_lexer_network (A : Atn) (hA : deserialize lexerData = some A) (q : PyStr) (ps : List Piece) (hp : NetSplits A q 0 0 ps) (m : Nat)
    (hm : 28 ≤ m) :
    runLexer A m q = some (ps.flatMap (Piece.events q) ++ [.token (eofRaw q)]) := by
  rw [C93_lexer_runs A hA q m hm, (C54_lexer_network A hA q ps).2 hp]

example : (runLexer lexerAtn 28 py!"\"a\" $\n'b").isSome = true ∧ deserialize lexerData = some lexerAtn ∧
    runLexer lexerAtn 28 py!"\"a\" $\n'b" = some
      [.token { type := 23, start := 0, stop := 2, line := 1, column := 0 },
       .report { line := 1, column := 4, text := py!"$" },
       .report { line := 2, column := 0, text := py!"'b" },
       .token { type := -1, start := 8, stop := 7, line := 2, column := 2 }] :=
  ⟨by decide +kernel, lexerAtn_eq, by decide +kernel⟩

theorem events_tok {q : PyStr} {p : Piece} {t : Tok} (h : p.tok? = some t) (hs : p.start + p.text.length ≤ q.length)
    (ht : p.text = (q.drop p.start).take p.text.length) (hne : p.text ≠ []) :
    ((Piece.events q p).filterMap LexEvent.tok?).map (fun r => (r.type, (r.start : Int), r.stop, r.text q)) =
      [(t.type.num, t.start, t.stop, t.text)] := by
  obtain ⟨h1, h2, h3, h4⟩ := piece_tok h
  have := List.length_pos_iff.2 hne
  have htext : RawTok.text q ⟨t.type.num, p.start, (p.start : Int) + p.text.length - 1, lineAt q p.start, p.column⟩ = t.text := by
    unfold RawTok.text
    rw [if_pos]
    · simp only
      have hl : ((p.start : Int) + p.text.length - 1 + 1 - p.start).toNat = p.text.length := by omega
      rw [hl, ← ht, h2]
    · simp only [Bool.and_eq_true, decide_eq_true_eq]
      omega
  simp only [Piece.events, h1, List.filterMap_cons, LexEvent.tok?, List.filterMap_nil, List.map_cons, List.map_nil, htext]
  simp only [h3, h4, h2]

theorem events_noTok {q : PyStr} {p : Piece} (h : p.tok? = none) : (Piece.events q p).filterMap LexEvent.tok? = [] := by
  unfold Piece.tok? at h
  unfold Piece.events
  split at h
  · cases h
  · rename_i hk
    cases hp : p.kind with
    | tok t => exact absurd hp (hk t)
    | _ => rfl

/-- **C93.** The token objects are the tokens of the query, in order, then `EOF`: the same types, offsets and texts. -/
theorem C93_tokens (A : Atn) (hA : deserialize lexerData = some A) (q : PyStr) (m : Nat) (hm : 28 ≤ m) :
    ∃ es, runLexer A m q = some es ∧
      (es.filterMap LexEvent.tok?).map (fun r => (r.type, (r.start : Int), r.stop, r.text q)) =
        (tokenStream q).map fun t => (t.type.num, t.start, t.stop, t.text) := by
  refine ⟨_, C93_lexer_runs A hA q m hm, ?_⟩
  have hsp := lexPieces_splits q
  rw [List.filterMap_append, List.map_append, tokenStream, List.map_append]
  congr 1
  · have key : ∀ a b, lexPieces q = a ++ b →
        ((b.flatMap (Piece.events q)).filterMap LexEvent.tok?).map (fun r => (r.type, (r.start : Int), r.stop, r.text q)) =
          (b.filterMap Piece.tok?).map fun t => (t.type.num, t.start, t.stop, t.text) := by
      intro a b
      induction b generalizing a with
      | nil => intro _; rfl
      | cons p b ih =>
        intro hab
        have ih := ih (a ++ [p]) (by rw [hab]; simp)
        rw [List.flatMap_cons, List.filterMap_append, List.map_append, ih]
        have hst := (hsp.start a p b hab).1
        have htext := hsp.text
        rw [hab] at htext
        simp only [piecesText, List.flatMap_append, List.flatMap_cons] at htext hst
        cases hp : p.tok? with
        | none => rw [events_noTok hp, List.filterMap_cons, hp]; rfl
        | some t =>
          rw [events_tok hp (by rw [hst, ← htext]; simp) (by rw [hst, ← htext]; simp)
            (hsp.nonempty p (by rw [hab]; simp)), List.filterMap_cons, hp]
          rfl
    exact key [] _ rfl
  · simp [LexEvent.tok?, RawTok.text, eofRaw, eofTok, TokType.num]

/-- **C93.** The calls of the error listeners: one for every error span, in order, with its line, column and text. -/
theorem C93_reports (A : Atn) (hA : deserialize lexerData = some A) (q : PyStr) (m : Nat) (hm : 28 ≤ m) :
    ∃ es, runLexer A m q = some es ∧
      (es.filterMap fun e => match e with | .report r => some r | .token _ => none) =
        (lexErrors q).map fun p => { line := lineAt q p.start, column := p.column, text := p.text } := by
  refine ⟨_, C93_lexer_runs A hA q m hm, ?_⟩
  rw [List.filterMap_append]
  simp only [List.filterMap_cons, List.filterMap_nil, List.append_nil, lexErrors]
  induction lexPieces q with
  | nil => rfl
  | cons p b ih =>
    rw [List.flatMap_cons, List.filterMap_append, ih]
    cases hp : p.kind <;> simp [Piece.events, hp]

example : lexErrors py!"\"a\" $\n'b" ≠ [] := by decide +kernel

/-- **C94.** While it reads a text, `closure` never has more than 28 calls open, however long the text is, and no loop runs
more than once for each character and once more. -/
theorem C94_bounded (A : Atn) (hA : deserialize lexerData = some A) (q : PyStr) : (runLexer A 28 q).isSome = true := by
  rw [C93_lexer_runs A hA q 28 (Nat.le_refl _)]
  rfl

/-- **C94.** What earlier lexers stored in the shared state, and what other threads store meanwhile, does not matter. -/
theorem C94_shared (A : Atn) (hA : deserialize lexerData = some A) (m : Nat) (hm : 28 ≤ m) (env : LexOthers) (he : env.Fair A m)
    (d : LexDfa) (hd : d.Right A m) (qs : List PyStr) :
    runLexersC A m env qs d = some (qs.map fun q => (lexPieces q).flatMap (Piece.events q) ++ [.token (eofRaw q)]) := by
  induction qs generalizing d with
  | nil => rfl
  | cons q qs ih =>
    unfold runLexersC
    rcases (runLexerC_agrees he q hd).cases with ⟨_, h2⟩ | ⟨es, d', h1, h2, h3⟩
    · rw [C93_lexer_runs A hA q m hm] at h2
      cases h2
    · rw [h1]
      simp only
      rw [ih d' h3]
      rw [C93_lexer_runs A hA q m hm] at h2
      cases h2
      rfl

theorem LexDfa.empty_right (A : Atn) (m : Nat) : LexDfa.empty.Right A m :=
  ⟨fun _ h => (nomatch h), fun _ h => (nomatch h)⟩

theorem lexOthersStore_fair (A : Atn) (m : Nat) (schedule : Nat → List (List LConf × Int)) : (lexOthersStore A m schedule).Fair A m := by
  intro n d hd
  refine ⟨hd.1, fun e he => ?_⟩
  rcases List.mem_append.1 he with he | he
  · obtain ⟨w, _, hw⟩ := List.mem_filterMap.1 he
    cases hr : A.lexReach m w.1 w.2 with
    | none => rw [hr] at hw; cases hw
    | some r => rw [hr] at hw; cases hw; exact hr
  · exact hd.2 e he

/-- **C94.** In particular from the state at import on, whatever the other threads compute and store between two accesses. -/
theorem C94_any_schedule (A : Atn) (hA : deserialize lexerData = some A) (m : Nat) (hm : 28 ≤ m)
    (schedule : Nat → List (List LConf × Int)) (qs : List PyStr) :
    runLexersC A m (lexOthersStore A m schedule) qs .empty =
      some (qs.map fun q => (lexPieces q).flatMap (Piece.events q) ++ [.token (eofRaw q)]) :=
  C94_shared A hA m hm _ (lexOthersStore_fair A m schedule) _ (LexDfa.empty_right A m) qs

/-- The second lexer finds what the first has stored, and what another thread has; it does not compute the start again. -/
example : (match runLexerC lexerAtn 28 py!"a b" (lexOthersStore lexerAtn 28 fun n => if n = 3 then [([], 97)] else []) .empty with
    | none => none
    | some (es, d) =>
      match runLexerC lexerAtn 28 py!"a b" (fun _ d => d) d with
      | none => none
      | some (es', d') => some (d.s0.isSome, d.edges.length, decide (es' = es), d'.edges.length)) = some (true, 6, true, 6) := by
  decide +kernel

end Fcsql
