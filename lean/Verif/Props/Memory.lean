/-
C106: what a process keeps between calls.  The lexer's table has a bound; the parser's has none: a query with more brackets
open stores more.  Nothing is stored twice.
-/
import Verif.Proofs.CacheKeys
import Verif.Proofs.LexerStates
import Verif.Props.Cache
import Verif.Props.LexerRun
import Verif.Props.Grouping
import Verif.Props.Adaptive

set_option autoImplicit false
set_option linter.unusedSimpArgs false

namespace Fcsql

attribute [local irreducible] parseQuery parserAtn lexerAtn lexPieces deserialize lexerData

/-- **C106.** There are 12160 entries outside of which no lexer stores anything, whatever texts are read, one after the other
and in other threads: if the others keep to them, so does this one. -/
theorem C106_lexer (A : Atn) (hA : deserialize lexerData = some A) : ∃ l : List (List LConf × Int), l.length ≤ 12160 ∧
    ∀ (m : Nat), 28 ≤ m → ∀ (env : LexOthers), (∀ n d, d.Right A m → d.Within l → (env n d).Right A m ∧ (env n d).Within l) →
      ∀ (d : LexDfa), d.Right A m → d.Within l → ∀ (qs : List PyStr) (d' : LexDfa), lexAll A m env qs d = some d' →
        d'.Right A m ∧ d'.Within l := by
  rw [lexerAtn_eq] at hA
  cases hA
  refine ⟨lexKeys, by rw [lexKeys_length]; decide, fun m hm env he d hd hw qs => ?_⟩
  have he' : SmallEnv m env := fun n d h => ⟨(he n d h.right h.keys).1, (he n d h.right h.keys).2⟩
  induction qs generalizing d with
  | nil => intro d' h; cases h; exact ⟨hd, hw⟩
  | cons q qs ih =>
    intro d' h
    unfold lexAll at h
    split at h
    · cases h
    · rename_i es d1 hx
      have h1 := lexFillC_small hm he' q _ ⟨hd, hw⟩ hx
      exact ih d1 h1.right h1.keys d' h

/-- **C106.** In a process that only lexes, one text after the other: it always ends, and at most 12160 edges are stored. -/
theorem C106_lexer_alone (A : Atn) (hA : deserialize lexerData = some A) (qs : List PyStr) :
    ∃ d, lexAll A 28 (fun _ d => d) qs .empty = some d ∧ d.HoldsAtMost 12160 := by
  have hex : ∀ (qs : List PyStr) (d : LexDfa), d.Right A 28 → ∃ d', lexAll A 28 (fun _ d => d) qs d = some d' := by
    intro qs
    induction qs with
    | nil => exact fun d _ => ⟨d, rfl⟩
    | cons q qs ih =>
      intro d hd
      unfold lexAll
      rcases (runLexerC_agrees (env := fun _ d => d) (fun _ _ h => h) q hd).cases with ⟨_, h2⟩ | ⟨es, d', h1, h2, h3⟩
      · rw [C93_lexer_runs A hA q 28 (Nat.le_refl _)] at h2
        cases h2
      · rw [h1]
        exact ih d' h3
  obtain ⟨d, hd⟩ := hex qs .empty (LexDfa.empty_right A 28)
  obtain ⟨l, hl, h⟩ := C106_lexer A hA
  exact ⟨d, hd, l, hl, (h 28 (Nat.le_refl _) (fun _ d => d) (fun _ _ h1 h2 => ⟨h1, h2⟩) .empty (LexDfa.empty_right A 28)
    (fun _ h => nomatch h) qs d hd).2⟩

example : ∃ d, lexAll lexerAtn 28 (fun _ d => d) [py!"\"a\"", py!"ab"] .empty = some d ∧ d.edges.length = 5 := by
  have h : ((lexAll lexerAtn 28 (fun _ d => d) [py!"\"a\"", py!"ab"] .empty).map fun d => d.edges.length) = some 5 := by decide +kernel
  cases hx : lexAll lexerAtn 28 (fun _ d => d) [py!"\"a\"", py!"ab"] .empty with
  | none => rw [hx] at h; cases h
  | some d => rw [hx] at h; exact ⟨d, rfl, by simpa using h⟩

/-- **C106.** A query that begins with `N` opening brackets leaves at least `N` different entries in the parser's tables: whatever
follows them, whatever was stored before, whatever the other threads store, and however early the parser is stopped. -/
theorem C106_parser (A : Atn) (hA : deserialize parserData = some A) (env : Others AConfigSet) (hf : env.Fair (Atn.simulator A))
    (hk : env.Keeps) (N : Nat) (rest : PyStr) (n : Nat) (hn : 3 ≤ n) (c : Caches AConfigSet) (hc : c.Right (Atn.simulator A)) :
    (antlrParseC (Atn.simulator A) env n (List.replicate N 40 ++ rest) c).2.HoldsAtLeast N := by
  rw [parserAtn_eq] at hA
  cases hA
  refine ⟨_, brackets_nodup N, by simp, fun a ha => ?_⟩
  obtain ⟨j, hj, rfl⟩ := List.mem_map.1 ha
  have hj := List.mem_range.1 hj
  obtain ⟨N, rfl⟩ : ∃ M, N = M + 1 := ⟨N - 1, by omega⟩
  obtain ⟨h1, h2⟩ := lexLoopC_right hf (List.replicate (N + 1) 40 ++ rest).length (List.replicate (N + 1) 40 ++ rest) 0 0 c hc
  have h3 := tokens_brackets (N + 1) rest
  have key := exec_brackets hf hk N _ h3 n hn _ h2 j hj
  unfold tokenStream lexTokens lexPieces at key
  simp only [antlrParseC, parseC]
  rw [h1]
  exact key

/-- **C106.** `QueryParser.parse` stores what `antlr_parse` stores. -/
theorem C106_same {τ : Type} [DecidableEq τ] (sim : Simulator τ) (env : Others τ) (rt : PyRuntime) (cfg : Config) (n : Nat) (q : PyStr)
    (c : Caches τ) : (queryParseC sim env rt cfg n q c).2 = (antlrParseC sim env n q c).2 := rfl

/-- **C106.** What is stored is kept: no call takes an entry out. -/
theorem C106_kept {τ : Type} [DecidableEq τ] (sim : Simulator τ) (env : Others τ) (hk : env.Keeps) (ts : List Tok) (n : Nat) (c : Caches τ)
    (B : Nat) (h : c.HoldsAtLeast B) : (execC sim env code n [] (code .query) ts c).2.HoldsAtLeast B := by
  obtain ⟨l, h1, h2, h3⟩ := h
  exact ⟨l, h1, h2, fun a ha => execC_keeps hk _ _ _ _ _ _ _ (h3 a ha)⟩

/-- Such queries are accepted: any query without `within`, in `N` pairs of brackets. -/
theorem wrapped_accepted (rt : Runtime) (cfg : Config) (Q : PyStr) (n : Node) (h : (parseQuery rt cfg Q).1 = .ok n) (hn : n.kind ≠ .withWithin)
    (N : Nat) : ∃ n', (parseQuery rt cfg (List.replicate N 40 ++ (Q ++ List.replicate N 41))).1 = .ok n' ∧ n'.kind ≠ .withWithin := by
  induction N with
  | zero => exact ⟨n, by simpa using h, hn⟩
  | succ N ih =>
    obtain ⟨n1, h1, h2⟩ := ih
    obtain ⟨n2, h3, h4⟩ := C50_group_located rt cfg _ n1 h1 h2
    refine ⟨n2, ?_, ?_⟩
    · rw [← h3]
      congr 2
      rw [List.replicate_succ, List.replicate_succ']
      simp
    · have := congrArg Node.kind h4
      rw [unlocated_kind] at this
      rw [this]
      simp [Node.kind]

/-- **C106.** So there is no bound on what is kept, not even if only queries are parsed that are accepted. -/
theorem C106_unbounded (A : Atn) (hA : deserialize parserData = some A) (rt : Runtime) (cfg : Config) (env : Others AConfigSet)
    (hf : env.Fair (Atn.simulator A)) (hk : env.Keeps) (Q : PyStr) (x : Node) (hQ : (parseQuery rt cfg Q).1 = .ok x) (hx : x.kind ≠ .withWithin)
    (B : Nat) : ∃ q, (∃ y, (parseQuery rt cfg q).1 = .ok y) ∧ q.length = Q.length + 2 * B ∧
      ∃ N, ∀ n, N ≤ n → ∀ c : Caches AConfigSet, c.Right (Atn.simulator A) →
        (queryParseC (Atn.simulator A) env rt.toPyRuntime cfg n q c).1.map .ofNode = some (ParseCall.answer rt (.parse cfg q)) ∧
        (queryParseC (Atn.simulator A) env rt.toPyRuntime cfg n q c).2.HoldsAtLeast B := by
  obtain ⟨y, hy, -⟩ := wrapped_accepted rt cfg Q x hQ hx B
  refine ⟨_, ⟨y, hy⟩, by simp; omega, ?_⟩
  have hA' := hA
  rw [parserAtn_eq] at hA'
  cases hA'
  obtain ⟨N, hN⟩ := queryParseC_right (sim := parserAtn.simulator) (fun q => C87_generated_parser q) hf rt cfg (List.replicate B 40 ++ (Q ++ List.replicate B 41))
  exact ⟨max N 3, fun n hn c hc => ⟨(hN n (by omega) c hc).1, C106_parser _ hA env hf hk B _ n (by omega) c hc⟩⟩

/-- **C106.** Nothing is stored twice: a call whose entries are there already (those it leaves in a process with other
contents `c`) stores nothing in the parser's tables. -/
theorem C106_settled {τ : Type} [DecidableEq τ] (sim : Simulator τ) (n : Nat) (q : PyStr) (c c' : Caches τ) (hc : c.Right sim)
    (hc' : c'.Right sim) (h : ∀ a ∈ (antlrParseC sim (.alone τ) n q c).2.keys, a ∈ c'.keys) :
    (antlrParseC sim (.alone τ) n q c').2.dfas = c'.dfas := parseC_settles n q c c' hc hc' h

/-- **C106.** In particular the same query again: whatever was parsed in between. -/
theorem C106_again (A : Atn) (hA : deserialize parserData = some A) (rt : Runtime) (q : PyStr) (calls : List ParseCall) :
    ∃ N, ∀ n, N ≤ n → ∀ c : Caches AConfigSet, c.Right (Atn.simulator A) →
      let c1 := (antlrParseC (Atn.simulator A) (.alone _) n q c).2
      let c2 := (sessionC (Atn.simulator A) (.alone _) rt.toPyRuntime n calls c1).2
      (antlrParseC (Atn.simulator A) (.alone _) n q c2).2.dfas = c2.dfas := by
  rw [parserAtn_eq] at hA
  cases hA
  obtain ⟨N, hN⟩ := session_right parserAtn.simulator (fun q => C87_generated_parser q) (.alone _) alone_fair rt calls
  generalize Atn.simulator parserAtn = sim at *
  refine ⟨N, fun n hn c hc => ?_⟩
  have h1 := (parseC_right (sim := sim) alone_fair n q c hc).2
  refine C106_settled sim n q c _ hc (hN n hn _ h1).2 ?_
  have hkeep : ∀ (ks : List ParseCall) (c : Caches AConfigSet) (a : Nat × Option (AConfigSet × Int)), a ∈ c.keys →
      a ∈ (sessionC sim (.alone _) rt.toPyRuntime n ks c).2.keys := by
    intro ks
    have hp : ∀ (q : PyStr) (c : Caches AConfigSet) (a : Nat × Option (AConfigSet × Int)), a ∈ c.keys → a ∈ (parseC sim (.alone _) n q c).2.keys := by
      intro q c a ha
      simp only [parseC]
      refine execC_keeps alone_keeps _ _ _ _ _ _ _ ?_
      rw [keys_dfas (lexLoopC_dfas q.length q 0 0 c)]
      exact ha
    induction ks with
    | nil => exact fun c a ha => ha
    | cons k ks ih =>
      intro c a ha
      cases k with
      | antlr q => exact ih _ _ (hp q c a ha)
      | parse cfg q => exact ih _ _ (hp q c a ha)
  exact fun a ha => hkeep calls _ a ha

-- the hypotheses of the theorems about the parser, together
example : ∃ A x, deserialize parserData = some A ∧ (parseQuery rt0 locConfig py!"'a'").1 = .ok x ∧ x.kind ≠ .withWithin ∧
    (Others.alone AConfigSet).Fair (Atn.simulator A) ∧ (Others.alone AConfigSet).Keeps ∧ (Caches.empty AConfigSet).Right (Atn.simulator A) := by
  have h : (match (parseQuery rt0 locConfig py!"'a'").1 with | .ok x => x.kind != .withWithin | .error _ => false) = true := by decide +kernel
  split at h
  · rename_i x hx
    exact ⟨parserAtn, x, parserAtn_eq, hx, by simpa using h, alone_fair, alone_keeps, empty_right _⟩
  · cases h

end Fcsql
