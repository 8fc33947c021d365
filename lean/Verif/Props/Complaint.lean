/-
C86: what exactly is reported for a query whose syntax is right.
-/
import Verif.Proofs.Complaint
import Verif.Props.Examples

set_option autoImplicit false
set_option linter.unusedSimpArgs false

namespace Fcsql

attribute [local irreducible] parseQuery

section
variable (rt : Runtime) (cfg : Config) (q : PyStr)

theorem complaint_of_parse (hl : lexErrors q = []) (hg : Grammatical (tokenStream q)) :
    (∀ n, (parseQuery rt cfg q).1 = .ok n → Clean rt.toPyRuntime (tokenStream q)) ∧
    (∀ m, (parseQuery rt cfg q).1 = .error ⟨m⟩ → Complaint rt.toPyRuntime (tokenStream q) m) ∧
    (parseQuery rt cfg q).2 = [] := by
  obtain ⟨cst, hs⟩ := (grammatical_iff_syntax q).1 hg
  have ht := tells_query (rt := rt.toPyRuntime) cfg cst hs.wf hs.lexed
  rw [hs.leaves] at ht
  rw [parseQuery_syntax rt cfg q hs hl, build, buildWith_eq _ _ _ _ hs.wf]
  rcases hm : cst.mean pureAlloc rt.toPyRuntime cfg () with e | x
  · obtain ⟨m, h1, h2⟩ := ht.error e hm
    refine ⟨fun n h => (by cases h), fun m' h => ?_, rfl⟩
    have : wrapExc e = ⟨m'⟩ := by
      simpa [Except.map, Except.mapError] using h
    rw [h1] at this
    cases this
    exact h2
  · exact ⟨fun n _ => ht.ok x hm, fun m' h => (by cases h), rfl⟩

theorem Complaint.not_clean {rt : PyRuntime} {ts : List Tok} {m : PyStr} (h : Complaint rt ts m) : ¬ Clean rt ts := by
  obtain ⟨A, t, B, e, ho, -⟩ := h
  exact fun hc => hc A t B m e ho

/-- **C86.** `parse` raises `QueryParserException` with message `m` and leaves the error list empty exactly for the queries
with no lexical error and grammatical tokens in which something is objectionable, `m` being the objection to the first such token:
in a literal the first escape that is not understood or is no code point, contradicting flags, a number too long to be read, or
a range whose first number is larger. -/
theorem C86_complaint (m : PyStr) : parseQuery rt cfg q = (.error ⟨m⟩, []) ↔
    lexErrors q = [] ∧ Grammatical (tokenStream q) ∧ Complaint rt.toPyRuntime (tokenStream q) m := by
  by_cases hg : lexErrors q = [] ∧ Grammatical (tokenStream q)
  · obtain ⟨h1, h2, h3⟩ := complaint_of_parse rt cfg q hg.1 hg.2
    constructor
    · intro h; exact ⟨hg.1, hg.2, h2 m (by rw [h])⟩
    · rintro ⟨-, -, h⟩
      rcases hr : (parseQuery rt cfg q).1 with e | n
      · obtain ⟨m'⟩ := e
        have := (h2 m' hr).unique h
        subst this
        exact Prod.ext hr h3
      · exact absurd (h1 n hr) h.not_clean
  · obtain ⟨e, es, h1, h2⟩ := parseQuery_error rt cfg q hg
    constructor
    · intro h
      rw [h2] at h
      simp at h
    · rintro ⟨a, b, -⟩; exact absurd ⟨a, b⟩ hg

/-- **C86.** `parse` returns exactly for the queries with no lexical error, grammatical tokens and nothing objectionable. -/
theorem C86_accepted : (∃ n, (parseQuery rt cfg q).1 = .ok n) ↔
    lexErrors q = [] ∧ Grammatical (tokenStream q) ∧ Clean rt.toPyRuntime (tokenStream q) := by
  by_cases hg : lexErrors q = [] ∧ Grammatical (tokenStream q)
  · obtain ⟨h1, h2, h3⟩ := complaint_of_parse rt cfg q hg.1 hg.2
    constructor
    · rintro ⟨n, h⟩; exact ⟨hg.1, hg.2, h1 n h⟩
    · rintro ⟨-, -, h⟩
      rcases hr : (parseQuery rt cfg q).1 with e | n
      · obtain ⟨m'⟩ := e
        exact absurd h (h2 m' hr).not_clean
      · exact ⟨n, rfl⟩
  · obtain ⟨e, es, h1, h2⟩ := parseQuery_error rt cfg q hg
    constructor
    · rintro ⟨n, h⟩
      rw [h2] at h
      cases h
    · rintro ⟨a, b, -⟩; exact absurd ⟨a, b⟩ hg

/-- **C86.** There is at most one first objection: tokens without one are clean, and the message is determined. -/
theorem C86_one_complaint (ts : List Tok) (m m' : PyStr) (h : Complaint rt.toPyRuntime ts m) :
    ¬ Clean rt.toPyRuntime ts ∧ (Complaint rt.toPyRuntime ts m' → m = m') :=
  ⟨h.not_clean, fun h' => h.unique h'⟩

/-- **C86.** The settings of the parser have no influence on what is reported, nor on whether something is: only the tree of an
accepted query depends on them. -/
theorem C86_settings (cfg' : Config) (e : ParserException) : (parseQuery rt cfg q).1 = .error e ↔ (parseQuery rt cfg' q).1 = .error e := by
  suffices ∀ c c' : Config, (parseQuery rt c q).1 = .error e → (parseQuery rt c' q).1 = .error e from ⟨this _ _, this _ _⟩
  intro c c' h
  by_cases hg : lexErrors q = [] ∧ Grammatical (tokenStream q)
  · obtain ⟨m⟩ := e
    have h3 := (complaint_of_parse rt c q hg.1 hg.2).2.2
    have := (C86_complaint rt c q m).1 (Prod.ext h h3)
    rw [(C86_complaint rt c' q m).2 this]
  · obtain ⟨x, xs, h1, h2⟩ := parseQuery_error rt c q hg
    obtain ⟨y, ys, h3, h4⟩ := parseQuery_error rt c' q hg
    rw [h1] at h3
    cases h3
    rw [h4]; rw [h2] at h; exact h

end

/-- The first of two objections is reported, and in a literal the first of two escapes. -/
example : (parseQuery rt0 defaultConfig py!"'a\\U00110000\\]'/iI{3,2}").1 = .error ⟨py!"invalid codepoint: U+110000"⟩ := by
  decide +kernel
example : (parseQuery rt0 defaultConfig py!"'a'/iIl{3,2}") =
    (.error ⟨py!"invalid combination of regex modifier flags: 'i' or 'c' and 'I' or 'C' are mutually exclusive"⟩, []) := by
  decide +kernel
example : (parseQuery rt0 defaultConfig py!"[word='a'/dl]{3,2}") =
    (.error ⟨py!"invalid combination of regex modifier flags: 'l' is mutually exclusive with 'i', 'c', 'I', 'C' or 'd'"⟩, []) := by
  decide +kernel
example : (parseQuery rt0 defaultConfig py!"'a' ('b'{012,0003} | '\\}')") =
    (.error ⟨py!"bad qualifier: min > max (12 > 3)"⟩, []) := by decide +kernel
example : (parseQuery rt0 defaultConfig py!"'\\}'") = (.error ⟨py!"invalid escape sequence: \\}"⟩, []) := by decide +kernel
example : (parseQuery rt0 defaultConfig py!"'\\UFFFFFFFF'").1 =
    .error ⟨if rt0.chrOverflowIsValueError then py!"invalid codepoint: U+FFFFFFFF" else py!"an unexpected exception occured while parsing"⟩ := by
  decide +kernel

/-- The theorem on a concrete query: there is a complaint about it. -/
example : Complaint rt0.toPyRuntime (tokenStream py!"'a'{3,2}") py!"bad qualifier: min > max (3 > 2)" :=
  ((C86_complaint rt0 defaultConfig _ _).1 (by decide +kernel)).2.2

end Fcsql
