/-
C70: how deep the recursion gets depends on the nesting of a query, not on its length.
-/
import Verif.Proofs.Depth
import Verif.Proofs.NodeHeight
import Verif.Props.Generated
import Verif.Spec.Marked
import Verif.Props.Placed
import Verif.Props.Contexts

set_option autoImplicit false
set_option linter.unusedSimpArgs false

namespace Fcsql

theorem parseLim_room (rt : Runtime) (cfg : Config) (q : PyStr) (t : PTree) (hp : parseTokens (tokenStream q) = some t) (room seen : Nat)
    (hle : t.height ≤ room) : parseLim rt cfg q t room seen = parseQuery rt cfg q := by
  unfold parseLim parseQuery parseWith
  rw [if_pos hle]
  cases (rawErrors rt q).map (listenerDetail q) with
  | nil =>
    simp only [hp, buildLim_enough pureAlloc rt.toPyRuntime cfg () hle]
    rcases buildWith pureAlloc rt.toPyRuntime cfg () t with e | ⟨n, u⟩ <;> rfl
  | cons e es => rfl

theorem parseLim_no_room (rt : Runtime) (cfg : Config) (q : PyStr) (t : PTree) (room seen : Nat) (hle : ¬ t.height ≤ room) :
    (parseLim rt cfg q t room seen).1 = .error ⟨py!"an unexpected exception occured while parsing"⟩ := by
  unfold parseLim
  rw [if_neg hle]
  rfl

attribute [local irreducible] parseQuery parseLim

/-- What `maxOpen` is: the greatest number of `(` open after some of the tokens. -/
theorem maxOpen_spec (ts : List Tok) : (∀ k, openParens (ts.take k) ≤ maxOpen ts) ∧ ∃ k, openParens (ts.take k) = maxOpen ts := by
  have step : ∀ (t : Tok) (us : List Tok), openParens (t :: us) = openParens us + (if t.type = .L_PAREN then 1 else if t.type = .R_PAREN then -1 else 0) := by
    intro t us
    simp only [openParens, countTok, List.filter_cons]
    by_cases h1 : t.type = .L_PAREN
    · have h2 : t.type ≠ .R_PAREN := by simp [h1]
      simp [h1, h2]; omega
    · by_cases h2 : t.type = .R_PAREN
      · simp [h1, h2]; omega
      · simp [h1, h2]
  induction ts with
  | nil => exact ⟨fun k => by simp [openParens, countTok, maxOpen], 0, by simp [openParens, countTok, maxOpen]⟩
  | cons t ts ih =>
    obtain ⟨h1, k0, h2⟩ := ih
    have h0 : 0 ≤ (maxOpen ts : Int) := by omega
    constructor
    · intro k
      cases k with
      | zero =>
        have : (openParens (List.take 0 (t :: ts))) = 0 := by simp [openParens, countTok]
        rw [this]; omega
      | succ k =>
        have := h1 k
        rw [List.take_succ_cons, step, maxOpen]
        split
        · omega
        · split <;> omega
    · by_cases hz : maxOpen (t :: ts) = 0
      · exact ⟨0, by rw [hz]; simp [openParens, countTok]⟩
      · refine ⟨k0 + 1, ?_⟩
        rw [List.take_succ_cons, step, h2]
        rw [maxOpen] at hz ⊢
        split
        · omega
        · split
          · next a b => rw [if_neg a, if_pos b] at hz; omega
          · omega

/-- **C70.** The parse tree of a query is at most 12 levels high, plus 3 for every level of parentheses, plus 6 for every `!`. -/
theorem C70_depth_bounded (q : PyStr) (t : PTree) (h : antlrParse q = .ok t) :
    t.height ≤ 12 + 3 * maxOpen (tokenStream q) + 6 * countTok .NOT (tokenStream q) := by
  obtain ⟨cst, hs, rfl⟩ := syntaxOf_of_parse (antlrParse_ok.1 h)
  obtain ⟨c, hc⟩ := hs.chosen
  have := query_height hs.wf (c := c) (by rw [hs.leaves]; exact hc)
  rw [hs.leaves] at this
  exact this.1

/-- **C70.** It is at least as high as the parentheses are nested. -/
theorem C70_depth_at_least (q : PyStr) (t : PTree) (h : antlrParse q = .ok t) : maxOpen (tokenStream q) ≤ t.height := by
  obtain ⟨cst, hs, rfl⟩ := syntaxOf_of_parse (antlrParse_ok.1 h)
  obtain ⟨c, hc⟩ := hs.chosen
  have := query_height hs.wf (c := c) (by rw [hs.leaves]; exact hc)
  rw [hs.leaves] at this
  exact this.2

/-- **C70.** Without parentheses and negations the height is at most 12, however long the query is. -/
theorem C70_flat (q : PyStr) (t : PTree) (h : antlrParse q = .ok t)
    (hf : ∀ x ∈ lexTokens q, x.type ≠ .L_PAREN ∧ x.type ≠ .R_PAREN ∧ x.type ≠ .NOT) : t.height ≤ 12 := by
  have hf' : ∀ x ∈ tokenStream q, x.type ≠ .L_PAREN ∧ x.type ≠ .R_PAREN ∧ x.type ≠ .NOT := by
    intro x hx
    simp only [tokenStream, List.mem_append, List.mem_singleton] at hx
    rcases hx with hx | rfl
    · exact hf x hx
    · simp [eofTok]
  have h1 := C70_depth_bounded q t h
  have h2 : maxOpen (tokenStream q) = 0 := maxOpen_plain fun x hx => ⟨(hf' x hx).1, (hf' x hx).2.1⟩
  have h3 : countTok .NOT (tokenStream q) = 0 := by
    simp only [countTok, List.length_eq_zero_iff, List.filter_eq_nil_iff, decide_eq_true_eq]
    exact fun x hx => (hf' x hx).2.2
  omega

/-- **C70.** The generated rule functions are active at once to exactly this depth: the pending calls at the deepest point,
together with the outermost function, are as many as the parse tree is high. -/
theorem C70_calls (P : Predictor) (hP : P.Parses) (q : PyStr) (t : PTree) (h : antlrParse q = .ok t) :
    ∃ N, ∀ n, N ≤ n → execDepth P code n [] (code .query) (tokenStream q) + 1 = t.height := by
  obtain ⟨c, hc⟩ := (parseTokens_some _ _).1 (antlrParse_ok.1 h)
  obtain ⟨f, rfl⟩ := chosen_query_node hc
  obtain ⟨N, hN⟩ := hP q f h
  refine ⟨N, fun n hn => ?_⟩
  rw [execDepth_ok n [] _ _ f [] (hN n hn)]
  simp only [List.length_nil, PTree.height]
  omega

/-- **C70.** The tree returned is lower than the parse tree (so printing, visiting and validating it recurses less). -/
theorem C70_result (rt : Runtime) (cfg : Config) (q : PyStr) (n : Node) (h : (parseQuery rt cfg q).1 = .ok n) :
    n.height ≤ 11 + 3 * maxOpen (tokenStream q) + 6 * countTok .NOT (tokenStream q) := by
  obtain ⟨hl, cst, hs, hd⟩ := (parse_ok rt cfg q n).1 h
  have h1 := C70_depth_bounded q _ (antlrParse_ok.2 hs.parse)
  have h2 := cst.node_height _ _ n hd
  omega

/-- **C70.** With enough room for the height of the parse tree, the limit makes no difference. -/
theorem C70_enough_room (rt : Runtime) (cfg : Config) (q : PyStr) (t : PTree) (h : antlrParse q = .ok t) (room seen : Nat)
    (hr : 12 + 3 * maxOpen (tokenStream q) + 6 * countTok .NOT (tokenStream q) ≤ room) :
    parseLim rt cfg q t room seen = parseQuery rt cfg q := by
  have hh := C70_depth_bounded q t h
  exact parseLim_room rt cfg q t (antlrParse_ok.1 h) room seen (by omega)

/-- **C70.** With less room the outcome is the same or the exception for unexpected exceptions: never another tree. -/
theorem C70_less_room (rt : Runtime) (cfg : Config) (q : PyStr) (t : PTree) (h : antlrParse q = .ok t) (room seen : Nat) :
    (parseLim rt cfg q t room seen).1 = (parseQuery rt cfg q).1 ∨
    (parseLim rt cfg q t room seen).1 = .error ⟨py!"an unexpected exception occured while parsing"⟩ := by
  by_cases hle : t.height ≤ room
  · exact .inl (by rw [parseLim_room rt cfg q t (antlrParse_ok.1 h) room seen hle])
  · exact .inr (parseLim_no_room rt cfg q t room seen hle)

/-- **C70.** The builder alone, with any room: the same result, or a foreign exception. -/
theorem C70_builder {ν σ : Type} (A : Alloc ν σ) (rt : PyRuntime) (cfg : Config) (heap : σ) (t : PTree) (room : Nat) :
    (t.height ≤ room → buildLimWith A rt cfg heap t room = buildWith A rt cfg heap t) ∧
    (buildLimWith A rt cfg heap t room = buildWith A rt cfg heap t ∨ buildLimWith A rt cfg heap t room = .error .other) :=
  ⟨buildLim_enough A rt cfg heap, buildLim_sameOr A rt cfg heap t room⟩

/-- A word in `k` pairs of parentheses. -/
def inParens : Nat → PyStr
  | 0 => py!"'a'"
  | k + 1 => py!"(" ++ inParens k ++ py!")"

theorem inParens_parses (rt : Runtime) (cfg : Config) : ∀ k, ∃ n, (parseQuery rt cfg (inParens k)).1 = .ok n ∧ n.kind ≠ .withWithin ∧ k < n.height
  | 0 => by
    let tok : Tok := ⟨.REGEXP, py!"'a'", 0, 2⟩
    have h : (parseQuery rt cfg (inParens 0)).1 = .ok (.mk (.segment 1 1)
        [.mk (.expression none cfg.defaultIdentifier cfg.defaultOperator (cfg.norm rt.toPyRuntime py!"a") none) [] (cfg.span [tok])] (cfg.span [tok])) := by
      refine (parse_ok rt cfg _ _).2 ⟨by decide +kernel, ⟨.implicit ⟨tok, none⟩ none, none, eofTok (inParens 0)⟩, ⟨?_, ?_, ?_⟩, ?_⟩
      · exact ⟨⟨⟨rfl, by simp⟩, by simp [optQuantWF]⟩, by simp, by simp [eofTok]⟩
      · decide +kernel
      · exact (parseTokens_some _ _).1 rfl
      · exact ⟨_, _, 1, 1, ⟨⟨py!"a", ⟨39, [.plain 97], ⟨.inr rfl, by simp [LitPiece.WF], rfl⟩, rfl⟩, rfl⟩, rfl⟩, ⟨rfl, rfl⟩, rfl⟩
    exact ⟨_, h, by simp [Node.kind], by simp [Node.height, Node.heightL]⟩
  | k + 1 => by
    obtain ⟨n, h1, h2, h3⟩ := inParens_parses rt cfg k
    refine ⟨_, C67_group rt cfg _ n h1 h2, by simp [Node.kind], ?_⟩
    have := (n.shift 1).height_contentAt
    rw [Node.height_shift] at this
    simp only [Node.height, Node.heightL]
    omega

/-- **C70.** There is no limit that is enough for all queries: `k` pairs of parentheses are accepted with enough room, and refused
with room for `k` levels only. -/
theorem C70_no_limit_is_enough (rt : Runtime) (cfg : Config) (k : Nat) :
    ∃ n t, (parseQuery rt cfg (inParens k)).1 = .ok n ∧ antlrParse (inParens k) = .ok t ∧ k < t.height ∧
      ∀ seen, (parseLim rt cfg (inParens k) t k seen).1 = .error ⟨py!"an unexpected exception occured while parsing"⟩ := by
  obtain ⟨n, h1, -, h3⟩ := inParens_parses rt cfg k
  obtain ⟨hl, cst, hs, hd⟩ := (parse_ok rt cfg _ n).1 h1
  have h2 := cst.node_height _ _ n hd
  exact ⟨n, cst.toTree, h1, antlrParse_ok.2 hs.parse, by omega, fun seen => parseLim_no_room rt cfg _ _ _ _ (by omega)⟩

/-! ### Examples -/

/-- Flat, with every kind of construct: exactly 12 levels. -/
def flatQuery : PyStr := py!"'a' [b = 'c' & d = 'e' | f = 'g'] | 'h'"

example : (treeOf flatQuery).height = 12 := by decide +kernel
example : (treeOf flatQuery).height ≤ 12 := C70_flat flatQuery _ (treeOf_ok (by decide +kernel)) (by decide +kernel)

-- parentheses and a negation
def nestedQuery : PyStr := py!"(('a')) [!(b = 'c')]"

example : maxOpen (tokenStream nestedQuery) = 2 ∧ countTok .NOT (tokenStream nestedQuery) = 1 ∧ (treeOf nestedQuery).height = 11 := by decide +kernel
example : (treeOf nestedQuery).height ≤ 24 := by
  have := C70_depth_bounded nestedQuery _ (treeOf_ok (by decide +kernel))
  rw [show maxOpen (tokenStream nestedQuery) = 2 by decide +kernel, show countTok .NOT (tokenStream nestedQuery) = 1 by decide +kernel] at this
  exact this
example : 2 ≤ (treeOf nestedQuery).height := by
  have := C70_depth_at_least nestedQuery _ (treeOf_ok (by decide +kernel))
  rwa [show maxOpen (tokenStream nestedQuery) = 2 by decide +kernel] at this

-- conjunction in disjunction in conjunction, without parentheses: negations do nest
example : (treeOf py!"[a = 'b' & ! c = 'd' | e = 'f' & ! g = 'h' | i = 'j' & ! k = 'l' | m = 'n']").height = 14 := by decide +kernel

-- the rule functions, with any predictor that is right
example (P : Predictor) (hP : P.Parses) : ∃ N, ∀ n, N ≤ n → execDepth P code n [] (code .query) (tokenStream flatQuery) + 1 = 12 := by
  have := C70_calls P hP flatQuery _ (treeOf_ok (by decide +kernel))
  rwa [show (treeOf flatQuery).height = 12 by decide +kernel] at this

-- with room, and without
example : (parseLim rt0 locConfig flatQuery (treeOf flatQuery) 12 0).1 = (parseQuery rt0 locConfig flatQuery).1 := by
  rw [C70_enough_room rt0 locConfig flatQuery _ (treeOf_ok (by decide +kernel)) 12 0 (by decide +kernel)]
example : (parseQuery rt0 locConfig flatQuery).1.isOk = true ∧ (parseLim rt0 locConfig flatQuery (treeOf flatQuery) 12 0).1.isOk = true ∧
    (parseLim rt0 locConfig flatQuery (treeOf flatQuery) 11 0).1.isOk = false := by decide +kernel

-- the builder runs out of room
example : (buildLimWith pureAlloc rt0.toPyRuntime locConfig () (treeOf nestedQuery) 3).toOption.isSome = false ∧
    (buildLimWith pureAlloc rt0.toPyRuntime locConfig () (treeOf nestedQuery) 11).toOption.isSome = true := by decide +kernel

end Fcsql
