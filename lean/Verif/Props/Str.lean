/-
C33: `str` of a query tree.
-/
import Verif.Proofs.StrShown
import Verif.Props.Tree

set_option autoImplicit false
set_option linter.unusedSimpArgs false

namespace Fcsql

attribute [local irreducible] parseQuery

/-! ### C33 -/

theorem isName_chars {i : PyStr} (h : IsName i) : ∀ c ∈ i, c ≠ 32 ∧ c ≠ 58 := by
  have k1 : ∀ c, isLetter c = true → c ≠ 32 ∧ c ≠ 58 := by
    intro c hc
    constructor
    · rintro rfl; revert hc; decide
    · rintro rfl; revert hc; decide
  have k2 : ∀ c, isAlnum c = true → c ≠ 32 ∧ c ≠ 58 := by
    intro c hc
    constructor
    · rintro rfl; revert hc; decide
    · rintro rfl; revert hc; decide
  intro c hc
  rcases h with ⟨d, rfl, hd⟩ | ⟨a, m, z, rfl, ha, hm, hz⟩
  · simp only [List.mem_singleton] at hc
    subst hc
    exact k1 _ hd
  · simp only [List.mem_cons, List.mem_append, List.not_mem_nil, or_false] at hc
    rcases hc with rfl | hc | rfl
    · exact k1 _ ha
    · rcases hm c hc with h | rfl
      · exact k2 _ h
      · exact ⟨by decide, by decide⟩
    · exact k2 _ hz

/-- A literal value that `str` shows verbatim: no double quote, newline, carriage return or tab. -/
def ShownVerbatim (v : PyStr) : Prop := ∀ c ∈ v, c ≠ 34 ∧ c ≠ 10 ∧ c ≠ 13 ∧ c ≠ 9

/-- What trees returned by parsers are like, as far as `str` is concerned. -/
structure StrCore (n : Node) : Prop where
  shape : ∀ m ∈ n.subnodes, ShapeAt m.kind (m.children.map Node.kind)
  names : ∀ m ∈ n.subnodes, ∀ ql i o v fl, m.kind = .expression ql i o v fl →
    (∀ s, ql = some s → s ≠ [] ∧ ∀ c ∈ s, c ≠ 32 ∧ c ≠ 58) ∧ (∀ c ∈ i, c ≠ 32 ∧ c ≠ 58) ∧
    (∀ fs, fl = some fs → fs.isEmpty = false)

theorem strOk_core {rt : Runtime} {cfg : Config} {q : PyStr} {n : Node} (h : (parseQuery rt cfg q).1 = .ok n)
    (hid : ∀ c ∈ cfg.defaultIdentifier, c ≠ 32 ∧ c ≠ 58) : StrCore n := by
  refine ⟨(C14_shape rt cfg q n h).inner, fun m hm ql i o v fl hk => ?_⟩
  obtain ⟨u, -, -, -, hf⟩ := C17_flags_as_written rt cfg q n h m hm ql i o v fl hk
  obtain ⟨u', -, -, -, hn⟩ := C23_names rt cfg q n h m hm ql i o v fl hk
  have hne : ∀ p : PyStr, IsName p → p ≠ [] := by
    rintro p hp rfl
    rcases hp with ⟨d, hd, -⟩ | ⟨a, m, z, hd, -⟩
    · cases hd
    · cases hd
  refine ⟨?_, ?_, ?_⟩
  · rintro s rfl
    rcases hn with ⟨h1, -⟩ | ⟨h1, -⟩ | ⟨p, h1, h2, -⟩
    · cases h1
    · cases h1
    · cases h1; exact ⟨hne _ h2, isName_chars h2⟩
  · rcases hn with ⟨-, rfl⟩ | ⟨-, h1, -⟩ | ⟨p, -, -, h1, -⟩
    · exact hid
    · exact isName_chars h1
    · exact isName_chars h1
  · rintro fs rfl
    rcases hf with ⟨h1, -⟩ | ⟨w, f, fs', h1, -, -, -, x, hx⟩
    · cases h1
    · cases h1
      cases he : fs.isEmpty with
      | false => rfl
      | true => rw [(FlagSet.isEmpty_iff fs).1 he x] at hx; cases hx

theorem strOk_of_parse {rt : Runtime} {cfg : Config} {q : PyStr} {n : Node} (h : (parseQuery rt cfg q).1 = .ok n)
    (hid : ∀ c ∈ cfg.defaultIdentifier, c ≠ 32 ∧ c ≠ 58)
    (hv : ∀ m ∈ n.subnodes, ∀ ql i o v fl, m.kind = .expression ql i o v fl → ShownVerbatim v) : StrOk n := by
  obtain ⟨h1, h2⟩ := strOk_core h hid
  refine ⟨h1, fun m hm ql i o v fl hk => ?_⟩
  obtain ⟨a, b, c⟩ := h2 m hm ql i o v fl hk
  exact ⟨a, b, hv m hm ql i o v fl hk, c⟩

theorem strOk_shown {n : Node} (h : StrCore n)
    (hv : ∀ m ∈ n.subnodes, ∀ ql i o v fl, m.kind = .expression ql i o v fl → ∀ c ∈ v, c ≠ 34) : StrOk n.shown := by
  refine ⟨shape_shown h.shape, fun m hm ql i o v fl hk => ?_⟩
  rw [subnodes_shown] at hm
  obtain ⟨⟨k, cs, l⟩, hd, rfl⟩ := List.mem_map.1 hm
  cases k <;> simp only [Node.shown, Kind.shown, Node.kind, Kind.expression.injEq, reduceCtorEq] at hk
  rename_i ql' i' o' v' fl'
  obtain ⟨rfl, rfl, rfl, rfl, rfl⟩ := hk
  obtain ⟨a, b, c⟩ := h.names _ hd _ _ _ _ _ rfl
  refine ⟨a, b, fun x hx => ?_, c⟩
  have h1 := translateWs_chars v' x hx
  refine ⟨fun e => ?_, h1.1⟩
  exact hv _ hd _ _ _ _ _ rfl x (h1.2 e) e

/-- **C33.** Two trees returned by parsers (possibly with different settings, of different queries) with the same
string are the same tree: classes, attributes, operands in order, occurrence bounds, flags and locations.
Partial: only if no literal value contains a double quote, newline, carriage return or tab (otherwise it is false, see
below), and the configured default identifiers contain neither space nor colon. -/
theorem C33_injective_partial (rt rt' : Runtime) (cfg cfg' : Config) (q q' : PyStr) (n n' : Node)
    (h : (parseQuery rt cfg q).1 = .ok n) (h' : (parseQuery rt' cfg' q').1 = .ok n')
    (hid : ∀ c ∈ cfg.defaultIdentifier, c ≠ 32 ∧ c ≠ 58) (hid' : ∀ c ∈ cfg'.defaultIdentifier, c ≠ 32 ∧ c ≠ 58)
    (hv : ∀ m ∈ n.subnodes, ∀ ql i o v fl, m.kind = .expression ql i o v fl → ShownVerbatim v)
    (hv' : ∀ m ∈ n'.subnodes, ∀ ql i o v fl, m.kind = .expression ql i o v fl → ShownVerbatim v)
    (hs : n.str = n'.str) : n = n' := by
  exact str_inj (strOk_of_parse h hid hv) (strOk_of_parse h' hid' hv') hs

/-- A literal value without double quotes. -/
def NoQuote (v : PyStr) : Prop := ∀ c ∈ v, c ≠ 34

/-- `v` with the newlines, carriage returns and tabs written as `\\n`, `\\r` and `\\t`. -/
inductive Escaped : PyStr → PyStr → Prop
  | nil : Escaped [] []
  | newline {v w} : Escaped v w → Escaped (10 :: v) (92 :: 110 :: w)
  | cr {v w} : Escaped v w → Escaped (13 :: v) (92 :: 114 :: w)
  | tab {v w} : Escaped v w → Escaped (9 :: v) (92 :: 116 :: w)
  | other {c v w} : c ≠ 10 → c ≠ 13 → c ≠ 9 → Escaped v w → Escaped (c :: v) (c :: w)

/-- The same class and attributes, but for the values of expressions, which are the same after escaping. -/
inductive SameShown : Kind → Kind → Prop
  | same (k : Kind) : SameShown k k
  | value {ql : Option PyStr} {i : PyStr} {o : Operator} {v v' w : PyStr} {fl : Option FlagSet} :
      Escaped v w → Escaped v' w → SameShown (.expression ql i o v fl) (.expression ql i o v' fl)

theorem escaped_iff (v : PyStr) : ∀ w, Escaped v w ↔ w = translateWs v := by
  induction v with
  | nil =>
    intro w
    constructor
    · intro h; cases h; rfl
    · rintro rfl; exact .nil
  | cons c v ih =>
    intro w
    have hc : translateWs (c :: v) = (if c = 10 then py!"\\n" else if c = 13 then py!"\\r" else if c = 9 then py!"\\t" else [c]) ++
        translateWs v := by simp [translateWs]
    constructor
    · intro h
      rw [hc]
      cases h with
      | newline h => rw [(ih _).1 h]; rfl
      | cr h => rw [(ih _).1 h]; rfl
      | tab h => rw [(ih _).1 h]; rfl
      | other h1 h2 h3 h => rw [(ih _).1 h, if_neg h1, if_neg h2, if_neg h3]; rfl
    · rintro rfl
      rw [hc]
      by_cases h1 : c = 10
      · subst h1; exact .newline ((ih _).2 rfl)
      by_cases h2 : c = 13
      · subst h2; exact .cr ((ih _).2 rfl)
      by_cases h3 : c = 9
      · subst h3; exact .tab ((ih _).2 rfl)
      rw [if_neg h1, if_neg h2, if_neg h3]
      exact .other h1 h2 h3 ((ih _).2 rfl)

theorem sameShown_iff (k k' : Kind) : SameShown k k' ↔ k.shown = k'.shown := by
  constructor
  · intro h
    cases h with
    | same => rfl
    | value h1 h2 => rw [Kind.shown, Kind.shown, ← (escaped_iff _ _).1 h1, ← (escaped_iff _ _).1 h2]
  · intro h
    cases k <;> cases k' <;> simp only [Kind.shown, Kind.expression.injEq, Kind.segment.injEq, Kind.qgroup.injEq,
      Kind.within.injEq, reduceCtorEq] at h
    case expression.expression =>
      obtain ⟨rfl, rfl, rfl, h, rfl⟩ := h
      exact .value ((escaped_iff _ _).2 rfl) ((escaped_iff _ _).2 h)
    all_goals first | exact .same _ | (obtain ⟨rfl, rfl⟩ := h; exact .same _) | (subst h; exact .same _)

/-- **C33.** For trees of which no literal value contains a double quote, `str` is the same exactly if the trees are the
same (classes, attributes, operands in order, occurrence bounds, flags and locations) up to writing newlines, carriage
returns and tabs in values as escapes.
Partial: not for values with double quotes (see `C33_quote_refuted`), nor default identifiers with a space or colon. -/
theorem C33_exact_partial (rt rt' : Runtime) (cfg cfg' : Config) (q q' : PyStr) (n n' : Node)
    (h : (parseQuery rt cfg q).1 = .ok n) (h' : (parseQuery rt' cfg' q').1 = .ok n')
    (hid : ∀ c ∈ cfg.defaultIdentifier, c ≠ 32 ∧ c ≠ 58) (hid' : ∀ c ∈ cfg'.defaultIdentifier, c ≠ 32 ∧ c ≠ 58)
    (hv : ∀ m ∈ n.subnodes, ∀ ql i o v fl, m.kind = .expression ql i o v fl → NoQuote v)
    (hv' : ∀ m ∈ n'.subnodes, ∀ ql i o v fl, m.kind = .expression ql i o v fl → NoQuote v) :
    n.str = n'.str ↔ NodeRel SameShown Eq n n' := by
  have e : (SameShown : Kind → Kind → Prop) = fun k k' => k.shown = k'.shown := by
    funext k k'; exact propext (sameShown_iff k k')
  rw [e, ← shown_eq_iff]
  constructor
  · intro hs
    rw [← str_of_shown n, ← str_of_shown n'] at hs
    exact str_inj (strOk_shown (strOk_core h hid) hv) (strOk_shown (strOk_core h' hid') hv') hs
  · intro hs
    rw [← str_of_shown n, ← str_of_shown n', hs]

-- two different queries: a newline, and a backslash and an `n`
example : (parseQuery rt0 defaultConfig py!"'a\\n' 'b'").1 = .ok (.mk .sequence [
      .mk (.segment 1 1) [.mk (.expression none py!"text" .EQUALS [97, 10] none) [] none] none,
      .mk (.segment 1 1) [.mk (.expression none py!"text" .EQUALS py!"b" none) [] none] none] none) ∧
    (parseQuery rt0 defaultConfig py!"'a\\\\n' 'b'").1 = .ok (.mk .sequence [
      .mk (.segment 1 1) [.mk (.expression none py!"text" .EQUALS [97, 92, 110] none) [] none] none,
      .mk (.segment 1 1) [.mk (.expression none py!"text" .EQUALS py!"b" none) [] none] none] none) ∧
    Escaped [97, 10] [97, 92, 110] ∧ Escaped [97, 92, 110] [97, 92, 110] :=
  ⟨by decide +kernel, by decide +kernel, .other (by decide) (by decide) (by decide) (.newline .nil),
    .other (by decide) (by decide) (by decide) (.other (by decide) (by decide) (by decide)
      (.other (by decide) (by decide) (by decide) .nil))⟩

/-- For the examples: an `Expression` node. -/
def exprNode (i v : PyStr) (fl : Option FlagSet := none) : Node := .mk (.expression none i .EQUALS v fl) [] none

/-- For the examples: a tree. -/
def strExample : Node :=
  .mk .withWithin [.mk .disjunction [
      .mk (.segment 2 2) [.mk .and [.mk .group [.mk .or [exprNode py!"a" py!"1" (some ⟨true, false, false, true⟩),
        .mk .not [exprNode py!"b" py!"2"] none] none] none, exprNode py!"c" py!"3"] none] none,
      .mk .sequence [.mk (.qgroup 0 (-1)) [.mk .sequence [.mk (.segment 1 1) [.mk .wildcard [] none] none,
        .mk (.segment 1 1) [exprNode py!"text" py!"x"] none] none] none] none] none,
    .mk (.within .SENTENCE) [] none] none

-- the hypotheses hold of a query with every class of node
example : (parseQuery rt0 defaultConfig py!"[(a='1'/cd | !b='2') & c='3']{2} | ([] 'x')* within s").1 = .ok strExample ∧
    (∀ c ∈ defaultConfig.defaultIdentifier, c ≠ 32 ∧ c ≠ 58) ∧
    (∀ m ∈ strExample.subnodes, match m.kind with
      | .expression _ _ _ v _ => ∀ c ∈ v, c ≠ 34 ∧ c ≠ 10 ∧ c ≠ 13 ∧ c ≠ 9
      | _ => True) ∧
    strExample.str = py!"(QueryWithWithin (QueryDisjunction (QuerySegment @min=2 @max=2 (And (Group (Or " ++
      py!"(Expression a Eq \"1\"/id) (Not (Expression b Eq \"2\")))) (Expression c Eq \"3\"))) (QuerySequence " ++
      py!"(QuerySegment @min=0 @max=* (QuerySequence (QuerySegment (Wildcard)) (QuerySegment (Expression text Eq \"x\")))))) " ++
      py!"(SimpleWithin Sentence))" := by
  refine ⟨by decide +kernel, by decide, ?_, by decide +kernel⟩
  simp [strExample, Node.subnodes, Node.subnodesL, Node.kind, exprNode]

/-- **C33, false without the restriction on quotes.** A double quote in a literal is not escaped by `str`: two
conditions on layers and three of them, same string. -/
theorem C33_quote_refuted : ∃ q q' n n', (parseQuery rt0 defaultConfig q).1 = .ok n ∧
    (parseQuery rt0 defaultConfig q').1 = .ok n' ∧ n.str = n'.str ∧ n ≠ n' :=
  ⟨py!"[a='x\") (Expression b Eq \"y' & c='z']", py!"[a='x' & b='y' & c='z']",
    .mk (.segment 1 1) [.mk .and [exprNode py!"a" py!"x\") (Expression b Eq \"y", exprNode py!"c" py!"z"] none] none,
    .mk (.segment 1 1) [.mk .and [exprNode py!"a" py!"x", exprNode py!"b" py!"y", exprNode py!"c" py!"z"] none] none,
    by decide +kernel⟩

/-- **C33, false without the restriction on newlines.** `str` shows a newline as a backslash and `n`, and so a backslash
followed by `n` as well. -/
theorem C33_newline_refuted : ∃ q q' n n', (parseQuery rt0 defaultConfig q).1 = .ok n ∧
    (parseQuery rt0 defaultConfig q').1 = .ok n' ∧ n.str = n'.str ∧ n ≠ n' :=
  ⟨py!"'\\n'", py!"'\\\\n'", .mk (.segment 1 1) [exprNode py!"text" [10]] none,
    .mk (.segment 1 1) [exprNode py!"text" py!"\\n"] none, by decide +kernel⟩

/-- **C33.** The flags of an `Expression` with flags are shown after a slash, each one of the flags the expression has
once, in the order `iIld`. -/
theorem C33_flags_shown (ql : Option PyStr) (i : PyStr) (o : Operator) (v : PyStr) (fs : FlagSet) (l : Option Loc)
    (hne : ∃ f, fs.has f = true) :
    ∃ pre, (Node.mk (.expression ql i o v (some fs)) [] l).str = pre ++ py!"\"/" ++
      ([(105, RegexFlag.CASE_INSENSITIVE), (73, .CASE_SENSITIVE), (108, .LITERAL_MATCHING), (100, .IGNORE_DIACRITICS)].filterMap
        fun p => if fs.has p.2 then some p.1 else none) ++ py!")" ++ locSuffix l := by
  have he : fs.isEmpty = false := by
    cases he : fs.isEmpty with
    | false => rfl
    | true => obtain ⟨f, hf⟩ := hne; rw [(FlagSet.isEmpty_iff fs).1 he f] at hf; cases hf
  refine ⟨py!"(Expression " ++ (match ql with | some q => if q.isEmpty then [] else q ++ py!":" | none => []) ++
          i ++ py!" " ++ o.value ++ py!" \"" ++ translateWs v, ?_⟩
  obtain ⟨a, b, c, d⟩ := fs
  simp only [Node.str, flagsStr, he]
  cases a <;> cases b <;> cases c <;> cases d <;> simp [Kind.nodeType, NodeType.value, FlagSet.has] <;> rfl

example : (Node.mk (.expression none py!"a" .EQUALS py!"b" (some ⟨true, false, false, true⟩)) [] (some ⟨0, 3⟩)).str =
    py!"(Expression a Eq \"b\"/id)@0:3" := by decide +kernel

end Fcsql
