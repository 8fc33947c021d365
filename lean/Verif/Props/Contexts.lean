/-
C63-C65: the parse trees of `antlr_parse` through context accessors, listeners and visitors.
-/
import Verif.Proofs.Contexts
import Verif.Props.Grammar

set_option autoImplicit false
set_option linter.unusedSimpArgs false

namespace Fcsql

/-! ### C63 -/

/-- **C63.** The accessors of a context class are named after what they return, and no two return the same kind. -/
theorem C63_names (r : Rule) : (∀ a ∈ (ctxClass r).accessors, a.name = a.sym.text) ∧
    ((ctxClass r).accessors.map Accessor.sym).Nodup := by
  cases r <;> decide

/-- **C63.** `ctx.X(i)` is the `i`-th element of `ctx.X()` for every list of children, `None` if there is none (also
for negative `i`). -/
theorem C63_index (a : Accessor) (i : Int) (ks : List PTree) :
    a.get i ks = if 0 ≤ i then (a.getAll ks)[i.toNat]? else none := nthSelected_eq a.sym ks i

theorem accessor_covers (r : Rule) :
    (body r).hi (fun s => !((ctxClass r).accessors.map Accessor.sym).contains s) = some 0 := by
  cases r <;> decide

theorem accessor_single (r : Rule) : ∀ a ∈ (ctxClass r).accessors, a.many = false →
    ∃ n, (body r).hi (fun s => s = a.sym) = some n ∧ n ≤ 1 := by
  have : ∀ a ∈ (ctxClass r).accessors, a.many = false →
      (body r).hi (fun s => s = a.sym) = some 0 ∨ (body r).hi (fun s => s = a.sym) = some 1 := by
    cases r <;> decide
  intro a ha hm
  rcases this a ha hm with h | h
  · exact ⟨0, h, by omega⟩
  · exact ⟨1, h, by omega⟩

/-- **C63.** Nothing is out of reach: in the tree of any query `antlr_parse` accepts, every child of every context is
returned by an accessor of its context class - among the list if it is one that returns lists, as the result if it is
one that returns a single child. -/
theorem C63_every_child (q : PyStr) (t : PTree) (h : antlrParse q = .ok t) (r : Rule) (ks : List PTree)
    (hm : PTree.node r ks ∈ t.nodes) (c : PTree) (hc : c ∈ ks) :
    ∃ a ∈ (ctxClass r).accessors, c ∈ a.getAll ks ∧ (a.many = false → a.get 0 ks = some c ∧ a.getAll ks = [c]) := by
  have hf := fits_node_of_tree (C09_derivation_tree q t h).1 hm
  have h0 := fits_hi _ hf 0 (accessor_covers r)
  have h1 : ¬ (!((ctxClass r).accessors.map Accessor.sym).contains c.sym) = true := by
    intro hp
    have : 0 < countSym (fun s => !((ctxClass r).accessors.map Accessor.sym).contains s) ks :=
      List.countP_pos_iff.2 ⟨c, hc, hp⟩
    omega
  simp only [Bool.not_eq_true', Bool.not_eq_false, List.contains_iff_mem] at h1
  obtain ⟨a, ha, e⟩ := List.mem_map.1 h1
  have hsel : a.sym.selects c = true := (selects_iff _ _).2 e.symm
  have hg : c ∈ a.getAll ks := List.mem_filter.2 ⟨hc, hsel⟩
  refine ⟨a, ha, hg, fun hmany => ?_⟩
  obtain ⟨n, hn, hle⟩ := accessor_single r a ha hmany
  have hlen : (a.getAll ks).length ≤ 1 := by
    have := fits_hi _ hf n hn
    rw [← filter_selects] at this
    exact Nat.le_trans this hle
  have hl : a.getAll ks = [c] := by
    cases hx : a.getAll ks with
    | nil => rw [hx] at hg; cases hg
    | cons y ys =>
      rw [hx] at hlen hg
      cases ys with
      | nil => simp only [List.mem_singleton] at hg; rw [hg]
      | cons z zs => simp at hlen
  exact ⟨by rw [C63_index]; simp [hl], hl⟩

/-- How many children of a kind the contexts of a rule have, at least and at most. -/
def childBounds : Rule → List (PyStr × Nat × Option Nat)
  | .query => [(py!"main_query", 1, some 1), (py!"EOF", 1, some 1), (py!"WITHIN", 0, some 1), (py!"within_part", 0, some 1)]
  | .main_query => [(py!"query_simple", 0, some 1), (py!"query_group", 0, some 1), (py!"query_sequence", 0, some 1),
      (py!"query_disjunction", 0, some 1)]
  | .query_disjunction => [(py!"query_simple", 0, none), (py!"query_sequence", 0, none), (py!"query_group", 0, none),
      (py!"OR", 1, none)]
  | .query_sequence => [(py!"query_simple", 0, none), (py!"query_group", 0, none)]
  | .query_group => [(py!"L_PAREN", 1, some 1), (py!"R_PAREN", 1, some 1), (py!"query_disjunction", 0, some 1),
      (py!"query_sequence", 0, some 1), (py!"quantifier", 0, some 1)]
  | .query_simple => [(py!"query_implicit", 0, some 1), (py!"query_segment", 0, some 1), (py!"quantifier", 0, some 1)]
  | .quantifier => [(py!"Q_ONE_OR_MORE", 0, some 1), (py!"Q_ZERO_OR_MORE", 0, some 1), (py!"Q_ZERO_OR_ONE", 0, some 1),
      (py!"L_CURLY_BRACKET", 0, some 1), (py!"R_CURLY_BRACKET", 0, some 1), (py!"INTEGER", 0, some 2),
      (py!"Q_COMMA", 0, some 1)]
  | .query_implicit => [(py!"regexp", 1, some 1)]
  | .query_segment => [(py!"L_SQUARE_BRACKET", 1, some 1), (py!"R_SQUARE_BRACKET", 1, some 1), (py!"expression", 0, some 1)]
  | .within_part => [(py!"within_part_simple", 1, some 1)]
  | .within_part_simple => [(py!"SIMPLE_WITHIN_SCOPE", 1, some 1)]
  | .expression => [(py!"expression_basic", 0, some 1), (py!"expression_group", 0, some 1), (py!"expression_or", 0, some 1),
      (py!"expression_and", 0, some 1), (py!"expression_not", 0, some 1)]
  | .expression_or => [(py!"expression_basic", 0, none), (py!"expression_group", 0, none), (py!"expression_and", 0, none),
      (py!"expression_not", 0, none), (py!"OR", 1, none)]
  | .expression_and => [(py!"expression_basic", 0, none), (py!"expression_group", 0, none), (py!"expression_not", 0, none),
      (py!"AND", 1, none), (py!"expression_or", 0, none)]
  | .expression_group => [(py!"L_PAREN", 1, some 1), (py!"R_PAREN", 1, some 1), (py!"expression_basic", 0, some 1),
      (py!"expression_group", 0, some 1), (py!"expression_or", 0, some 1), (py!"expression_and", 0, some 1),
      (py!"expression_not", 0, some 1)]
  | .expression_not => [(py!"NOT", 1, some 1), (py!"expression_basic", 0, some 1), (py!"expression_group", 0, some 1),
      (py!"expression_not", 0, some 1), (py!"expression_or", 0, some 1), (py!"expression_and", 0, some 1)]
  | .expression_basic => [(py!"attribute", 1, some 1), (py!"regexp", 1, some 1), (py!"OPERATOR_EQ", 0, some 1),
      (py!"OPERATOR_NE", 0, some 1)]
  | .attribute_ => [(py!"identifier", 1, some 1), (py!"qualifier", 0, some 1), (py!"COLON", 0, some 1)]
  | .qualifier => [(py!"IDENTIFIER", 0, some 1), (py!"WITHIN", 0, some 1), (py!"SIMPLE_WITHIN_SCOPE", 0, some 1),
      (py!"REGEXP_FLAGS", 0, some 1)]
  | .identifier => [(py!"IDENTIFIER", 0, some 1), (py!"WITHIN", 0, some 1), (py!"SIMPLE_WITHIN_SCOPE", 0, some 1),
      (py!"REGEXP_FLAGS", 0, some 1)]
  | .regexp => [(py!"regexp_pattern", 1, some 1), (py!"FWD_SLASH", 0, some 1), (py!"regexp_flag", 0, some 1)]
  | .regexp_pattern => [(py!"REGEXP", 1, some 1)]
  | .regexp_flag => [(py!"REGEXP_FLAGS", 1, some 1)]

theorem childBounds_ok (r : Rule) : (ctxClass r).accessors.map (fun a =>
    (a.name, (body r).lo (fun s => s = a.sym), (body r).hi (fun s => s = a.sym))) = childBounds r := by
  cases r <;> decide

/-- **C63.** How many children an accessor finds in the tree of an accepted query: never fewer and never more than the
table says; in particular a `1` as lower bound means that the accessor never returns `None` or an empty list. -/
theorem C63_bounds (q : PyStr) (t : PTree) (h : antlrParse q = .ok t) (r : Rule) (ks : List PTree)
    (hm : PTree.node r ks ∈ t.nodes) (a : Accessor) (ha : a ∈ (ctxClass r).accessors) :
    ∃ lo hi, (a.name, lo, hi) ∈ childBounds r ∧ lo ≤ (a.getAll ks).length ∧ ∀ n, hi = some n → (a.getAll ks).length ≤ n := by
  have hf := fits_node_of_tree (C09_derivation_tree q t h).1 hm
  refine ⟨(body r).lo (fun s => s = a.sym), (body r).hi (fun s => s = a.sym), ?_, ?_, ?_⟩
  · rw [← childBounds_ok r]
    exact List.mem_map.2 ⟨a, ha, rfl⟩
  · have := fits_lo (fun s => decide (s = a.sym)) hf
    rwa [← filter_selects] at this
  · intro n hn
    have := fits_hi (fun s => decide (s = a.sym)) hf n hn
    rwa [← filter_selects] at this

/-- **C63.** Contexts of these rules have exactly one child, whichever it is. -/
theorem C63_one_child (q : PyStr) (t : PTree) (h : antlrParse q = .ok t) (r : Rule) (ks : List PTree)
    (hm : PTree.node r ks ∈ t.nodes)
    (hr : r ∈ [Rule.main_query, .query_implicit, .within_part, .within_part_simple, .expression, .qualifier, .identifier,
      .regexp_pattern, .regexp_flag]) : ∃ c, ks = [c] := by
  have hf := fits_node_of_tree (C09_derivation_tree q t h).1 hm
  have h1 : (body r).lo (fun _ => true) = 1 ∧ (body r).hi (fun _ => true) = some 1 := by
    revert hr
    cases r <;> decide
  have h2 := fits_lo (fun _ => true) hf
  have h3 := fits_hi (fun _ => true) hf 1 h1.2
  rw [h1.1] at h2
  simp only [countSym, List.countP_true] at h2 h3
  match ks, h2, h3 with
  | [c], _, _ => exact ⟨c, rfl⟩
  | [], h2, _ => simp at h2
  | _ :: _ :: _, _, h3 => simp at h3

/-- For the examples: the tree of a query. -/
def treeOf (q : PyStr) : PTree :=
  match parseTokens (tokenStream q) with
  | some t => t
  | none => .node .query []

theorem treeOf_ok {q : PyStr} (h : (parseTokens (tokenStream q)).isSome = true) : antlrParse q = .ok (treeOf q) := by
  rw [antlrParse_ok, treeOf]
  cases hp : parseTokens (tokenStream q) with
  | none => rw [hp] at h; cases h
  | some t => rfl

-- a query with most rules; the root has a `within_part`
example : antlrParse py!"([a:b='c'/i & d!='e'] | 'x'{1,2}) within s" =
      .ok (treeOf py!"([a:b='c'/i & d!='e'] | 'x'{1,2}) within s") ∧
    (treeOf py!"([a:b='c'/i & d!='e'] | 'x'{1,2}) within s").nodes.length = 52 := by
  refine ⟨treeOf_ok (by decide +kernel), by decide +kernel⟩

/-! ### C64 -/

/-- **C64.** The names of the listener methods: `enter` and `exit` with the capitalized rule name; `FCSParserListener`
defines exactly these. -/
theorem C64_names : (∀ r, (ctxClass r).enter = py!"enter" ++ capitalized r.text ∧
      (ctxClass r).exit = py!"exit" ++ capitalized r.text) ∧
    (∀ m, m ∈ listenerMethods ↔ ∃ r : Rule, m = py!"enter" ++ capitalized r.text ∨ m = py!"exit" ++ capitalized r.text) := by
  refine ⟨fun r => by cases r <;> decide, fun m => ⟨?_, ?_⟩⟩
  · have : ∀ m ∈ listenerMethods, ∃ r ∈ [Rule.query, .main_query, .query_disjunction, .query_sequence, .query_group,
        .query_simple, .quantifier, .query_implicit, .query_segment, .within_part, .within_part_simple, .expression,
        .expression_or, .expression_and, .expression_group, .expression_not, .expression_basic, .attribute_, .qualifier,
        .identifier, .regexp, .regexp_pattern, .regexp_flag],
        m = py!"enter" ++ capitalized r.text ∨ m = py!"exit" ++ capitalized r.text := by decide +kernel
    intro hm
    obtain ⟨r, -, h⟩ := this m hm
    exact ⟨r, h⟩
  · rintro ⟨r, rfl | rfl⟩ <;> cases r <;> decide

/-- **C64.** Walking a tree with a listener (with any state, any methods, possibly raising): every context is entered
and left, children in between, left to right; `enterEveryRule` before and `exitEveryRule` after the rule's own methods;
the first exception ends the walk. -/
theorem C64_walk {σ ε : Type} (l : Listener σ ε) (t : PTree) (s : σ) :
    walkTree ctxClass l t s = callAll l t.events s := walk_events l C64_names.1 t s

/-- The tokens a listener is shown. -/
def terminals : List Event → List Tok
  | [] => []
  | .terminal x :: es => x :: terminals es
  | _ :: es => terminals es

theorem terminals_append (a b : List Event) : terminals (a ++ b) = terminals a ++ terminals b := by
  induction a with
  | nil => rfl
  | cons e a ih => cases e <;> simp [terminals, ih]

theorem terminals_events (t : PTree) : terminals t.events = t.leaves := by
  apply PTree.rec (motive_1 := fun t => terminals t.events = t.leaves)
    (motive_2 := fun ts => terminals (PTree.eventsL ts) = PTree.leavesL ts)
  · intro x; rfl
  · intro r ks ih
    simp [PTree.events, terminals, terminals_append, ih, PTree.leaves]
  · rfl
  · intro c cs ih1 ih2
    rw [PTree.eventsL, terminals_append, ih1, ih2, PTree.leavesL]

/-- **C64.** A listener is shown exactly the tokens of the query, in order, and `EOF` at the end. -/
theorem C64_tokens (q : PyStr) (t : PTree) (h : antlrParse q = .ok t) :
    terminals t.events = lexTokens q ++ [eofTok q] := by
  rw [terminals_events]
  exact (C09_derivation_tree q t h).2

/-- What a listener learns without looking into contexts: rules entered and left, and tokens. -/
inductive BareEvent
  | enter (r : Rule)
  | terminal (x : Tok)
  | exit (r : Rule)

/-- The bare events (the `every` ones add nothing). -/
def bareEvents : List Event → List BareEvent
  | [] => []
  | .enter r _ :: es => .enter r :: bareEvents es
  | .exit r _ :: es => .exit r :: bareEvents es
  | .terminal x :: es => .terminal x :: bareEvents es
  | _ :: es => bareEvents es

theorem bareEvents_append (a b : List Event) : bareEvents (a ++ b) = bareEvents a ++ bareEvents b := by
  induction a with
  | nil => rfl
  | cons e a ih => cases e <;> simp [bareEvents, ih]

theorem bareEvents_inj (t : PTree) : ∀ (t' : PTree) (a b : List BareEvent),
    bareEvents t.events ++ a = bareEvents t'.events ++ b → t = t' ∧ a = b := by
  apply PTree.rec (motive_1 := fun t => ∀ (t' : PTree) (a b : List BareEvent),
      bareEvents t.events ++ a = bareEvents t'.events ++ b → t = t' ∧ a = b)
    (motive_2 := fun ts => ∀ (ts' : List PTree) (r r' : Rule) (a b : List BareEvent),
      bareEvents (PTree.eventsL ts) ++ .exit r :: a = bareEvents (PTree.eventsL ts') ++ .exit r' :: b →
      ts = ts' ∧ r = r' ∧ a = b)
  · intro x t' a b h
    cases t' with
    | leaf y => simp [PTree.events, bareEvents] at h; simp [h]
    | node r ks => simp [PTree.events, bareEvents] at h
  · intro r ks ih t' a b h
    cases t' with
    | leaf y => simp [PTree.events, bareEvents] at h
    | node r' ks' =>
      simp [PTree.events, bareEvents, bareEvents_append] at h
      obtain ⟨rfl, h⟩ := h
      obtain ⟨rfl, -, rfl⟩ := ih _ _ _ _ _ h
      exact ⟨rfl, rfl⟩
  · intro ts' r r' a b h
    cases ts' with
    | nil => simp [PTree.eventsL, bareEvents] at h; simp [h]
    | cons c' cs' => cases c' <;> simp [PTree.eventsL, PTree.events, bareEvents, bareEvents_append] at h
  · intro c cs ih1 ih2 ts' r r' a b h
    cases ts' with
    | nil => cases c <;> simp [PTree.eventsL, PTree.events, bareEvents, bareEvents_append] at h
    | cons c' cs' =>
      rw [PTree.eventsL, PTree.eventsL, bareEvents_append, bareEvents_append, List.append_assoc, List.append_assoc] at h
      obtain ⟨rfl, h2⟩ := ih1 _ _ _ h
      obtain ⟨rfl, rfl, rfl⟩ := ih2 _ _ _ _ _ h2
      exact ⟨rfl, rfl, rfl⟩

/-- **C64.** The rules entered and left and the tokens determine the tree. -/
theorem C64_faithful (t t' : PTree) (h : bareEvents t.events = bareEvents t'.events) : t = t' :=
  (bareEvents_inj t t' [] [] (by simpa using h)).1

-- 52 nodes, 25 of them tokens: 25 + 4 * 27 events
example : (treeOf py!"([a:b='c'/i & d!='e'] | 'x'{1,2}) within s").events.length = 133 ∧
    (walkTree (σ := List PyStr) (ε := Unit) ctxClass
      { method := fun name => if name = py!"enterRegexp_pattern" then some fun ctx s =>
          (.ok (), s ++ ctx.leaves.map Tok.text) else none }
      (treeOf py!"([a:b='c'/i & d!='e'] | 'x'{1,2}) within s") []).2 = [py!"'c'", py!"'e'", py!"'x'"] := by
  decide +kernel

/-! ### C65 -/

/-- **C65.** The names of the visitor methods: `visit` with the capitalized rule name; `FCSParserVisitor` defines exactly
these, and every `visit*` method of `ExpressionTreeBuilder` is one of them (so it is called, and overrides). -/
theorem C65_names : (∀ r, (ctxClass r).accept = py!"visit" ++ capitalized r.text) ∧
    (∀ m, m ∈ visitorMethods ↔ ∃ r : Rule, m = py!"visit" ++ capitalized r.text) ∧
    (∀ m ∈ builderMethods, m ∈ visitorMethods) := by
  refine ⟨fun r => by cases r <;> decide, fun m => ⟨?_, ?_⟩, by decide +kernel⟩
  · have : ∀ m ∈ visitorMethods, ∃ r ∈ [Rule.query, .main_query, .query_disjunction, .query_sequence, .query_group,
        .query_simple, .quantifier, .query_implicit, .query_segment, .within_part, .within_part_simple, .expression,
        .expression_or, .expression_and, .expression_group, .expression_not, .expression_basic, .attribute_, .qualifier,
        .identifier, .regexp, .regexp_pattern, .regexp_flag], m = py!"visit" ++ capitalized r.text := by decide +kernel
    intro hm
    obtain ⟨r, -, h⟩ := this m hm
    exact ⟨r, h⟩
  · rintro ⟨r, rfl⟩
    cases r <;> decide

/-- Doing work at the nodes of a list one after the other, stopping at the first exception. -/
def runAt {σ ε : Type} (work : PTree → σ → Except ε Unit × σ) : List PTree → σ → Except ε Unit × σ
  | [], s => (.ok (), s)
  | n :: ns, s =>
    match work n s with
    | (.ok _, s) => runAt work ns s
    | (.error e, s) => (.error e, s)

theorem runAt_append {σ ε : Type} (work : PTree → σ → Except ε Unit × σ) (a b : List PTree) (s : σ) :
    runAt work (a ++ b) s = match runAt work a s with
      | (.ok _, s) => runAt work b s
      | (.error e, s) => (.error e, s) := by
  induction a generalizing s with
  | nil => rfl
  | cons x a ih =>
    simp only [List.cons_append, runAt]
    rcases work x s with ⟨r, s'⟩
    cases r with
    | error e => rfl
    | ok _ => exact ih s'

/-- A visitor whose overridden methods (the names in `overridden`; `visitTerminal` if `tokens`) do their work and go on
with `visitChildren`; of the other methods, it has those in `rest` as `FCSParserVisitor` defines them (just
`visitChildren`). -/
def ctxWorker {R σ ε : Type} (overridden : PyStr → Bool) (tokens : Bool) (rest : PyStr → Bool)
    (work : PTree → σ → Except ε Unit × σ) : CtxVisitor R σ ε :=
  let base : CtxVisitor R σ ε := { method := fun _ => none }
  { method := fun name =>
      if overridden name then some fun ctx as s =>
        match work ctx s with
        | (.ok _, s) => base.visitChildren ctx as s
        | (.error e, s) => (.error e, s)
      else if rest name then some fun ctx as => base.visitChildren ctx as
      else none
    visitTerminal := fun x s =>
      if tokens then
        match work (.leaf x) s with
        | (.ok _, s) => (.ok none, s)
        | (.error e, s) => (.error e, s)
      else (.ok none, s) }

/-- The nodes such a visitor works at. -/
def worksAt (overridden : PyStr → Bool) (tokens : Bool) : PTree → Bool
  | .leaf _ => tokens
  | .node r _ => overridden (py!"visit" ++ capitalized r.text)

/-- The value a visitor returns that way. -/
def ctxNone {R σ ε : Type} : Except ε Unit × σ → Except ε (Option R) × σ
  | (.ok _, s) => (.ok none, s)
  | (.error e, s) => (.error e, s)

/-- **C65.** Such a visitor works at exactly the nodes it has methods for, once each, parents before children and
children left to right, and returns `None`; an exception stops it. Whether it inherits the methods of `FCSParserVisitor`
or not makes no difference. -/
theorem C65_preorder {R σ ε : Type} (overridden : PyStr → Bool) (tokens : Bool) (rest : PyStr → Bool)
    (work : PTree → σ → Except ε Unit × σ) (t : PTree) (s : σ) :
    acceptCtx ctxClass (ctxWorker (R := R) overridden tokens rest work) t s =
      ctxNone (runAt work (t.nodes.filter (worksAt overridden tokens)) s) := by
  revert s
  apply PTree.rec (motive_1 := fun t => ∀ s, acceptCtx ctxClass (ctxWorker (R := R) overridden tokens rest work) t s =
      ctxNone (runAt work (t.nodes.filter (worksAt overridden tokens)) s))
    (motive_2 := fun ts => ∀ (ctx : PTree) (s : σ),
      CtxVisitor.loop ({ method := fun _ => none } : CtxVisitor R σ ε) ctx none
        (acceptCtxs ctxClass (ctxWorker (R := R) overridden tokens rest work) ts) s =
      ctxNone (runAt work ((PTree.nodesL ts).filter (worksAt overridden tokens)) s))
  · intro x s
    rw [acceptCtx, PTree.nodes]
    cases tokens with
    | false => simp [ctxWorker, worksAt, runAt, ctxNone]
    | true =>
      simp only [ctxWorker, worksAt, if_true, List.filter_cons, List.filter_nil, runAt]
      rcases work (.leaf x) s with ⟨r, s'⟩
      cases r <;> rfl
  · intro r ks ih s
    rw [acceptCtx, PTree.nodes, C65_names.1]
    by_cases ho : overridden (py!"visit" ++ capitalized r.text) = true
    · rw [List.filter_cons_of_pos (by simpa [worksAt] using ho)]
      simp only [ctxWorker, ho, if_true, runAt]
      rcases work (.node r ks) s with ⟨x, s'⟩
      cases x with
      | error e => rfl
      | ok _ => exact ih (.node r ks) s'
    · rw [List.filter_cons_of_neg (by simpa [worksAt] using ho)]
      by_cases hr : rest (py!"visit" ++ capitalized r.text) = true
      · simp only [ctxWorker, ho, hr, if_true, if_false, Bool.false_eq_true]
        exact ih (.node r ks) s
      · simp only [ctxWorker, ho, hr, if_false, Bool.false_eq_true]
        have e : ∀ (as : List (CAct R σ ε)) (ctx : PTree) (r : Option R) (s : σ),
            CtxVisitor.loop (ctxWorker (R := R) overridden tokens rest work) ctx r as s =
            CtxVisitor.loop ({ method := fun _ => none } : CtxVisitor R σ ε) ctx r as s := by
          intro as
          induction as with
          | nil => intro ctx r s; rfl
          | cons a as iha =>
            intro ctx r s
            rw [CtxVisitor.loop, CtxVisitor.loop]
            simp only [ctxWorker, if_true]
            rcases a s with ⟨x, s'⟩
            cases x with
            | error e => rfl
            | ok x =>
              simp only
              have := iha ctx x s'
              simp only [ctxWorker] at this
              exact this
        exact (e _ _ _ _).trans (ih (.node r ks) s)
  · intro ctx s; rfl
  · intro c cs ih1 ih2 ctx s
    rw [acceptCtxs, CtxVisitor.loop, PTree.nodesL, List.filter_append, runAt_append]
    simp only [if_true, ih1]
    rcases runAt work (c.nodes.filter (worksAt overridden tokens)) s with ⟨x, s'⟩
    cases x with
    | error e => rfl
    | ok _ => exact ih2 ctx s'

theorem nodes_leaves (t : PTree) : (t.nodes.filter (worksAt (fun _ => false) true)).flatMap PTree.leaves = t.leaves := by
  apply PTree.rec (motive_1 := fun t => (t.nodes.filter (worksAt (fun _ => false) true)).flatMap PTree.leaves = t.leaves)
    (motive_2 := fun ts => ((PTree.nodesL ts).filter (worksAt (fun _ => false) true)).flatMap PTree.leaves = PTree.leavesL ts)
  · intro x; rfl
  · intro r ks ih
    rw [PTree.nodes, List.filter_cons_of_neg (by simp [worksAt]), ih, PTree.leaves]
  · rfl
  · intro c cs ih1 ih2
    rw [PTree.nodesL, List.filter_append, List.flatMap_append, ih1, ih2, PTree.leavesL]

/-- **C65.** A subclass of `FCSParserVisitor` that overrides only `visitTerminal`, to collect tokens, collects the tokens
of the query in order and `EOF`. -/
theorem C65_tokens (q : PyStr) (t : PTree) (h : antlrParse q = .ok t) (R ε : Type) (seen : List Tok) :
    acceptCtx ctxClass (ctxWorker (R := R) (ε := ε) (fun _ => false) true (fun name => visitorMethods.contains name)
      fun x s => (.ok (), s ++ x.leaves)) t seen = (.ok none, seen ++ lexTokens q ++ [eofTok q]) := by
  have e : ∀ (l : List PTree) (seen : List Tok), runAt (ε := ε) (fun x s => (.ok (), s ++ x.leaves)) l seen =
      (.ok (), seen ++ l.flatMap PTree.leaves) := by
    intro l
    induction l with
    | nil => intro s; simp [runAt]
    | cons x l ih => intro s; simp [runAt, ih]
  rw [C65_preorder, e, nodes_leaves, (C09_derivation_tree q t h).2]
  simp [ctxNone]

/-- A subclass of `FCSParserVisitor` (with the methods in `rest`, as they are defined there) that overrides `defaultResult`,
`aggregateResult`, `shouldVisitNextChild` and `visitTerminal`. -/
def ctxFolder {R σ ε : Type} (rest : PyStr → Bool) (d : Option R) (g : Option R → Option R → Option R) (p : PTree → Option R → Bool)
    (leaf : Tok → Option R) : CtxVisitor R σ ε :=
  { method := fun name => if rest name then
        some (CtxVisitor.visitChildren { method := fun _ => none, defaultResult := d, aggregate := g, shouldVisit := p }) else none
    visitTerminal := fun x s => (.ok (leaf x), s)
    defaultResult := d
    aggregate := g
    shouldVisit := p }

mutual
/-- What it is to return: the results of the children, from left to right, each combined with what there is already, beginning with
the default result, until no more are wanted. -/
def ctxFold {R : Type} (d : Option R) (g : Option R → Option R → Option R) (p : PTree → Option R → Bool) (leaf : Tok → Option R) :
    PTree → Option R
  | .leaf x => leaf x
  | .node r ks => ctxFolds d g p leaf (.node r ks) d ks
/-- For the children that are left. -/
def ctxFolds {R : Type} (d : Option R) (g : Option R → Option R → Option R) (p : PTree → Option R → Bool) (leaf : Tok → Option R)
    (ctx : PTree) : Option R → List PTree → Option R
  | r, [] => r
  | r, c :: cs => if p ctx r then ctxFolds d g p leaf ctx (g r (ctxFold d g p leaf c)) cs else r
end

/-- **C65.** A visitor that overrides `defaultResult`, `aggregateResult`, `shouldVisitNextChild` and `visitTerminal` returns what these
make of the tree, whether it inherits the methods of `FCSParserVisitor` or not. -/
theorem C65_results {R σ ε : Type} (rest : PyStr → Bool) (d : Option R) (g : Option R → Option R → Option R) (p : PTree → Option R → Bool)
    (leaf : Tok → Option R) (t : PTree) (s : σ) :
    acceptCtx ctxClass (ctxFolder (ε := ε) rest d g p leaf) t s = (.ok (ctxFold d g p leaf t), s) := by
  have e : ∀ (ctx : PTree) (as : List (CAct R σ ε)) (r : Option R) (s : σ),
      CtxVisitor.loop (ctxFolder rest d g p leaf) ctx r as s =
      CtxVisitor.loop ({ method := fun _ => none, defaultResult := d, aggregate := g, shouldVisit := p } : CtxVisitor R σ ε) ctx r as s := by
    intro ctx as
    induction as with
    | nil => intro r s; rfl
    | cons a as ih =>
      intro r s
      rw [CtxVisitor.loop, CtxVisitor.loop]
      simp only [ctxFolder] at ih ⊢
      simp only [ih]
  revert s
  apply PTree.rec (motive_1 := fun t => ∀ s, acceptCtx ctxClass (ctxFolder (σ := σ) (ε := ε) rest d g p leaf) t s = (.ok (ctxFold d g p leaf t), s))
    (motive_2 := fun ts => ∀ (ctx : PTree) (r : Option R) (s : σ),
      CtxVisitor.loop ({ method := fun _ => none, defaultResult := d, aggregate := g, shouldVisit := p } : CtxVisitor R σ ε) ctx r
        (acceptCtxs ctxClass (ctxFolder rest d g p leaf) ts) s = (.ok (ctxFolds d g p leaf ctx r ts), s))
  · intro x s; rw [acceptCtx, ctxFold]; rfl
  · intro r ks ih s
    rw [acceptCtx, ctxFold]
    by_cases hr : rest (ctxClass r).accept = true
    · simp only [ctxFolder, hr, if_true]
      exact ih (.node r ks) d s
    · have : (ctxFolder (σ := σ) (ε := ε) rest d g p leaf).method (ctxClass r).accept = none := by simp [ctxFolder, hr]
      rw [this]
      exact (e _ _ _ _).trans (ih (.node r ks) d s)
  · intro ctx r s; rw [ctxFolds]; rfl
  · intro c cs ih1 ih2 ctx r s
    rw [acceptCtxs, CtxVisitor.loop, ctxFolds, ih1]
    by_cases hp : p ctx r = true
    · simp only [hp, if_true]; exact ih2 ctx _ s
    · simp only [hp, Bool.false_eq_true, if_false]

-- counting the tokens of a query, beginning with 100 at every context
example : acceptCtx (R := Nat) (σ := Unit) (ε := Unit) ctxClass
    (ctxFolder (fun name => visitorMethods.contains name) (some 100) (fun a b => some (a.getD 0 + b.getD 0)) (fun _ r => r.getD 0 < 200) fun _ => some 1)
    (.node .query [.node .main_query [], .node .main_query [], .node .main_query []]) () = (.ok (some 200), ()) := rfl

example : (acceptCtx ctxClass (ctxWorker (R := Unit) (ε := Unit) (fun name => name = py!"visitIdentifier") false
      (fun name => visitorMethods.contains name) fun x s => (.ok (), s ++ x.leaves.map Tok.text))
      (treeOf py!"([a:b='c'/i & d!='e'] | 'x'{1,2}) within s") []).2 = [py!"b", py!"d"] := by decide +kernel

end Fcsql
