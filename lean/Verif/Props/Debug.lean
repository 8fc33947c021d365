/-
C99: parsing and visiting with the logger at level DEBUG.
-/
import Verif.Proofs.Debug
import Verif.Props.Program
import Verif.Props.Exact
import Verif.Props.TreeText

set_option autoImplicit false
set_option linter.unusedSimpArgs false

namespace Fcsql

attribute [local irreducible] parserAtn parseQuery lexerAtn lexPieces

/-! ### Same outcome -/

theorem runBuilderD_fst (rt : PyRuntime) (cfg : Config) (t : PTree) : (runBuilderD rt cfg t).1 = runBuilder rt cfg t := by
  obtain ⟨r, h', ad, st', ea, eb, -⟩ := logsim_builder pureAlloc rt cfg t () [] []
  unfold runBuilderD runBuilder
  rw [ea, eb]
  cases r with
  | error e => rfl
  | ok r =>
    rcases st' with _ | ⟨x, st'⟩
    · rfl
    · cases x <;> rfl

/-- **C99.** `QueryParser.parse` has the same outcome and the same `errors` whether DEBUG is enabled or not, for every query and
all settings. -/
theorem C99_parse (L A : Atn) (m n : Nat) (rt : PyRuntime) (cfg : Config) (q : PyStr) :
    (parseProgramD L A m n rt cfg q).map Prod.fst = parseProgram L A m n rt cfg q := by
  unfold parseProgramD parseProgram
  rcases callP L m q A code n .query with _ | ⟨f, calls⟩
  · rfl
  · simp only [Option.map_some, Option.some.injEq, parseOutcomeD, parseOutcome]
    split
    · rw [runBuilderD_fst]
    · rfl

/-- **C99.** The tree builder, on every tree (from the parser or not), with any stack and any way of creating nodes: the same
result or exception, the same nodes and the same stack, whether DEBUG is enabled or not; the log is only added to. -/
theorem C99_builder {ν σ : Type} (A : Alloc ν σ) (rt : PyRuntime) (cfg : Config) (t : PTree) (h : σ) (log : List (LogRec ν))
    (stack : List (Item ν)) :
    ∃ r h' more stack', acceptCtx ctxClass (debugBuilder A rt cfg) t ⟨(h, log), stack⟩ = (r, ⟨(h', log ++ more), stack'⟩) ∧
      acceptCtx ctxClass (treeBuilder A rt cfg) t ⟨h, stack⟩ = (r, ⟨h', stack'⟩) := by
  obtain ⟨r, h', ad, st', ea, eb, -⟩ := logsim_builder A rt cfg t h log stack
  exact ⟨r, h', ad, st', ea, eb⟩

/-! ### The log -/

theorem strTrees_printed : ∀ ks : List PTree, ks ≠ [] → (∀ c ∈ ks, c.toStringTree = c.printed) →
    py!" " ++ PTree.toStringTrees ks = PTree.printedL ks
  | [], h, _ => absurd rfl h
  | [c], _, h => by
    rw [PTree.toStringTrees, h c (by simp)]
    simp [PTree.printedL]
  | c :: d :: cs, _, h => by
    have := strTrees_printed (d :: cs) (by simp) fun x hx => h x (by simp [List.mem_cons.1 hx])
    rw [PTree.toStringTrees, h c (by simp), PTree.printedL, ← this]
    · simp
    · simp

theorem strTree_node {r : Rule} {ks : List PTree} (hne : ks ≠ []) (h : ∀ c ∈ ks, c.toStringTree = c.printed) :
    (PTree.node r ks).toStringTree = (PTree.node r ks).printed := by
  have e : CTree.escapeWs (parserRuleNames.getD (ctxClass r).ruleIndex []) = ruleName r := by cases r <;> decide
  rw [PTree.toStringTree, if_neg (by simpa using hne), PTree.printed, ← strTrees_printed ks hne h, e]
  simp

theorem strTree_leaf (x : Tok) : (PTree.leaf x).toStringTree = (PTree.leaf x).printed := by
  rw [PTree.toStringTree, PTree.printed, shown]
  induction x.text with
  | nil => rfl
  | cons c cs ih => simp only [CTree.escapeWs, List.flatMap_cons, ih, shownChar]

theorem strTree_optLeaf (o : Option Tok) : ∀ c ∈ optLeaf o, c.toStringTree = c.printed := by
  cases o <;> simp [optLeaf, strTree_leaf]

theorem strTree_regexp (r : CRegexp) : r.toTree.toStringTree = r.toTree.printed := by
  have h1 : ∀ x r, (PTree.node r [.leaf x]).toStringTree = (PTree.node r [.leaf x]).printed := fun x r => strTree_node (by simp) (by simp [strTree_leaf])
  obtain ⟨p, _ | ⟨s, f⟩⟩ := r <;> exact strTree_node (by simp) (by simp [strTree_leaf, h1])

theorem strTree_attr (a : CAttr) : a.toTree.toStringTree = a.toTree.printed := by
  have h1 : ∀ x r, (PTree.node r [.leaf x]).toStringTree = (PTree.node r [.leaf x]).printed := fun x r => strTree_node (by simp) (by simp [strTree_leaf])
  obtain ⟨_ | ⟨s, f⟩, i⟩ := a <;> exact strTree_node (by simp) (by simp [strTree_leaf, h1])

theorem strTree_quant (q : Option CQuant) : ∀ c ∈ optQuant q, c.toStringTree = c.printed := by
  cases q with
  | none => simp [optQuant]
  | some q =>
    simp only [optQuant, List.mem_singleton, forall_eq]
    cases q with
    | sym t => exact strTree_node (by simp [CQuant.forest]) (by simp [CQuant.forest, strTree_leaf])
    | exactly a b c => exact strTree_node (by simp [CQuant.forest]) (by simp [CQuant.forest, strTree_leaf])
    | range a n c m b =>
      refine strTree_node (by simp [CQuant.forest]) ?_
      cases n <;> cases m <;> simp [CQuant.forest, strTree_leaf, optLeaf]

theorem strTree_expr (e : CExpr) : e.toTree.toStringTree = e.toTree.printed := by
  refine CExpr.rec (motive_1 := fun e => e.toTree.toStringTree = e.toTree.printed)
    (motive_2 := fun l => ∀ c ∈ l.forest, c.toStringTree = c.printed) ?_ ?_ ?_ ?_ ?_ ?_ ?_ e
  · intro a op r
    exact strTree_node (by simp) (by simp [strTree_leaf, strTree_attr, strTree_regexp])
  · intro lp e rp ih
    exact strTree_node (by simp) (by simp [strTree_leaf, ih])
  · intro f rest ih1 ih2
    exact strTree_node (by simp) (by simpa [ih1] using ih2)
  · intro f rest ih1 ih2
    exact strTree_node (by simp) (by simpa [ih1] using ih2)
  · intro b e ih
    exact strTree_node (by simp) (by simp [strTree_leaf, ih])
  · simp [CTail.forest]
  · intro op e rest ih1 ih2
    simpa [CTail.forest, strTree_leaf, ih1] using ih2

theorem strTree_cq (c : CQ) : c.toTree.toStringTree = c.toTree.printed := by
  refine CQ.rec (motive_1 := fun c => c.toTree.toStringTree = c.toTree.printed)
    (motive_2 := fun l => ∀ c ∈ l.forest, c.toStringTree = c.printed) ?_ ?_ ?_ ?_ ?_ ?_ ?_ c
  · intro r q
    refine strTree_node (by simp) ?_
    simp only [List.mem_cons, forall_eq_or_imp]
    exact ⟨strTree_node (by simp) (by simp [strTree_regexp]), strTree_quant q⟩
  · intro lb e rb q
    refine strTree_node (by simp) ?_
    simp only [List.mem_cons, forall_eq_or_imp]
    refine ⟨strTree_node (by simp) ?_, strTree_quant q⟩
    cases e with
    | none => simp [optExpr, strTree_leaf]
    | some e =>
      have : (PTree.node .expression [e.toTree]).toStringTree = (PTree.node .expression [e.toTree]).printed :=
        strTree_node (by simp) (by simp [strTree_expr])
      simp [optExpr, strTree_leaf, this]
  · intro lp c rp q ih
    refine strTree_node (by simp) ?_
    simp only [List.mem_cons, forall_eq_or_imp]
    exact ⟨strTree_leaf _, ih, strTree_leaf _, strTree_quant q⟩
  · intro f rest ih1 ih2
    exact strTree_node (by simp) (by simpa [ih1] using ih2)
  · intro f rest ih1 ih2
    exact strTree_node (by simp) (by simpa [ih1] using ih2)
  · simp [CQTail.forest]
  · intro sep c rest ih1 ih2
    cases sep <;> simpa [CQTail.forest, optLeaf, strTree_leaf, ih1] using ih2

theorem strTree_query (c : CQuery) : c.toTree.toStringTree = c.toTree.printed := by
  refine strTree_node (by simp) ?_
  have h1 : (PTree.node .main_query [c.main.toTree]).toStringTree = (PTree.node .main_query [c.main.toTree]).printed :=
    strTree_node (by simp) (by simp [strTree_cq])
  rcases hw : c.within with _ | ⟨w, s⟩
  · simp [optWithin, strTree_leaf, h1]
  · have h2 : (PTree.node .within_part_simple [.leaf s]).toStringTree = (PTree.node .within_part_simple [.leaf s]).printed :=
      strTree_node (by simp) (by simp [strTree_leaf])
    have h3 : (PTree.node .within_part [.node .within_part_simple [.leaf s]]).toStringTree =
        (PTree.node .within_part [.node .within_part_simple [.leaf s]]).printed :=
      strTree_node (by simp) (by simp [h2])
    simp [optWithin, strTree_leaf, h1, h3]

theorem logged_callOf {q : PyStr} (e : RawErr) : (callOf q e).logged (ν := Node) q = e.lines q := by
  cases e with
  | lexer p => rfl
  | parser t msg =>
    have h1 : tokenNames (rawOf q t) = (loggedLiteral t.type, loggedSymbol t.type) := by
      show (nameAt literalNames t.type.num, nameAt symbolicNames t.type.num) = _
      cases t.type <;> decide
    simp only [callOf, ListenerCall.logged, RawErr.lines, h1]
    rw [← List.replicate_append_replicate]
    rfl

theorem debugged_last {ν σ : Type} {name : PyStr}
    {m : PTree → List (CAct Unit (BState ν (σ × List (LogRec ν))) Exc) → CAct Unit (BState ν (σ × List (LogRec ν))) Exc} {ctx : PTree}
    {as : List (CAct Unit (BState ν (σ × List (LogRec ν))) Exc)} {s s' : BState ν (σ × List (LogRec ν))} {r : Option Unit}
    (h : debugged name m ctx as s = (.ok r, s')) : s'.heap.2.getLast? = some (.exit name s'.stack) := by
  unfold debugged at h
  rcases hx : m ctx as (writeLog (.enter name (ctxChildren ctx).length ctx.getText) s) with ⟨x, s1⟩
  rw [hx] at h
  cases x with
  | error e => cases h
  | ok x =>
    simp only [Prod.mk.injEq] at h
    rw [← h.2]
    simp [writeLog]

/-- The log of the tree builder at work on the tree of a query. -/
theorem builder_log (rt : PyRuntime) (cfg : Config) (q : PyStr) (t : PTree) (h : antlrParse q = .ok t) :
    (runBuilderD rt cfg t).2.map LogRec.bare <+: t.trace ∧
    ∀ n, (runBuilderD rt cfg t).1 = .ok n →
      (runBuilderD rt cfg t).2.map LogRec.bare = t.trace ∧
      (runBuilderD rt cfg t).2.getLast? = some (.exit py!"visitQuery" [.node n]) := by
  have hst := C77_stack rt cfg q t h []
  obtain ⟨cst, hs, rfl⟩ := syntaxOf_of_parse (antlrParse_ok.1 h)
  obtain ⟨r, h', ad, st', ea, eb, hr⟩ := logsim_builder pureAlloc rt cfg cst.toTree () [] []
  rw [walked_query] at hr
  rw [List.nil_append] at ea
  cases r with
  | error e =>
    have e1 : runBuilderD rt cfg cst.toTree = (.error (wrapExc e), ad) := by unfold runBuilderD; rw [ea]
    rw [e1]
    exact ⟨hr, fun n hn => nomatch hn⟩
  | ok r =>
    simp only at hr
    have e2 : (runBuilderD rt cfg cst.toTree).2 = ad := by
      unfold runBuilderD
      rw [ea]
      rcases st' with _ | ⟨x, st'⟩
      · rfl
      · cases x <;> rfl
    rw [e2]
    refine ⟨hr ▸ List.prefix_refl _, fun n hn => ⟨hr, ?_⟩⟩
    have hl : ad.getLast? = some (.exit py!"visitQuery" st') := by
      obtain ⟨m, hm⟩ : ∃ m, acceptCtx ctxClass (debugBuilder pureAlloc rt cfg) cst.toTree = debugged py!"visitQuery" m cst.toTree
          (acceptCtxs ctxClass (debugBuilder pureAlloc rt cfg) (ctxChildren cst.toTree)) := by
        unfold CQuery.toTree
        rw [acceptCtx]
        exact ⟨_, rfl⟩
      rw [hm] at ea
      exact debugged_last ea
    rw [hl]
    rw [runBuilderD_fst] at hn
    unfold runBuilder at hn
    rw [eb] at hn hst
    cases hb : build rt cfg cst.toTree with
    | error e => rw [hb] at hst; obtain ⟨s, hs⟩ := hst; cases hs
    | ok n' =>
      rw [hb] at hst
      obtain ⟨r', hr'⟩ := hst
      cases hr'
      simp only [Except.ok.injEq] at hn
      rw [hn]

/-- **C99.** What is logged for a query that is accepted by the grammar: the parse tree as text, then the contexts of the tree as
they are entered (name of the method, number of children, text) and left, from left to right; if the tree builder raises, a
first part of that; if not, the last record shows the stack with the node `parse` returns and nothing else. -/
theorem C99_log (L A : Atn) (hL : deserialize lexerData = some L) (hA : deserialize parserData = some A) (m : Nat) (hm : 28 ≤ m)
    (rt : Runtime) (cfg : Config) (q : PyStr) (t : PTree) (ht : antlrParse q = .ok t) (hl : lexErrors q = []) :
    ∃ N log, (∀ n, N ≤ n → parseProgramD L A m n rt.toPyRuntime cfg q = some (parseQuery rt cfg q, .tree t.printed :: log)) ∧
      log.map LogRec.bare <+: t.trace ∧
      ∀ node, (parseQuery rt cfg q).1 = .ok node →
        log.map LogRec.bare = t.trace ∧ log.getLast? = some (.exit py!"visitQuery" [.node node]) := by
  rw [lexerAtn_eq] at hL
  rw [parserAtn_eq] at hA
  cases hL
  cases hA
  obtain ⟨N, rs, f, hr, h1, h2, h3⟩ := callP_total m hm q
  have hrs : rs = [] := (reports_nil hr).2 ⟨t, ht⟩
  have hf := h3 hrs
  rw [ht] at hf
  cases hf
  subst hrs
  obtain ⟨b1, b2⟩ := builder_log rt.toPyRuntime cfg q _ ht
  have hcalls : (listenerErrors q 0 [] 0).map (callOf q) = [] := by
    rw [listenerErrors, lexErrorsBy_zero, List.drop_zero, hl]; rfl
  have hp := C77_parse rt cfg q _ ht hl
  have hp2 : (parseQuery rt cfg q).2 = [] := by
    have := parse_records rt cfg q
    rw [this, rawErrors_accepted rt ht, hl]
    rfl
  have hfst := runBuilderD_fst rt.toPyRuntime cfg (.node .query f)
  refine ⟨N, (runBuilderD rt.toPyRuntime cfg (.node .query f)).2, fun n hn => ?_, b1, fun node hnode => b2 node ?_⟩
  · unfold parseProgramD
    rw [h1 n hn, hcalls]
    simp only [parseOutcomeD, List.map_nil, List.flatMap_nil, List.isEmpty_nil, List.filter_nil, List.length_nil, decide_true, Bool.and_self,
      if_true, List.nil_append, hfst, ← hp]
    obtain ⟨cst, hs, hc⟩ := syntaxOf_of_parse (antlrParse_ok.1 ht)
    rw [hc, strTree_query]
    rw [← hp2]
  · rw [hfst, ← hp, hnode]

/-- **C99.** What is logged for any other query: for every complaint of the parser, in order, the query and below it a caret with
the message, then the names of the offending token; in the end every record of `errors`. -/
theorem C99_error_log (L A : Atn) (hL : deserialize lexerData = some L) (hA : deserialize parserData = some A) (m : Nat) (hm : 28 ≤ m)
    (rt : Runtime) (hrt : rt.Antlr) (cfg : Config) (q : PyStr) (hq : ¬ (lexErrors q = [] ∧ ∃ t, antlrParse q = .ok t)) :
    ∃ N, ∀ n, N ≤ n → parseProgramD L A m n rt.toPyRuntime cfg q = some (parseQuery rt cfg q,
      (rawErrors rt q).flatMap (RawErr.lines q) ++ (parseQuery rt cfg q).2.map .error) := by
  obtain ⟨⟨N1, hN1⟩, -⟩ := C95_program L A hL hA m hm rt hrt cfg q
  rw [lexerAtn_eq] at hL
  rw [parserAtn_eq] at hA
  cases hL
  cases hA
  obtain ⟨N, rs, f, hr, h1, h2, h3⟩ := callP_total m hm q
  have hraw : rawErrors rt q = listenerErrors q 0 rs 0 := by
    by_cases hq : ∃ t, antlrParse q = .ok t
    · obtain ⟨t, ht⟩ := hq
      have : rs = [] := (reports_nil hr).2 ⟨t, ht⟩
      subst this
      rw [rawErrors_accepted rt ht, listenerErrors, lexErrorsBy_zero, List.drop_zero]
    · obtain ⟨rs', u', h4, h5⟩ := hrt q fun t ht => hq ⟨t, ht⟩
      obtain ⟨rfl, rfl⟩ := h4.unique hr
      exact h5
  refine ⟨max N N1, fun n hn => ?_⟩
  have hP := hN1 n (by omega)
  have hD := C99_parse lexerAtn parserAtn m n rt.toPyRuntime cfg q
  rw [hP] at hD
  unfold parseProgramD at hD ⊢
  unfold parseProgram at hP
  rw [h1 n (by omega), ← hraw] at hP hD ⊢
  simp only [Option.map_some, Option.some.injEq] at hP hD ⊢
  refine Prod.ext hD ?_
  have hne : rawErrors rt q ≠ [] := fun h => hq (by
    have := (rawErrors_nil_iff rt q).1 h
    obtain ⟨t, ht⟩ := (grammatical_iff _).1 this.2
    exact ⟨this.1, t, antlrParse_ok.2 ht⟩)
  have herr : (parseQuery rt cfg q).2 = ((rawErrors rt q).map (callOf q)).map (ListenerCall.record q) := by
    rw [← hP]
    unfold parseOutcome
    rw [if_neg (by simp [isEmpty_false hne])]
  unfold parseOutcomeD
  rw [if_neg (by simp [isEmpty_false hne])]
  simp only [herr, List.flatMap_map, logged_callOf]

theorem drop_add_append {α : Type} (a b : List α) (k : Nat) : (a ++ b).drop (a.length + k) = b.drop k := by
  rw [← List.drop_drop, List.drop_left]

/-- **C99.** The caret: in the line below the query, it is below the first character of the token the parser complains about
(if that is the end of the query, directly after it). -/
theorem C99_caret (rt : Runtime) (hrt : rt.Antlr) (q : PyStr) (t : Tok) (msg : PyStr) (h : .parser t msg ∈ rawErrors rt q) :
    ∃ line k a b, RawErr.lines (ν := Node) q (.parser t msg) = [.query line, .caret (List.replicate k 32 ++ py!"^- " ++ msg), .symbol a b, .recognizer] ∧
      line = py!"query: " ++ q ∧
      (t.type ≠ .EOF → t.text ≠ [] ∧ (line.drop k).take t.text.length = t.text) ∧
      (t.type = .EOF → k = line.length) := by
  have ht := ((raw_antlr hrt q).2.2.1 t msg h).1
  refine ⟨_, _, _, _, rfl, rfl, fun hne => ?_, fun he => ?_⟩
  · rcases List.mem_append.1 ht with ht | ht
    · obtain ⟨p, hp, hpt⟩ := List.mem_filterMap.1 ht
      obtain ⟨h1, h2, h3, h4⟩ := piece_tok hpt
      obtain ⟨b1, b2, b3⟩ := piece_bounds hp
      have hst : t.start.toNat = p.start := by omega
      refine ⟨h2 ▸ b1, ?_⟩
      rw [hst]
      have := drop_add_append py!"query: " q p.start
      simp only [List.length_cons, List.length_nil] at this
      rw [this, ← h2]
      exact b3.symm
    · rw [List.mem_singleton] at ht
      subst ht
      exact absurd rfl hne
  · rcases List.mem_append.1 ht with ht | ht
    · exact absurd he (lexTokens_noEof q t ht)
    · rw [List.mem_singleton] at ht
      subst ht
      simp [eofTok]
      omega

theorem token_text_of {q : PyStr} {t : Tok} (h : t ∈ lexTokens q) : TokenText t.type t.text := by
  obtain ⟨p, hp, hpt⟩ := List.mem_filterMap.1 h
  obtain ⟨h1, h2, -, -⟩ := piece_tok hpt
  rcases (lexPieces_splits q).kinds p hp with hk | ⟨ty, hk, hf⟩
  · rw [h1] at hk; cases hk
  · rw [h1, kindOf] at hk
    split at hk
    · cases hk
    · rename_i hs
      cases hk
      rw [← h2]
      exact (tokenText_of_first hf).resolve_right fun h => hs h.1

/-- **C99.** The names: for every token of a query (but not for its end) the log has the name of its type in the grammar; and as
literal the text of the token in quotes for the tokens with a fixed text, nothing for the others. -/
theorem C99_names (q : PyStr) (t : Tok) (h : t ∈ lexTokens q) :
    loggedSymbol t.type = some t.type.text ∧
    loggedLiteral t.type = if (t.type, t.text) ∈ fixedTokens then some (py!"'" ++ t.text ++ py!"'") else none := by
  have hne := lexTokens_noEof q t h
  refine ⟨by revert hne; cases t.type <;> simp [loggedSymbol], ?_⟩
  have htt : TokenText t.type t.text := token_text_of h
  generalize t.type = ty at *
  generalize t.text = w at *
  cases htt with
  | fixed hm =>
    rw [if_pos hm]
    have : ∀ p ∈ fixedTokens, loggedLiteral p.1 = some (py!"'" ++ p.2 ++ py!"'") := by decide
    exact this _ hm
  | scope _ => simp [fixedTokens, loggedLiteral]
  | flags _ => simp [fixedTokens, loggedLiteral]
  | identifier _ _ _ _ => simp [fixedTokens, loggedLiteral]
  | integer _ _ => simp [fixedTokens, loggedLiteral]
  | literal _ => simp [fixedTokens, loggedLiteral]

/-- **C99.** At the end of the query the names are wrong: those of the keyword `within` and of white space. -/
theorem C99_eof_names (q : PyStr) : loggedLiteral (eofTok q).type = some py!"'within'" ∧ loggedSymbol (eofTok q).type = some py!"Space" :=
  ⟨rfl, rfl⟩

/-! ### Visitors -/

/-- **C99.** A visitor whose `visit_*` attributes are methods (they have a `__name__`) and that does not read the log does the same
whether DEBUG is enabled or not: from worlds that differ in nothing but the log, the same result or exception, and again worlds
that differ in nothing but the log. -/
theorem C99_visitor {R σ ε : Type} (v : Debugged R σ ε) (same : σ → σ → Prop) (hv : v.Blind same)
    (hn : ∀ name m, v.method name = some m → (v.pyName name).isSome) (n : Node) (s t : σ) (hst : same s t) :
    (visitNodeD v n s).1 = (visitNode v.toVisitor n t).1 ∧ same (visitNodeD v n s).2 (visitNode v.toVisitor n t).2 :=
  same_visit hv hn n s t hst

/-- **C99.** Without `__name__` (for example a `functools.partial`) it is not the same: with DEBUG enabled there is an
`AttributeError` before the method is called. -/
theorem C99_visitor_unnamed {R σ ε : Type} (v : Debugged R σ ε) (n : Node)
    (m : Node → List (Act R σ ε) → Act R σ ε) (hm : v.method (methodName n) = some m) (hn : v.pyName (methodName n) = none) (s : σ) :
    visitNodeD v n s = (.error v.noName, s) ∧ visitNode v.toVisitor n s = m n (acceptAll v.toVisitor n.children) s := by
  obtain ⟨k, cs, l⟩ := n
  rw [visitNodeD, visitNode]
  simp only [dispatchD, dispatch, hm, hn, Node.children]
  exact ⟨trivial, trivial⟩

/-- A `QueryVisitorAdapter` in a world that is nothing but the log. -/
def adapterD (R ε : Type) (noName : ε) : Debugged R (List (PyStr × Node)) ε :=
  { adapter R (List (PyStr × Node)) ε with pyName := some, noName, write := fun name node s => s ++ [(name, node)] }

/-- **C99.** What is logged when a `QueryVisitorAdapter` visits a tree: every node once, parents before children and children from
left to right, each with the method that is called. -/
theorem C99_visiting (R ε : Type) (noName : ε) (n : Node) (log : List (PyStr × Node)) :
    visitNodeD (adapterD R ε noName) n log = (.ok none, log ++ n.subnodes.map fun m => (loggedMethod m, m)) := by
  revert log
  refine Node.rec (motive_1 := fun n => ∀ log, visitNodeD (adapterD R ε noName) n log =
      (.ok none, log ++ n.subnodes.map fun m => (loggedMethod m, m)))
    (motive_2 := fun cs => ∀ node log, visitLoop ({} : VisitorBase R (List (PyStr × Node)) ε) node none (acceptAllD (adapterD R ε noName) cs) log =
      (.ok none, log ++ (Node.subnodesL cs).map fun m => (loggedMethod m, m))) ?_ ?_ ?_ n
  · intro k cs l ih log
    rw [visitNodeD, Node.subnodes]
    have key : ∀ log, visitChildrenLoop ({} : VisitorBase R (List (PyStr × Node)) ε) (.mk k cs l) (acceptAllD (adapterD R ε noName) cs) log =
        (.ok none, log ++ (Node.subnodesL cs).map fun m => (loggedMethod m, m)) := ih (.mk k cs l)
    have hname : (if methodName (.mk k cs l) ∈ adapterMethods then methodName (.mk k cs l) else py!"visitChildren") = loggedMethod (.mk k cs l) := by
      cases k <;> rfl
    by_cases hm : methodName (.mk k cs l) ∈ adapterMethods
    · rw [if_pos hm] at hname
      have h1 : (adapterD R ε noName).method (methodName (.mk k cs l)) = some fun node acc => visitChildrenLoop {} node acc := by
        simp [adapterD, adapter, hm]
      simp only [dispatchD, h1]
      show visitChildrenLoop {} _ _ (log ++ [(methodName (.mk k cs l), .mk k cs l)]) = _
      rw [key, hname]
      simp
    · rw [if_neg hm] at hname
      have h1 : (adapterD R ε noName).method (methodName (.mk k cs l)) = none := by simp [adapterD, adapter, hm]
      simp only [dispatchD, h1]
      show visitChildrenLoop {} _ _ (log ++ [(py!"visitChildren", .mk k cs l)]) = _
      rw [key, hname]
      simp
  · intro node log
    simp [acceptAllD, visitLoop, Node.subnodesL]
  · intro c cs ih1 ih2 node log
    rw [acceptAllD, Node.subnodesL]
    simp only [visitLoop]
    rw [ih1]
    simp only
    rw [ih2]
    simp

/-! ### Examples -/

-- a query with an error in the middle: caret below the `)`
example : ((parseProgramD lexerAtn parserAtn 28 60 rt0.toPyRuntime defaultConfig py!"'a' $ ) 'b'").map Prod.snd).map (fun l => l.filterMap fun r =>
    match r with
    | .query s => some s
    | .caret s => some s
    | .symbol a b => some ((a.getD []) ++ 32 :: (b.getD []))
    | .error e => some (py!"ERROR: " ++ e.message)
    | _ => none) = some
    [py!"query: 'a' $ ) 'b'",
     py!"             ^- mismatched input ')' expecting {<EOF>, 'within'}",
     py!"')' R_PAREN",
     py!"ERROR: token recognition error at: '$'",
     py!"ERROR: mismatched input ')' expecting {<EOF>, 'within'}"] := by
  decide +kernel

-- a query that ends too early: the end of the query is called `within`, and white space
example : ((parseProgramD lexerAtn parserAtn 28 60 rt0.toPyRuntime defaultConfig py!"[a=").map Prod.snd).map (fun l => l.filterMap fun r =>
    match r with
    | .query s => some s
    | .caret s => some s
    | .symbol a b => some ((a.getD []) ++ 32 :: (b.getD []))
    | _ => none) = some
    [py!"query: [a=",
     py!"          ^- no viable alternative at input '[a='",
     py!"'within' Space"] := by
  decide +kernel

-- a query that is accepted
example : ((parseProgramD lexerAtn parserAtn 28 200 rt0.toPyRuntime defaultConfig py!"[ ] within s").map Prod.snd).map (fun l => l.map fun r =>
    match r with
    | .tree s => s
    | .enter m k t => m ++ py!" " ++ decStr k ++ py!" " ++ t
    | .exit m st => m ++ py!" " ++ decStr st.length
    | _ => []) = some
    [py!"(query (main_query (query_simple (query_segment [ ]))) within (within_part (within_part_simple s)) <EOF>)",
     py!"visitQuery 4 []withins<EOF>", py!"visitMain_query 1 []", py!"visitQuery_simple 1 []", py!"visitQuery_segment 2 []",
     py!"visitQuery_segment 1", py!"visitQuery_simple 1", py!"visitMain_query 1", py!"visitWithin_part_simple 1 s",
     py!"visitWithin_part_simple 2", py!"visitQuery 1"] := by
  decide +kernel

-- a query the tree builder refuses: the log stops in the method that raised
example : ((parseProgramD lexerAtn parserAtn 28 200 rt0.toPyRuntime defaultConfig py!"'a'/iI").map Prod.snd).map (fun l => (l.drop 1).map fun r =>
    match r with
    | .enter m _ _ => m
    | _ => []) = some
    [py!"visitQuery", py!"visitMain_query", py!"visitQuery_simple", py!"visitQuery_implicit", py!"visitRegexp"] := by
  decide +kernel

-- a visitor with methods for two kinds of nodes
example : (visitNodeD (adapterD Unit Unit ()) (.mk (.qgroup 1 1) [.mk .sequence [.mk (.segment 1 1) [.mk .wildcard [] none] none] none] none) []).2.map Prod.fst =
    [py!"visit_QuerySegment", py!"visit_QuerySequence", py!"visit_QuerySegment", py!"visitChildren"] := by decide +kernel

-- a visitor of the kind `C99_visitor` speaks of: it counts nodes; the world is the count and the log
example : Debugged.Blind (R := Unit) (ε := Unit) (σ := Nat × List (PyStr × Node))
    { method := fun name => if name = py!"visit_Expression" then some fun _ _ s => (.ok none, (s.1 + 1, s.2)) else none
      pyName := some, noName := (), write := fun name node s => (s.1, s.2 ++ [(name, node)]) }
    (fun s t => s.1 = t.1) where
  write := fun _ _ _ _ h => h
  method := by
    intro name m hm node as bs _ s t hst
    by_cases h : name = py!"visit_Expression"
    · simp only [h, if_true, Option.some.injEq] at hm
      subst hm
      exact ⟨rfl, congrArg (· + 1) hst⟩
    · simp [h] at hm
  defaultResult := fun _ _ h => ⟨rfl, h⟩
  aggregate := fun _ _ _ _ h => ⟨rfl, h⟩
  shouldVisit := fun _ _ _ _ h => ⟨rfl, h⟩

end Fcsql
