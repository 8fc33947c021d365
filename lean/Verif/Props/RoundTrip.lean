/-
C18, C47: queries can be written: literals for all strings, texts for all query trees.
-/
import Verif.Proofs.Image

set_option autoImplicit false
set_option linter.unusedSimpArgs false

namespace Fcsql

attribute [local irreducible] parseQuery

/-! ### C18 -/

/-- **C18.** Every string, quoted with either quote character, is one literal token and nothing else. -/
theorem C18_token (s : PyStr) (hs : ValidStr s) (q : Nat) (hq : q = 34 ∨ q = 39) :
    lexErrors (quoteStr q s) = [] ∧ (lexTokens (quoteStr q s)).map (fun t => (t.type, t.text)) = [(.REGEXP, quoteStr q s)] :=
  (laid_iff _ _).1 (Laid.one (tokenText_quote hq hs))

example : ValidStr py!"a\"b\\'" ∧ quoteStr 34 py!"a\"b\\'" = py!"\"a\\\"b\\\\'\"" ∧ quoteStr 39 py!"a\"b\\'" = py!"'a\"b\\\\\\''" := by simp [ValidStr]; decide

/-- **C18.** As a query, it stands for one segment with the default attribute and operator and that string as value. -/
theorem C18_literal (rt : Runtime) (cfg : Config) (hc : cfg.enableSourceLocations = false) (s : PyStr) (hs : ValidStr s)
    (q : Nat) (hq : q = 34 ∨ q = 39) :
    (parseQuery rt cfg (quoteStr q s)).1 = .ok (.mk (.segment 1 1)
      [.mk (.expression none cfg.defaultIdentifier cfg.defaultOperator (cfg.norm rt.toPyRuntime s) none) [] none] none) := by
  rw [parse_laid rt hc (Laid.one (tokenText_quote hq hs))]
  left
  have wf : (CQ.implicit ⟨Tok.ofWhat (.REGEXP, quoteStr q s), none⟩ none).WF := ⟨⟨rfl, by simp⟩, by simp [optQuantWF]⟩
  refine ⟨_, wf, ?_, best_implicit wf, (by rintro x h; cases h), _, none, 1, 1, ⟨⟨s, litValue_quote hq hs, rfl⟩, rfl⟩, ⟨rfl, rfl⟩,
    by rw [span_none hc, span_none hc]⟩
  rw [lv_implicit, CRegexp.lv_none, quantLv_none]
  simp

example : (parseQuery rt0 defaultConfig py!"'a\"b\\\\\\''").1 = .ok (.mk (.segment 1 1)
    [.mk (.expression none py!"text" .EQUALS py!"a\"b\\'" none) [] none] none) :=
  C18_literal rt0 defaultConfig rfl py!"a\"b\\'" (by simp [ValidStr]) 39 (.inr rfl)

/-- **C18.** With any settings, up to source locations. -/
theorem C18_literal_located (rt : Runtime) (cfg : Config) (s : PyStr) (hs : ValidStr s) (q : Nat) (hq : q = 34 ∨ q = 39) :
    ∃ n, (parseQuery rt cfg (quoteStr q s)).1 = .ok n ∧ n.unlocated = .mk (.segment 1 1)
      [.mk (.expression none cfg.defaultIdentifier cfg.defaultOperator (cfg.norm rt.toPyRuntime s) none) [] none] none :=
  parse_on (C18_literal rt { cfg with enableSourceLocations := false } rfl s hs q hq)

example : ∃ n, (parseQuery rt0 locConfig py!"'a\"b\\\\\\''").1 = .ok n ∧ n.unlocated = .mk (.segment 1 1)
    [.mk (.expression none py!"text" .EQUALS py!"a\"b\\'" none) [] none] none :=
  C18_literal_located rt0 locConfig py!"a\"b\\'" (by simp [ValidStr]) 39 (.inr rfl)

/-- **C18.** In brackets, after any attribute name and operator, it is the value of the comparison. -/
theorem C18_comparison (rt : Runtime) (cfg : Config) (hc : cfg.enableSourceLocations = false) (s : PyStr) (hs : ValidStr s)
    (q : Nat) (hq : q = 34 ∨ q = 39) (i : PyStr) (hi : IsName i) (o : Operator) :
    (parseQuery rt cfg (py!"[" ++ i ++ operatorText o ++ quoteStr q s ++ py!"]")).1 = .ok (.mk (.segment 1 1)
      [.mk (.expression none i o (cfg.norm rt.toPyRuntime s) none) [] none] none) := by
  obtain ⟨ty, k1, k2⟩ := nameTy hi
  have h1 : Laid [opTok o, (.REGEXP, quoteStr q s)] (operatorText o ++ quoteStr q s) := by
    cases o
    · exact Laid.one_cons (.fixed (by decide)) (by simp [Sticks]) (Laid.one (tokenText_quote hq hs))
    · exact Laid.one_cons (.fixed (by decide)) (by simp [Sticks]) (Laid.one (tokenText_quote hq hs))
  have h2 : Laid [(ty, i), opTok o, (.REGEXP, quoteStr q s)] (i ++ (operatorText o ++ quoteStr q s)) := by
    have hf : ∀ c, (operatorText o ++ quoteStr q s).head? = some c → ¬ Sticks ty c := by
      cases o <;> simp only [operatorText, List.cons_append, List.head?_cons, Option.some.injEq] <;> rintro c rfl <;> exact name_free k2 (by decide)
    simpa using Laid.cons (ws := []) (by simp) k1 h1 hf
  have wf : (CExpr.basic ⟨none, Tok.ofWhat (ty, i)⟩ (Tok.ofWhat (opTok o)) ⟨Tok.ofWhat (.REGEXP, quoteStr q s), none⟩).WF := by
    refine ⟨⟨k2, by simp⟩, ?_, rfl, by simp⟩
    cases o
    · exact .inl rfl
    · exact .inr rfl
  have := bracket_parse hc (rt := rt) ⟨_, _, h2, wf, by simp [CExpr.lv_basic, CAttr.toTree, PTree.leaves, PTree.leavesL, CRegexp.lv_none], best_basic wf, o,
    cfg.norm rt.toPyRuntime s, none, by cases o <;> simp [opSpec, opTok, Tok.ofWhat], ⟨⟨s, litValue_quote hq hs, rfl⟩, rfl⟩, rfl⟩
  rw [span_none hc] at this
  simpa [List.append_assoc, Tok.ofWhat] using this

example : (parseQuery rt0 defaultConfig py!"[within!=\"a\\\"b\\\\'\"]").1 = .ok (.mk (.segment 1 1)
    [.mk (.expression none py!"within" .NOT_EQUALS py!"a\"b\\'" none) [] none] none) :=
  C18_comparison rt0 defaultConfig rfl py!"a\"b\\'" (by simp [ValidStr]) 34 (.inl rfl) py!"within" isName_within .NOT_EQUALS

/-! ### C47 -/

theorem goodExpr_reads {rt : Runtime} {cfg : Config} (hc : cfg.enableSourceLocations = false) (n : Node) (h : GoodExpr rt.toPyRuntime cfg n) :
    ReadsBack rt cfg n := by
  refine ⟨goodExpr_text hc h, ?_⟩
  rintro ql i o v fl cs l e
  cases h with
  | @chunks Cs h1 h2 h3 h4 =>
    match Cs, h1 with
    | [C], _ =>
      have hC := h2 C (by simp)
      have hA := h3 C (by simp)
      match C, hC with
      | [(k, u)], _ =>
        have hu : GoodAtom rt.toPyRuntime cfg u := hA (k, u) (by simp)
        have e : negated k u = .mk (.expression ql i o v fl) cs l := e
        cases k with
        | succ k => simp [negated] at e
        | zero =>
          have e : u = .mk (.expression ql i o v fl) cs l := e
          subst e
          cases hu with
          | comparison g1 g2 g3 g4 => exact ⟨rfl, rfl, g3, g4⟩
      | a :: b :: C, _ => simp [disjunctionOf, conjunction] at e
    | C :: D :: Cs, _ => simp [disjunctionOf] at e

/-- **C47.** The text of every query tree parses back to exactly that tree (without source locations). -/
theorem C47_round_trip (rt : Runtime) (cfg : Config) (hc : cfg.enableSourceLocations = false) (n : Node)
    (h : GoodQuery rt.toPyRuntime cfg (GoodExpr rt.toPyRuntime cfg) n) : (parseQuery rt cfg (n.queryText cfg)).1 = .ok n :=
  goodQuery_text hc (goodExpr_reads hc) h

/-- A query with most of the constructs. -/
def sampleExpr : Node := .mk .or [.mk .and [.mk (.expression none py!"word" .EQUALS py!"a\"b" none) [] none,
  .mk .not [.mk .group [.mk (.expression (some py!"x") py!"pos" .NOT_EQUALS py!"N" (some ⟨true, false, false, false⟩)) [] none] none] none] none,
  .mk (.expression none py!"w" .EQUALS [] none) [] none] none
def sampleTree : Node := .mk .withWithin [.mk .disjunction [.mk (.segment 2 3) [sampleExpr] none,
  .mk .sequence [.mk (.qgroup 0 (-1)) [.mk .sequence [.mk (.segment 1 1) [.mk .wildcard [] none] none] none] none,
    .mk (.segment 5 (-1)) [.mk (.expression none py!"text" .EQUALS py!"c" none) [] none] none] none] none, .mk (.within .PARAGRAPH) [] none] none

theorem sampleExpr_good : GoodExpr rt0.toPyRuntime defaultConfig sampleExpr := by
  have w : ∀ s : PyStr, s ≠ [] → s.all isLetter = true → IsName s := fun s h1 h2 => isName_of_letters h1 (by simpa using h2)
  have v : ∀ s : PyStr, s.all (· < 0x110000) = true → GoodValue rt0.toPyRuntime defaultConfig s := fun s h => ⟨by simpa [ValidStr] using h, rfl⟩
  refine GoodExpr.chunks (Cs := [[(0, _), (1, _)], [(0, _)]]) (by simp) (by simp) ?_ (by simp [Calm, CalmRest, LoneNegation, LaterNegation])
  simp only [List.mem_cons, List.not_mem_nil, or_false, forall_eq_or_imp, forall_eq]
  refine ⟨⟨.comparison (by simp) (w _ (by decide) (by decide)) (v _ (by decide)) (by simp [GoodFlags]), .group ?_⟩,
    .comparison (by simp) (w _ (by decide) (by decide)) (v _ (by decide)) (by simp [GoodFlags])⟩
  refine GoodExpr.chunks (Cs := [[(0, _)]]) (by simp) (by simp) ?_ (by simp [Calm, CalmRest, LoneNegation, LaterNegation])
  simp only [List.mem_cons, List.not_mem_nil, or_false, forall_eq_or_imp, forall_eq]
  exact .comparison (by simp only [Option.some.injEq]; rintro q rfl; exact w _ (by decide) (by decide)) (w _ (by decide) (by decide)) (v _ (by decide))
    (by simp only [GoodFlags, Option.some.injEq]; rintro fs rfl; simp [FlagSet.Legal, FlagSet.has, FlagSet.isEmpty])

theorem sampleTree_good : GoodQuery rt0.toPyRuntime defaultConfig (GoodExpr rt0.toPyRuntime defaultConfig) sampleTree := by
  refine .within (.disjunction (by simp) ?_)
  simp only [List.mem_cons, List.not_mem_nil, or_false, forall_eq_or_imp, forall_eq]
  refine ⟨.segment (.bracket sampleExpr_good (.inr (.inr ⟨⟨by decide, .inr (by decide)⟩, ⟨by decide, .inr (by decide)⟩, by decide⟩))), .sequence (by simp) ?_⟩
  simp only [List.mem_cons, List.not_mem_nil, or_false, forall_eq_or_imp, forall_eq]
  refine ⟨.group (.sequence (by simp) ?_) (.inl (by simp)), .literal ⟨by simp [ValidStr], rfl⟩ (by simp [GoodFlags]) (.inr (.inl ⟨⟨by decide, .inr (by decide)⟩, rfl⟩))⟩
  simp only [List.mem_cons, List.not_mem_nil, or_false, forall_eq]
  exact .any (.inl (by simp))

example : sampleTree.queryText defaultConfig =
    py!"[word=\"a\\\"b\"&!(x:pos!=\"N\"/i)|w=\"\"]{2,3} | ([])* \"c\"{5,} within paragraph" ∧
    (parseQuery rt0 defaultConfig (sampleTree.queryText defaultConfig)).1 = .ok sampleTree :=
  ⟨by decide +kernel, C47_round_trip rt0 defaultConfig rfl sampleTree sampleTree_good⟩

/-- What the texts of queries depend on. -/
structure SameTexts (rt : PyRuntime) (cfg cfg' : Config) : Prop where
  norm : cfg'.norm rt = cfg.norm rt
  ident : cfg'.defaultIdentifier = cfg.defaultIdentifier
  op : cfg'.defaultOperator = cfg.defaultOperator

theorem contentText_same {rt : PyRuntime} {cfg cfg' : Config} (h : SameTexts rt cfg cfg') (cs : List Node) : contentText cfg' cs = contentText cfg cs := by
  unfold contentText
  rw [h.ident, h.op]

mutual
theorem queryText_same {rt : PyRuntime} {cfg cfg' : Config} (h : SameTexts rt cfg cfg') : ∀ n : Node, n.queryText cfg' = n.queryText cfg
  | .mk (.segment mn mx) cs l => by simp only [Node.queryText, contentText_same h]
  | .mk (.qgroup mn mx) cs l => by simp only [Node.queryText, queryTexts_same h cs]
  | .mk .sequence cs l => by simp only [Node.queryText, queryTexts_same h cs]
  | .mk .disjunction cs l => by simp only [Node.queryText, queryTexts_same h cs]
  | .mk .withWithin cs l => by simp only [Node.queryText, queryTexts_same h cs]
  | .mk (.within sc) cs l => rfl
  | .mk (.expression ..) cs l => rfl
  | .mk .wildcard cs l => rfl
  | .mk .group cs l => rfl
  | .mk .not cs l => rfl
  | .mk .and cs l => rfl
  | .mk .or cs l => rfl
theorem queryTexts_same {rt : PyRuntime} {cfg cfg' : Config} (h : SameTexts rt cfg cfg') : ∀ ns : List Node, Node.queryTexts cfg' ns = Node.queryTexts cfg ns
  | [] => rfl
  | n :: ns => by simp only [Node.queryTexts, queryText_same h n, queryTexts_same h ns]
end

theorem goodValue_same {rt : PyRuntime} {cfg cfg' : Config} (h : SameTexts rt cfg cfg') {v : PyStr} (hv : GoodValue rt cfg v) : GoodValue rt cfg' v := by
  unfold GoodValue at *
  rwa [h.norm]

theorem goodExpr_same {rt : PyRuntime} {cfg cfg' : Config} (h : SameTexts rt cfg cfg') {n : Node} (hn : GoodExpr rt cfg n) : GoodExpr rt cfg' n :=
  GoodExpr.rec (motive_1 := fun n _ => GoodAtom rt cfg' n) (motive_2 := fun n _ => GoodExpr rt cfg' n)
    (fun h1 h2 h3 h4 => .comparison h1 h2 (goodValue_same h h3) h4) (fun _ ih => .group ih) (fun h1 h2 _ h4 ih => .chunks h1 h2 ih h4) hn

theorem goodItem_same {rt : PyRuntime} {cfg cfg' : Config} (h : SameTexts rt cfg cfg') {E E' : Node → Prop} (hE : ∀ e, E e → E' e) {n : Node} :
    (GoodItem rt cfg E n → GoodItem rt cfg' E' n) ∧ (GoodOperand rt cfg E n → GoodOperand rt cfg' E' n) := by
  have lit : ∀ {v : PyStr} {fl : Option FlagSet} {mn mx : Int}, GoodValue rt cfg v → GoodFlags fl → GoodBounds rt mn mx →
      GoodItem rt cfg' E' (.mk (.segment mn mx) [.mk (.expression none cfg.defaultIdentifier cfg.defaultOperator v fl) [] none] none) := by
    intro v fl mn mx h1 h2 h3
    rw [← h.ident, ← h.op]
    exact .literal (goodValue_same h h1) h2 h3
  constructor
  · exact fun hn => GoodItem.rec (motive_1 := fun n _ => GoodItem rt cfg' E' n) (motive_2 := fun n _ => GoodContent rt cfg' E' n) (motive_3 := fun n _ => GoodOperand rt cfg' E' n)
      lit (fun h => .any h) (fun h1 h2 => .bracket (hE _ h1) h2) (fun _ h2 ih => .group ih h2) (fun h1 _ ih => .sequence h1 ih) (fun h1 _ ih => .disjunction h1 ih)
      (fun _ ih => .segment ih) (fun h1 _ ih => .sequence h1 ih) (fun _ ih => .group ih) hn
  · exact fun hn => GoodOperand.rec (motive_1 := fun n _ => GoodItem rt cfg' E' n) (motive_2 := fun n _ => GoodContent rt cfg' E' n) (motive_3 := fun n _ => GoodOperand rt cfg' E' n)
      lit (fun h => .any h) (fun h1 h2 => .bracket (hE _ h1) h2) (fun _ h2 ih => .group ih h2) (fun h1 _ ih => .sequence h1 ih) (fun h1 _ ih => .disjunction h1 ih)
      (fun _ ih => .segment ih) (fun h1 _ ih => .sequence h1 ih) (fun _ ih => .group ih) hn

theorem goodQuery_same {rt : PyRuntime} {cfg cfg' : Config} (h : SameTexts rt cfg cfg') {E E' : Node → Prop} (hE : ∀ e, E e → E' e) {n : Node}
    (hn : GoodQuery rt cfg E n) : GoodQuery rt cfg' E' n := by
  have main : ∀ {n : Node}, GoodMain rt cfg E n → GoodMain rt cfg' E' n := by
    intro n hn
    cases hn with
    | item h1 => exact .item ((goodItem_same h hE).1 h1)
    | sequence h1 h2 => exact .sequence h1 fun m hm => (goodItem_same h hE).1 (h2 m hm)
    | disjunction h1 h2 => exact .disjunction h1 fun m hm => (goodItem_same h hE).2 (h2 m hm)
  cases hn with
  | main h1 => exact .main (main h1)
  | within h1 => exact .within (main h1)

/-- **C47.** With any settings, up to source locations. -/
theorem C47_round_trip_located (rt : Runtime) (cfg : Config) (n : Node)
    (h : GoodQuery rt.toPyRuntime cfg (GoodExpr rt.toPyRuntime cfg) n) :
    ∃ n', (parseQuery rt cfg (n.queryText cfg)).1 = .ok n' ∧ n'.unlocated = n := by
  have hs : SameTexts rt.toPyRuntime cfg { cfg with enableSourceLocations := false } := ⟨rfl, rfl, rfl⟩
  rw [← queryText_same hs]
  exact parse_on (C47_round_trip rt { cfg with enableSourceLocations := false } rfl n (goodQuery_same hs (fun e he => goodExpr_same hs he) h))

example : ∃ n', (parseQuery rt0 locConfig (sampleTree.queryText locConfig)).1 = .ok n' ∧ n'.unlocated = sampleTree :=
  C47_round_trip_located rt0 locConfig sampleTree
    (goodQuery_same (cfg := defaultConfig) (cfg' := locConfig) ⟨rfl, rfl, rfl⟩ (fun _ h => goodExpr_same (cfg := defaultConfig) (cfg' := locConfig) ⟨rfl, rfl, rfl⟩ h) sampleTree_good)

/-- **C47.** The tree of every query that parses can be written: its text parses, to the same tree (source locations aside), provided
the normalisation is idempotent (as the Unicode normalisation forms are). -/
theorem C47_reprint (rt : Runtime) (cfg : Config) (hn : NormOk rt.toPyRuntime cfg) (q : PyStr) (n : Node) (h : (parseQuery rt cfg q).1 = .ok n) :
    ∃ n', (parseQuery rt cfg (n.unlocated.queryText cfg)).1 = .ok n' ∧ n'.unlocated = n.unlocated := by
  have hs : SameTexts rt.toPyRuntime cfg { cfg with enableSourceLocations := false } := ⟨rfl, rfl, rfl⟩
  rw [← queryText_same hs]
  exact parse_on (goodQuery_text rfl (fun _ h => h) (query_image (cfg := { cfg with enableSourceLocations := false }) rfl hn (parse_off h)))

/-- `rt0` leaves strings as they are, so its normalisation is idempotent; the text of the tree of a query with other spacing, quotes
and quantifiers, and an operator precedence that is none of C47's trees. -/
example : NormOk rt0.toPyRuntime defaultConfig ∧ (parseQuery rt0 defaultConfig py!" [ ! a='b' | c='d' & e='f' | g='h' ] {007,} ").1.isOk = true :=
  ⟨fun _ hs => ⟨hs, rfl⟩, by decide +kernel⟩

theorem normOk_none {rt : PyRuntime} {cfg : Config} (h : cfg.normForm = none) : NormOk rt cfg := by
  intro s hs
  have e : ∀ s, cfg.norm rt s = s := by intro s; simp [Config.norm, h]
  simp only [e]
  exact ⟨hs, trivial⟩

/-- **C47.** In particular, without normalisation. -/
theorem C47_reprint_plain (rt : Runtime) (cfg : Config) (hf : cfg.normForm = none) (q : PyStr) (n : Node) (h : (parseQuery rt cfg q).1 = .ok n) :
    ∃ n', (parseQuery rt cfg (n.unlocated.queryText cfg)).1 = .ok n' ∧ n'.unlocated = n.unlocated :=
  C47_reprint rt cfg (normOk_none hf) q n h

example : (parseQuery rt0 { defaultConfig with normForm := none } py!"'a' {,3}").1.isOk = true := by decide +kernel

end Fcsql
