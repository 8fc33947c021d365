/-
Written queries are read back.
-/
import Verif.Proofs.PrintExpr

set_option autoImplicit false
set_option linter.unusedSimpArgs false

namespace Fcsql

attribute [local irreducible] parseQuery

/-- The text ends with a character that is neither whitespace nor the end of a quantifier. -/
def EndsPlain (q : PyStr) : Prop := ∃ c, q.getLast? = some c ∧ isWs c = false ∧ c ∉ py!"*+?}"

theorem EndsPlain.snoc {a : PyStr} {c : Nat} (h1 : isWs c = false) (h2 : c ∉ py!"*+?}") : EndsPlain (a ++ [c]) :=
  ⟨c, by simp, h1, h2⟩

theorem regexText_ends {v : PyStr} {fl : Option FlagSet} (hf : GoodFlags fl) : EndsPlain (regexText v fl) := by
  cases fl with
  | none =>
    have : regexText v none = (34 :: (v.flatMap fun c => if c = 92 ∨ c = 34 then [92, c] else [c])) ++ [34] := by simp [regexText, quoteStr]
    rw [this]
    exact .snoc (by decide) (by decide)
  | some fs =>
    have hne := (isFlags_text (hf fs rfl).2).1
    obtain h | ⟨l, x, h⟩ := snoc_cases (flagsText fs)
    · exact absurd h hne
    have hx := (isFlags_text (hf fs rfl).2).2 x (by simp [h])
    have : regexText v (some fs) = (quoteStr 34 v ++ py!"/" ++ l) ++ [x] := by simp [regexText, h]
    rw [this]
    have hx : x = 105 ∨ x = 73 ∨ x = 99 ∨ x = 67 ∨ x = 108 ∨ x = 100 := by simpa using hx
    rcases hx with rfl | rfl | rfl | rfl | rfl | rfl <;> exact .snoc (by decide) (by decide)

theorem literal_parse {rt : Runtime} {cfg : Config} (hc : cfg.enableSourceLocations = false) {v : PyStr} {fl : Option FlagSet}
    (hv : GoodValue rt.toPyRuntime cfg v) (hf : GoodFlags fl) : (parseQuery rt cfg (regexText v fl)).1 =
      .ok (.mk (.segment 1 1) [.mk (.expression none cfg.defaultIdentifier cfg.defaultOperator v fl) [] none] none) := by
  rw [parse_laid rt hc (regex_laid hv.1 hf)]
  left
  have wf : (CQ.implicit (regexSyntax v fl) none).WF := ⟨regex_wf v fl, by simp [optQuantWF]⟩
  refine ⟨_, wf, ?_, best_implicit wf, (by rintro x h; cases h), v, fl, 1, 1, regex_denotes hv hf, ⟨rfl, rfl⟩, by rw [span_none hc, span_none hc]⟩
  rw [lv_implicit, regex_lv, quantLv_none, List.append_nil]

theorem wildcard_parse {rt : Runtime} {cfg : Config} (hc : cfg.enableSourceLocations = false) : (parseQuery rt cfg py!"[]").1 =
      .ok (.mk (.segment 1 1) [.mk .wildcard [] none] none) := by
  have hl := laid_bracket (Laid.nil (ws := []) (by simp))
  have : py!"[" ++ [] ++ py!"]" = py!"[]" := rfl
  rw [this] at hl
  rw [parse_laid rt hc hl]
  left
  have wf : (CQ.segment lsq none rsq none).WF := ⟨rfl, by rintro x ⟨⟩, rfl, by simp [optQuantWF]⟩
  refine ⟨_, wf, ?_, best_segment wf trivial, (by rintro x h; cases h), _, 1, 1, rfl, ⟨rfl, rfl⟩, by rw [span_none hc, span_none hc]⟩
  rw [lv_segment, exprLv_none, quantLv_none]
  simp [lsq, rsq]

/-- What is needed of the expressions in brackets. -/
def ReadsBack (rt : Runtime) (cfg : Config) (e : Node) : Prop :=
  ExprOf rt cfg e.exprText e ∧ ∀ ql i o v fl cs l, e = .mk (.expression ql i o v fl) cs l →
    cs = [] ∧ l = none ∧ GoodValue rt.toPyRuntime cfg v ∧ GoodFlags fl

theorem content_parse {rt : Runtime} {cfg : Config} (hc : cfg.enableSourceLocations = false) {e : Node} (h : ReadsBack rt cfg e) :
    (parseQuery rt cfg (contentText cfg [e])).1 = .ok (.mk (.segment 1 1) [e] none) ∧ EndsPlain (contentText cfg [e]) := by
  obtain ⟨h1, h2⟩ := h
  have hp := bracket_parse hc h1
  have hend : EndsPlain (py!"[" ++ e.exprText ++ py!"]") := .snoc (by decide) (by decide)
  have hw : e.kind ≠ .wildcard := by
    obtain ⟨ts, x, -, -, -, -, h5⟩ := h1
    exact denotes_not_wildcard h5
  unfold contentText
  split
  · rename_i heq; simp only [List.cons.injEq, and_true] at heq; subst heq; exact absurd rfl hw
  · rename_i ql i o v fl cs l heq
    simp only [List.cons.injEq, and_true] at heq
    split
    · rename_i hd
      obtain ⟨rfl, rfl, rfl⟩ := hd
      obtain ⟨rfl, rfl, g1, g2⟩ := h2 _ _ _ _ _ _ _ heq
      subst heq
      exact ⟨literal_parse hc g1 g2, regexText_ends g2⟩
    · subst heq; exact ⟨hp, hend⟩
  · rename_i heq; simp only [List.cons.injEq, and_true] at heq; subst heq; exact ⟨hp, hend⟩
  · rename_i h3; exact absurd rfl (h3 e)

theorem bounded_parse {rt : Runtime} {cfg : Config} (hc : cfg.enableSourceLocations = false) {Q : PyStr} {n : Node} (h : (parseQuery rt cfg Q).1 = .ok n)
    (hn : n.isItem) (he : EndsPlain Q) {mn mx : Int} (hb : GoodBounds rt.toPyRuntime mn mx) (h1 : n.kind = n.kind.withBounds 1 1) (h0 : n.loc = none) :
    (parseQuery rt cfg (Q ++ boundsText mn mx)).1 = .ok (.mk (n.kind.withBounds mn mx) n.children none) := by
  rcases boundsText_spec hb with ⟨e, rfl, rfl⟩ | hq
  · rw [e, List.append_nil, h, ← h1]
    cases n
    simp only [Node.loc] at h0
    subst h0
    rfl
  · obtain ⟨c, e1, e2, e3⟩ := he
    exact C51_quantifier rt cfg hc Q _ n c mn mx h hn e1 e2 e3 hq

theorem queryTexts_map (cfg : Config) (ns : List Node) : Node.queryTexts cfg ns = ns.map (Node.queryText cfg) := by
  induction ns with
  | nil => rfl
  | cons n ns ih => simp [Node.queryTexts, ih]

def ItemBack (rt : Runtime) (cfg : Config) (n : Node) : Prop := (parseQuery rt cfg (n.queryText cfg)).1 = .ok n ∧ n.isItem
def OperandBack (rt : Runtime) (cfg : Config) (n : Node) : Prop := ∃ p, (parseQuery rt cfg (n.queryText cfg)).1 = .ok p ∧ p.isOperand ∧ p.asOperand = n
def ContentBack (rt : Runtime) (cfg : Config) (n : Node) : Prop :=
  ∃ p, (parseQuery rt cfg (n.queryText cfg)).1 = .ok p ∧ p.kind ≠ .withWithin ∧ p.asContent = n

theorem sequence_back {rt : Runtime} {cfg : Config} (hc : cfg.enableSourceLocations = false) {ns : List Node} (hl : 2 ≤ ns.length)
    (h : ∀ n ∈ ns, ItemBack rt cfg n) : (parseQuery rt cfg ((Node.mk .sequence ns none).queryText cfg)).1 = .ok (.mk .sequence ns none) := by
  have := C45_sequence rt cfg hc (ns.map fun n => (n.queryText cfg, n)) (by simpa using hl) (by
    intro p hp
    obtain ⟨n, hn, rfl⟩ := List.mem_map.1 hp
    exact h n hn)
  simpa [Node.queryText, queryTexts_map, Function.comp_def] using this

theorem disjunction_back {rt : Runtime} {cfg : Config} (hc : cfg.enableSourceLocations = false) {ns : List Node} (hl : 2 ≤ ns.length)
    (h : ∀ n ∈ ns, OperandBack rt cfg n) : (parseQuery rt cfg ((Node.mk .disjunction ns none).queryText cfg)).1 = .ok (.mk .disjunction ns none) := by
  have hchoice : ∀ n : Node, ∃ p, n ∈ ns → (parseQuery rt cfg (n.queryText cfg)).1 = .ok p ∧ p.isOperand ∧ p.asOperand = n := by
    intro n
    by_cases hn : n ∈ ns
    · obtain ⟨p, hp⟩ := h n hn
      exact ⟨p, fun _ => hp⟩
    · exact ⟨n, fun h => absurd h hn⟩
  obtain ⟨F, hF⟩ := Classical.axiomOfChoice hchoice
  have := C46_disjunction rt cfg hc (ns.map fun n => (n.queryText cfg, F n)) (by simpa using hl) (by
    intro p hp
    obtain ⟨n, hn, rfl⟩ := List.mem_map.1 hp
    exact ⟨(hF n hn).1, (hF n hn).2.1⟩)
  have e : (ns.map fun n => (n.queryText cfg, F n)).map (fun p => p.2.asOperand) = ns := by
    rw [List.map_map]
    conv => rhs; rw [← List.map_id ns]
    exact List.map_congr_left fun n hn => (hF n hn).2.2
  rw [e] at this
  simpa [Node.queryText, queryTexts_map, Function.comp_def] using this

theorem goodItem_text {rt : Runtime} {cfg : Config} (hc : cfg.enableSourceLocations = false) {E : Node → Prop} (hE : ∀ e, E e → ReadsBack rt cfg e)
    {n : Node} : (GoodItem rt.toPyRuntime cfg E n → ItemBack rt cfg n) ∧ (GoodOperand rt.toPyRuntime cfg E n → OperandBack rt cfg n) := by
  have lit : ∀ {v : PyStr} {fl : Option FlagSet} {mn mx : Int}, GoodValue rt.toPyRuntime cfg v → GoodFlags fl → GoodBounds rt.toPyRuntime mn mx →
      ItemBack rt cfg (.mk (.segment mn mx) [.mk (.expression none cfg.defaultIdentifier cfg.defaultOperator v fl) [] none] none) := by
    intro v fl mn mx h1 h2 h3
    refine ⟨?_, .inl ⟨_, _, rfl⟩⟩
    have := bounded_parse hc (literal_parse hc h1 h2) (.inl ⟨_, _, rfl⟩) (regexText_ends h2) h3 rfl rfl
    simpa [Node.queryText, contentText, Kind.withBounds, Node.kind, Node.children] using this
  have wild : ∀ {mn mx : Int}, GoodBounds rt.toPyRuntime mn mx → ItemBack rt cfg (.mk (.segment mn mx) [.mk .wildcard [] none] none) := by
    intro mn mx h3
    refine ⟨?_, .inl ⟨_, _, rfl⟩⟩
    have := bounded_parse hc (wildcard_parse (rt := rt) hc) (.inl ⟨_, _, rfl⟩) ⟨93, rfl, by decide, by decide⟩ h3 rfl rfl
    simpa [Node.queryText, contentText, Kind.withBounds, Node.kind, Node.children] using this
  have brk : ∀ {e : Node} {mn mx : Int}, E e → GoodBounds rt.toPyRuntime mn mx → ItemBack rt cfg (.mk (.segment mn mx) [e] none) := by
    intro e mn mx h1 h3
    refine ⟨?_, .inl ⟨_, _, rfl⟩⟩
    obtain ⟨k1, k2⟩ := content_parse hc (hE e h1)
    have := bounded_parse hc k1 (.inl ⟨_, _, rfl⟩) k2 h3 rfl rfl
    simpa only [Node.queryText, Kind.withBounds, Node.kind, Node.children] using this
  have grp : ∀ {n : Node} {mn mx : Int}, ContentBack rt cfg n → GoodBounds rt.toPyRuntime mn mx → ItemBack rt cfg (.mk (.qgroup mn mx) [n] none) := by
    rintro n mn mx ⟨p, h1, h2, rfl⟩ h3
    refine ⟨?_, .inr ⟨_, _, rfl⟩⟩
    have := bounded_parse hc (C50_group rt cfg hc _ p h1 h2) (.inr ⟨_, _, rfl⟩) (.snoc (by decide) (by decide)) h3 rfl rfl
    simpa only [Node.queryText, Node.queryTexts, joinWith, Kind.withBounds, Node.kind, Node.children] using this
  have cseq : ∀ {ns : List Node}, ns ≠ [] → (∀ n ∈ ns, ItemBack rt cfg n) → ContentBack rt cfg (.mk .sequence ns none) := by
    intro ns h1 h2
    match ns, h1 with
    | [m], _ =>
      obtain ⟨k1, k2⟩ := h2 m (by simp)
      refine ⟨m, by simpa [Node.queryText, Node.queryTexts, joinWith] using k1, ?_, ?_⟩
      · rcases k2 with ⟨a, b, k⟩ | ⟨a, b, k⟩ <;> simp [k]
      · rcases k2 with ⟨a, b, k⟩ | ⟨a, b, k⟩ <;> simp [Node.asContent, k]
    | a :: b :: ns, _ => exact ⟨_, sequence_back hc (by simp) h2, by simp [Node.kind], by simp [Node.asContent, Node.kind]⟩
  have oseq : ∀ {ns : List Node}, 2 ≤ ns.length → (∀ n ∈ ns, ItemBack rt cfg n) → OperandBack rt cfg (.mk .sequence ns none) := by
    intro ns h1 h2
    exact ⟨_, sequence_back hc h1 h2, .inr rfl, by simp [Node.asOperand, Node.kind]⟩
  have ogrp : ∀ {mn mx : Int} {cs : List Node}, ItemBack rt cfg (.mk (.qgroup mn mx) cs none) → OperandBack rt cfg (.mk .sequence [.mk (.qgroup mn mx) cs none] none) := by
    intro mn mx cs h
    exact ⟨_, by simpa [Node.queryText, Node.queryTexts, joinWith] using h.1, .inl h.2, by simp [Node.asOperand, Node.kind]⟩
  have oseg : ∀ {mn mx : Int} {cs : List Node}, ItemBack rt cfg (.mk (.segment mn mx) cs none) → OperandBack rt cfg (.mk (.segment mn mx) cs none) := by
    intro mn mx cs h
    exact ⟨_, h.1, .inl h.2, by simp [Node.asOperand, Node.kind]⟩
  have cdis : ∀ {ns : List Node}, 2 ≤ ns.length → (∀ n ∈ ns, OperandBack rt cfg n) → ContentBack rt cfg (.mk .disjunction ns none) := by
    intro ns h1 h2
    exact ⟨_, disjunction_back hc h1 h2, by simp [Node.kind], by simp [Node.asContent, Node.kind]⟩
  constructor
  · exact fun h => GoodItem.rec (motive_1 := fun n _ => ItemBack rt cfg n) (motive_2 := fun n _ => ContentBack rt cfg n) (motive_3 := fun n _ => OperandBack rt cfg n)
      lit wild brk (fun _ h2 ih => grp ih h2) (fun h1 _ ih => cseq h1 ih) (fun h1 _ ih => cdis h1 ih) (fun _ ih => oseg ih) (fun h1 _ ih => oseq h1 ih) (fun _ ih => ogrp ih) h
  · exact fun h => GoodOperand.rec (motive_1 := fun n _ => ItemBack rt cfg n) (motive_2 := fun n _ => ContentBack rt cfg n) (motive_3 := fun n _ => OperandBack rt cfg n)
      lit wild brk (fun _ h2 ih => grp ih h2) (fun h1 _ ih => cseq h1 ih) (fun h1 _ ih => cdis h1 ih) (fun _ ih => oseg ih) (fun h1 _ ih => oseq h1 ih) (fun _ ih => ogrp ih) h

/-- The text of a well-formed query is read back. -/
theorem goodQuery_text {rt : Runtime} {cfg : Config} (hc : cfg.enableSourceLocations = false) {E : Node → Prop} (hE : ∀ e, E e → ReadsBack rt cfg e)
    {n : Node} (h : GoodQuery rt.toPyRuntime cfg E n) : (parseQuery rt cfg (n.queryText cfg)).1 = .ok n := by
  have main : ∀ {n : Node}, GoodMain rt.toPyRuntime cfg E n → (parseQuery rt cfg (n.queryText cfg)).1 = .ok n ∧ n.kind ≠ .withWithin := by
    intro n h
    cases h with
    | item h =>
      obtain ⟨h1, h2⟩ := (goodItem_text hc hE).1 h
      exact ⟨h1, by rcases h2 with ⟨a, b, k⟩ | ⟨a, b, k⟩ <;> simp [k]⟩
    | sequence h1 h2 => exact ⟨sequence_back hc h1 fun n hn => (goodItem_text hc hE).1 (h2 n hn), by simp [Node.kind]⟩
    | disjunction h1 h2 => exact ⟨disjunction_back hc h1 fun n hn => (goodItem_text hc hE).2 (h2 n hn), by simp [Node.kind]⟩
  cases h with
  | main h => exact (main h).1
  | @within m sc h =>
    obtain ⟨h1, h2⟩ := main h
    have := (C44_within rt cfg hc (m.queryText cfg) (scopeText sc) sc (by cases sc <;> decide) _).2 ⟨m, h1, h2, rfl⟩
    simpa [Node.queryText, Node.queryTexts, joinWith] using this

end Fcsql
