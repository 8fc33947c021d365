/-
Derivations, and trees without locations, do not depend on the positions of the tokens.
-/
import Verif.Proofs.Parse
import Verif.Proofs.Layout

set_option autoImplicit false
set_option linter.unusedSimpArgs false
set_option linter.unusedSectionVars false

namespace Fcsql

mutual
/-- Apply a function to every token of a parse tree. -/
def PTree.map (f : Tok → Tok) : PTree → PTree
  | .leaf t => .leaf (f t)
  | .node r ks => .node r (PTree.mapL f ks)
def PTree.mapL (f : Tok → Tok) : List PTree → List PTree
  | [] => []
  | t :: ts => t.map f :: PTree.mapL f ts
end

theorem mapL_append (f : Tok → Tok) (a b : List PTree) : PTree.mapL f (a ++ b) = PTree.mapL f a ++ PTree.mapL f b := by
  induction a with
  | nil => simp [PTree.mapL]
  | cons t a ih => simp [PTree.mapL, ih]

/-- The function keeps types. -/
structure KeepsType (f : Tok → Tok) : Prop where
  type : ∀ t, (f t).type = t.type

/-- The function keeps type and text. -/
structure Keeps (f : Tok → Tok) : Prop where
  type : ∀ t, (f t).type = t.type
  text : ∀ t, (f t).text = t.text

instance {f : Tok → Tok} : Coe (Keeps f) (KeepsType f) := ⟨fun h => ⟨h.type⟩⟩

/-- The token without its position. -/
def Tok.erase (t : Tok) : Tok := { t with start := 0, stop := 0 }

theorem keeps_erase : Keeps Tok.erase := ⟨fun _ => rfl, fun _ => rfl⟩

variable {f : Tok → Tok}

theorem D.map (hf : ∀ t, (f t).type = t.type) {g : G} {ts : List Tok} {F : List PTree} {c : List Bool} (h : D g ts F c) :
    D g (ts.map f) (PTree.mapL f F) c := by
  induction h with
  | eps => simp only [List.map_nil, PTree.mapL]; exact .eps
  | tok h => simp only [List.map_cons, List.map_nil, PTree.mapL, PTree.map]; exact .tok (by rw [hf, h])
  | rule _ ih => simp only [PTree.mapL, PTree.map]; exact .rule ih
  | seq _ _ iha ihb => rw [List.map_append, mapL_append]; exact .seq iha ihb
  | altL _ ih => exact .altL ih
  | altR _ ih => exact .altR ih
  | starNil => simp only [List.map_nil, PTree.mapL]; exact .starNil
  | starCons _ _ iha ihb => rw [List.map_append, mapL_append]; exact .starCons iha ihb

theorem D.unmap (hf : ∀ t, (f t).type = t.type) {g : G} {us : List Tok} {F : List PTree} {c : List Bool} (h : D g us F c) :
    ∀ ts : List Tok, us = ts.map f → ∃ F', D g ts F' c ∧ F = PTree.mapL f F' := by
  induction h with
  | eps =>
    intro ts h
    obtain rfl : ts = [] := by simpa using h.symm
    exact ⟨[], .eps, rfl⟩
  | @tok t x h =>
    intro ts e
    cases ts with
    | nil => cases e
    | cons y ys =>
      simp only [List.map_cons, List.cons.injEq] at e
      obtain ⟨rfl, e⟩ := e
      obtain rfl : ys = [] := by simpa using e.symm
      exact ⟨_, .tok (by rw [← h, hf]), rfl⟩
  | rule _ ih =>
    intro ts e
    obtain ⟨F', h1, rfl⟩ := ih ts e
    exact ⟨_, .rule h1, rfl⟩
  | seq _ _ iha ihb =>
    intro ts e
    obtain ⟨a, b, rfl, ha, hb⟩ := List.append_eq_map_iff.1 e
    obtain ⟨F1, h1, rfl⟩ := iha a ha.symm
    obtain ⟨F2, h2, rfl⟩ := ihb b hb.symm
    exact ⟨_, .seq h1 h2, (mapL_append _ _ _).symm⟩
  | altL _ ih =>
    intro ts e
    obtain ⟨F', h1, rfl⟩ := ih ts e
    exact ⟨_, .altL h1, rfl⟩
  | altR _ ih =>
    intro ts e
    obtain ⟨F', h1, rfl⟩ := ih ts e
    exact ⟨_, .altR h1, rfl⟩
  | starNil =>
    intro ts h
    obtain rfl : ts = [] := by simpa using h.symm
    exact ⟨[], .starNil, rfl⟩
  | starCons _ _ iha ihb =>
    intro ts e
    obtain ⟨a, b, rfl, ha, hb⟩ := List.append_eq_map_iff.1 e
    obtain ⟨F1, h1, rfl⟩ := iha a ha.symm
    obtain ⟨F2, h2, rfl⟩ := ihb b hb.symm
    exact ⟨_, .starCons h1 h2, (mapL_append _ _ _).symm⟩

theorem Chosen.map (hf : ∀ t, (f t).type = t.type) {g : G} {ts : List Tok} {F : List PTree} {c : List Bool} (h : Chosen g ts F c) :
    Chosen g (ts.map f) (PTree.mapL f F) c := by
  refine ⟨h.derives.map hf, ?_⟩
  intro F' c' h'
  obtain ⟨F'', h1, rfl⟩ := h'.unmap hf ts rfl
  rcases h.first _ _ h1 with ⟨rfl, rfl⟩ | hb
  · exact .inl ⟨rfl, rfl⟩
  · exact .inr hb

/-- Parsing commutes with relabelling. -/
theorem parseTokens_map (hf : Keeps f) (ts : List Tok) : parseTokens (ts.map f) = (parseTokens ts).map (PTree.map f) := by
  cases h : parseTokens ts with
  | some t =>
    obtain ⟨c, hc⟩ := (parseTokens_some _ _).1 h
    exact (parseTokens_some _ _).2 ⟨c, hc.map hf.type⟩
  | none =>
    rw [parseTokens_none] at h
    refine (parseTokens_none _).2 ?_
    rintro ⟨F, c, hc⟩
    obtain ⟨F', h1, -⟩ := hc.unmap hf.type ts rfl
    exact h ⟨F', c, h1⟩

/-! ### Concrete syntax trees -/

def optMap2 (f : Tok → Tok) : Option (Tok × Tok) → Option (Tok × Tok)
  | none => none
  | some (a, b) => some (f a, f b)

def CRegexp.map (f : Tok → Tok) (r : CRegexp) : CRegexp := ⟨f r.pat, optMap2 f r.flags⟩
def CAttr.map (f : Tok → Tok) (a : CAttr) : CAttr := ⟨optMap2 f a.qual, f a.ident⟩
def CQuant.map (f : Tok → Tok) : CQuant → CQuant
  | .sym t => .sym (f t)
  | .exactly lb n rb => .exactly (f lb) (f n) (f rb)
  | .range lb n c m rb => .range (f lb) (n.map f) (f c) (m.map f) (f rb)

mutual
def CExpr.map (f : Tok → Tok) : CExpr → CExpr
  | .basic a op r => .basic (a.map f) (f op) (r.map f)
  | .group lp e rp => .group (f lp) (e.map f) (f rp)
  | .or e rest => .or (e.map f) (rest.map f)
  | .and e rest => .and (e.map f) (rest.map f)
  | .not b e => .not (f b) (e.map f)
def CTail.map (f : Tok → Tok) : CTail → CTail
  | .nil => .nil
  | .cons op e rest => .cons (f op) (e.map f) (rest.map f)
end

mutual
def CQ.map (f : Tok → Tok) : CQ → CQ
  | .implicit r q => .implicit (r.map f) (q.map (CQuant.map f))
  | .segment lb e rb q => .segment (f lb) (e.map (CExpr.map f)) (f rb) (q.map (CQuant.map f))
  | .group lp c rp q => .group (f lp) (c.map f) (f rp) (q.map (CQuant.map f))
  | .seq c rest => .seq (c.map f) (rest.map f)
  | .disj c rest => .disj (c.map f) (rest.map f)
def CQTail.map (f : Tok → Tok) : CQTail → CQTail
  | .nil => .nil
  | .cons sep c rest => .cons (sep.map f) (c.map f) (rest.map f)
end

def CQuery.map (f : Tok → Tok) (q : CQuery) : CQuery := ⟨q.main.map f, optMap2 f q.within, f q.eof⟩

theorem CRegexp.toTree_map (r : CRegexp) : (r.map f).toTree = r.toTree.map f := by
  rcases r with ⟨p, _ | ⟨s, g⟩⟩ <;> simp [CRegexp.map, CRegexp.toTree, PTree.map, PTree.mapL, optMap2]

theorem CAttr.toTree_map (a : CAttr) : (a.map f).toTree = a.toTree.map f := by
  rcases a with ⟨_ | ⟨s, g⟩, i⟩ <;> simp [CAttr.map, CAttr.toTree, PTree.map, PTree.mapL, optMap2]

theorem mapL_optLeaf (o : Option Tok) : optLeaf (o.map f) = PTree.mapL f (optLeaf o) := by
  cases o <;> simp [optLeaf, PTree.mapL, PTree.map]

theorem CQuant.forest_map (q : CQuant) : (q.map f).forest = PTree.mapL f q.forest := by
  cases q with
  | sym t => simp [CQuant.map, CQuant.forest, PTree.mapL, PTree.map]
  | exactly lb n rb => simp [CQuant.map, CQuant.forest, PTree.mapL, PTree.map]
  | range lb n c m rb => simp [CQuant.map, CQuant.forest, PTree.mapL, PTree.map, mapL_append, mapL_optLeaf]

theorem optQuant_map (q : Option CQuant) : optQuant (q.map (CQuant.map f)) = PTree.mapL f (optQuant q) := by
  cases q <;> simp [optQuant, PTree.mapL, PTree.map, CQuant.forest_map]

mutual
theorem CExpr.toTree_map : ∀ e : CExpr, (e.map f).toTree = e.toTree.map f
  | .basic a op r => by simp [CExpr.map, CExpr.toTree, PTree.map, PTree.mapL, CAttr.toTree_map, CRegexp.toTree_map]
  | .group lp e rp => by simp [CExpr.map, CExpr.toTree, PTree.map, PTree.mapL, CExpr.toTree_map e]
  | .or e rest => by simp [CExpr.map, CExpr.toTree, PTree.map, PTree.mapL, CExpr.toTree_map e, CTail.forest_map rest]
  | .and e rest => by simp [CExpr.map, CExpr.toTree, PTree.map, PTree.mapL, CExpr.toTree_map e, CTail.forest_map rest]
  | .not b e => by simp [CExpr.map, CExpr.toTree, PTree.map, PTree.mapL, CExpr.toTree_map e]
theorem CTail.forest_map : ∀ e : CTail, (e.map f).forest = PTree.mapL f e.forest
  | .nil => by simp [CTail.map, CTail.forest, PTree.mapL]
  | .cons op e rest => by simp [CTail.map, CTail.forest, PTree.mapL, PTree.map, CExpr.toTree_map e, CTail.forest_map rest]
end

theorem optExpr_map (e : Option CExpr) : optExpr (e.map (CExpr.map f)) = PTree.mapL f (optExpr e) := by
  cases e <;> simp [optExpr, PTree.mapL, PTree.map, CExpr.toTree_map]

mutual
theorem CQ.toTree_map : ∀ c : CQ, (c.map f).toTree = c.toTree.map f
  | .implicit r q => by simp [CQ.map, CQ.toTree, PTree.map, PTree.mapL, CRegexp.toTree_map, optQuant_map]
  | .segment lb e rb q => by simp [CQ.map, CQ.toTree, PTree.map, PTree.mapL, optExpr_map, optQuant_map, mapL_append]
  | .group lp c rp q => by simp [CQ.map, CQ.toTree, PTree.map, PTree.mapL, CQ.toTree_map c, optQuant_map]
  | .seq c rest => by simp [CQ.map, CQ.toTree, PTree.map, PTree.mapL, CQ.toTree_map c, CQTail.forest_map rest]
  | .disj c rest => by simp [CQ.map, CQ.toTree, PTree.map, PTree.mapL, CQ.toTree_map c, CQTail.forest_map rest]
theorem CQTail.forest_map : ∀ c : CQTail, (c.map f).forest = PTree.mapL f c.forest
  | .nil => by simp [CQTail.map, CQTail.forest, PTree.mapL]
  | .cons sep c rest => by
    simp [CQTail.map, CQTail.forest, PTree.mapL, mapL_append, mapL_optLeaf, CQ.toTree_map c, CQTail.forest_map rest]
end

theorem CQuery.toTree_map (q : CQuery) : (q.map f).toTree = q.toTree.map f := by
  rcases q with ⟨m, _ | ⟨w, s⟩, e⟩ <;>
    simp [CQuery.map, CQuery.toTree, optMap2, optWithin, PTree.map, PTree.mapL, CQ.toTree_map]

mutual
theorem PTree.leaves_map : ∀ t : PTree, (t.map f).leaves = t.leaves.map f
  | .leaf t => by simp [PTree.map, PTree.leaves]
  | .node r ks => by simp [PTree.map, PTree.leaves, PTree.leavesL_map ks]
theorem PTree.leavesL_map : ∀ ts : List PTree, PTree.leavesL (PTree.mapL f ts) = (PTree.leavesL ts).map f
  | [] => by simp [PTree.mapL, PTree.leavesL]
  | t :: ts => by simp [PTree.mapL, PTree.leavesL, PTree.leaves_map t, PTree.leavesL_map ts]
end

/-! ### Well-formedness -/

section
variable (hf : KeepsType f)
include hf

theorem CRegexp.WF_map {r : CRegexp} (h : r.WF) : (r.map f).WF := by
  rcases r with ⟨p, _ | ⟨s, g⟩⟩ <;> simp_all [CRegexp.WF, CRegexp.map, optMap2, hf.type]

theorem CAttr.WF_map {a : CAttr} (h : a.WF) : (a.map f).WF := by
  rcases a with ⟨_ | ⟨s, g⟩, i⟩ <;> simp_all [CAttr.WF, CAttr.map, optMap2, hf.type, isNameTok]

theorem CQuant.WF_map {q : CQuant} (h : q.WF) : (q.map f).WF := by
  cases q with
  | sym t => simpa [CQuant.WF, CQuant.map, hf.type] using h
  | exactly lb n rb => simpa [CQuant.WF, CQuant.map, hf.type] using h
  | range lb n c m rb =>
    obtain ⟨h1, h2, h3, h4, h5, h6⟩ := h
    refine ⟨by rw [hf.type, h1], by rw [hf.type, h2], by rw [hf.type, h3], ?_, ?_, ?_⟩
    · rintro x hx
      obtain ⟨y, hy, rfl⟩ := Option.map_eq_some_iff.1 hx
      rw [hf.type, h4 y hy]
    · rintro x hx
      obtain ⟨y, hy, rfl⟩ := Option.map_eq_some_iff.1 hx
      rw [hf.type, h5 y hy]
    · simpa using h6

theorem optQuantWF_map {q : Option CQuant} (h : optQuantWF q) : optQuantWF (q.map (CQuant.map f)) := by
  intro x hx
  obtain ⟨y, hy, rfl⟩ := Option.map_eq_some_iff.1 hx
  exact CQuant.WF_map hf (h y hy)

omit hf in
theorem CExpr.rule_map (e : CExpr) : (e.map f).rule = e.rule := by cases e <;> simp [CExpr.map, CExpr.rule]
omit hf in
theorem CQ.rule_map (c : CQ) : (c.map f).rule = c.rule := by cases c <;> simp [CQ.map, CQ.rule]
omit hf in
theorem CTail.map_nil_iff (c : CTail) : c.map f = .nil ↔ c = .nil := by cases c <;> simp [CTail.map]
omit hf in
theorem CQTail.map_nil_iff (c : CQTail) : c.map f = .nil ↔ c = .nil := by cases c <;> simp [CQTail.map]

mutual
theorem CExpr.WF_map : ∀ e : CExpr, e.WF → (e.map f).WF
  | .basic a op r, h => by
    obtain ⟨h1, h2, h3⟩ := h
    refine ⟨CAttr.WF_map hf h1, ?_, CRegexp.WF_map hf h3⟩
    rw [hf.type]; exact h2
  | .group lp e rp, h => by
    obtain ⟨h1, h2, h3⟩ := h
    exact ⟨by rw [hf.type, h1], CExpr.WF_map e h2, by rw [hf.type, h3]⟩
  | .or e rest, h => by
    obtain ⟨h1, h2, h3, h4⟩ := h
    exact ⟨CExpr.WF_map e h1, by rw [CExpr.rule_map]; exact h2, by rw [ne_eq, CTail.map_nil_iff]; exact h3, CTail.WF_map rest _ _ h4⟩
  | .and e rest, h => by
    obtain ⟨h1, h2, h2', h3, h4⟩ := h
    exact ⟨CExpr.WF_map e h1, by rw [CExpr.rule_map]; exact h2, by rw [CExpr.rule_map]; exact h2',
      by rw [ne_eq, CTail.map_nil_iff]; exact h3, CTail.WF_map rest _ _ h4⟩
  | .not b e, h => by
    obtain ⟨h1, h2⟩ := h
    exact ⟨by rw [hf.type, h1], CExpr.WF_map e h2⟩
theorem CTail.WF_map : ∀ (c : CTail) (op : TokType) (no : Rule), c.WF op no → (c.map f).WF op no
  | .nil, _, _, _ => trivial
  | .cons o e rest, op, no, h => by
    obtain ⟨h1, h2, h3, h4⟩ := h
    exact ⟨by rw [hf.type, h1], CExpr.WF_map e h2, by rw [CExpr.rule_map]; exact h3, CTail.WF_map rest _ _ h4⟩
end

mutual
theorem CQ.WF_map : ∀ c : CQ, c.WF → (c.map f).WF
  | .implicit r q, h => ⟨CRegexp.WF_map hf h.1, optQuantWF_map hf h.2⟩
  | .segment lb e rb q, h => by
    obtain ⟨h1, h2, h3, h4⟩ := h
    refine ⟨by rw [hf.type, h1], ?_, by rw [hf.type, h3], optQuantWF_map hf h4⟩
    intro x hx
    obtain ⟨y, hy, rfl⟩ := Option.map_eq_some_iff.1 hx
    exact CExpr.WF_map hf y (h2 y hy)
  | .group lp c rp q, h => by
    obtain ⟨h1, h2, h3, h4, h5⟩ := h
    exact ⟨by rw [hf.type, h1], CQ.WF_map c h2, by rw [CQ.rule_map]; exact h3, by rw [hf.type, h4], optQuantWF_map hf h5⟩
  | .seq c rest, h => by
    obtain ⟨h1, h2, h3⟩ := h
    exact ⟨CQ.WF_map c h1, by rw [CQ.rule_map]; exact h2, CQTail.WFseq_map rest h3⟩
  | .disj c rest, h => by
    obtain ⟨h1, h2, h3, h4⟩ := h
    exact ⟨CQ.WF_map c h1, by rw [CQ.rule_map]; exact h2, by rw [ne_eq, CQTail.map_nil_iff]; exact h3, CQTail.WFdisj_map rest h4⟩
theorem CQTail.WFseq_map : ∀ c : CQTail, c.WFseq → (c.map f).WFseq
  | .nil, _ => trivial
  | .cons sep c rest, h => by
    obtain ⟨rfl, h2, h3, h4⟩ := h
    exact ⟨rfl, CQ.WF_map c h2, by rw [CQ.rule_map]; exact h3, CQTail.WFseq_map rest h4⟩
theorem CQTail.WFdisj_map : ∀ c : CQTail, c.WFdisj → (c.map f).WFdisj
  | .nil, _ => trivial
  | .cons sep c rest, h => by
    obtain ⟨⟨o, rfl, ho⟩, h2, h3, h4⟩ := h
    exact ⟨⟨f o, rfl, by rw [hf.type, ho]⟩, CQ.WF_map c h2, by rw [CQ.rule_map]; exact h3, CQTail.WFdisj_map rest h4⟩
end

theorem CQuery.WF_map {q : CQuery} (h : q.WF) : (q.map f).WF := by
  obtain ⟨h1, h2, h3⟩ := h
  refine ⟨CQ.WF_map hf _ h1, ?_, (hf.type _).trans h3⟩
  rintro w s e
  rcases q with ⟨m, _ | ⟨w', s'⟩, e'⟩
  · cases e
  · simp only [CQuery.map, optMap2, Option.some.injEq, Prod.mk.injEq] at e
    obtain ⟨rfl, rfl⟩ := e
    rw [hf.type, hf.type]
    exact h2 _ _ rfl

end

section
variable (hf : Keeps f)
include hf

theorem PTree.Lexed_map {t : PTree} (h : t.Lexed) : (t.map f).Lexed := by
  intro x hx
  rw [PTree.leaves_map] at hx
  obtain ⟨y, hy, rfl⟩ := List.mem_map.1 hx
  rcases h y hy with h | ⟨r, h1, h2⟩
  · exact .inl (by rw [hf.type, h])
  · exact .inr ⟨r, by rw [hf.type]; exact h1, by rw [hf.text]; exact h2⟩

/-! ### Meaning -/

variable {rt : PyRuntime} {cfg : Config} (hc : cfg.enableSourceLocations = false)

omit hf in
theorem span_none (hc : cfg.enableSourceLocations = false) (ts : List Tok) : cfg.span ts = none := by
  simp [Config.span, hc]

theorem CQuant.Bounds_map (q : CQuant) (mn mx : Int) : (q.map f).Bounds rt mn mx ↔ q.Bounds rt mn mx := by
  cases q with
  | sym t => simp [CQuant.map, CQuant.Bounds, hf.type]
  | exactly lb n rb => simp [CQuant.map, CQuant.Bounds, hf.text]
  | range lb n c m rb => cases n <;> cases m <;> simp [CQuant.map, CQuant.Bounds, hf.text]

theorem optBounds_map (q : Option CQuant) (mn mx : Int) : optBounds rt (q.map (CQuant.map f)) mn mx ↔ optBounds rt q mn mx := by
  cases q <;> simp [optBounds, CQuant.Bounds_map hf]

theorem CRegexp.Denotes_map (r : CRegexp) (v : PyStr) (fl : Option FlagSet) :
    (r.map f).Denotes rt cfg v fl ↔ r.Denotes rt cfg v fl := by
  rcases r with ⟨p, _ | ⟨s, g⟩⟩ <;> simp [CRegexp.Denotes, CRegexp.map, optMap2, hf.text]

theorem opSpec_map (t : Tok) (o : Operator) : opSpec (f t) o ↔ opSpec t o := by simp [opSpec, hf.type]

theorem attr_map (a : CAttr) : ((a.map f).qual.map fun p => p.1.text) = (a.qual.map fun p => p.1.text) ∧
    (a.map f).ident.text = a.ident.text := by
  rcases a with ⟨_ | ⟨s, g⟩, i⟩ <;> simp [CAttr.map, optMap2, hf.text]

include hc

mutual
theorem CExpr.Denotes_map : ∀ (e : CExpr) (n : Node), (e.map f).Denotes rt cfg n ↔ e.Denotes rt cfg n
  | .basic a op r, n => by
    simp [CExpr.map, CExpr.Denotes, CRegexp.Denotes_map hf, opSpec_map hf, span_none hc, attr_map hf a]
  | .group lp e rp, n => by simp [CExpr.map, CExpr.Denotes, span_none hc, CExpr.Denotes_map e]
  | .or e rest, n => by simp [CExpr.map, CExpr.Denotes, span_none hc, CExpr.Denotes_map e, CTail.Denotes_map rest]
  | .and e rest, n => by simp [CExpr.map, CExpr.Denotes, span_none hc, CExpr.Denotes_map e, CTail.Denotes_map rest]
  | .not b e, n => by simp [CExpr.map, CExpr.Denotes, span_none hc, CExpr.Denotes_map e]
theorem CTail.Denotes_map : ∀ (e : CTail) (ns : List Node), (e.map f).Denotes rt cfg ns ↔ e.Denotes rt cfg ns
  | .nil, ns => by simp [CTail.map, CTail.Denotes]
  | .cons op e rest, ns => by simp [CTail.map, CTail.Denotes, CExpr.Denotes_map e, CTail.Denotes_map rest]
end

theorem optDenotes_map (lb rb : Tok) (e : Option CExpr) (n : Node) :
    optDenotes rt cfg (f lb) (f rb) (e.map (CExpr.map f)) n ↔ optDenotes rt cfg lb rb e n := by
  cases e <;> simp [optDenotes, span_none hc, CExpr.Denotes_map hf hc]

mutual
theorem CQ.Denotes_map : ∀ (c : CQ) (n : Node), (c.map f).Denotes rt cfg n ↔ c.Denotes rt cfg n
  | .implicit r q, n => by simp [CQ.map, CQ.Denotes, CRegexp.Denotes_map hf, optBounds_map hf, span_none hc]
  | .segment lb e rb q, n => by simp [CQ.map, CQ.Denotes, optDenotes_map hf hc, optBounds_map hf, span_none hc]
  | .group lp c rp q, n => by simp [CQ.map, CQ.Denotes, CQ.Denotes_map c, optBounds_map hf, span_none hc]
  | .seq c rest, n => by simp [CQ.map, CQ.Denotes, CQ.Denotes_map c, CQTail.Denotes_map rest, span_none hc]
  | .disj c rest, n => by simp [CQ.map, CQ.Denotes, CQ.Denotes_map c, CQTail.Denotes_map rest, span_none hc]
theorem CQTail.Denotes_map : ∀ (c : CQTail) (ns : List Node), (c.map f).Denotes rt cfg ns ↔ c.Denotes rt cfg ns
  | .nil, ns => by simp [CQTail.map, CQTail.Denotes]
  | .cons sep c rest, ns => by simp [CQTail.map, CQTail.Denotes, CQ.Denotes_map c, CQTail.Denotes_map rest]
end

theorem CQuery.Denotes_map (q : CQuery) (n : Node) : (q.map f).Denotes rt cfg n ↔ q.Denotes rt cfg n := by
  rcases q with ⟨m, _ | ⟨w, s⟩, e⟩ <;>
    simp [CQuery.map, CQuery.Denotes, optMap2, CQ.Denotes_map hf hc, span_none hc, hf.text]

end

/-! ### Parsing by token texts only -/

/-- The tokens of a query without their positions. -/
def bareStream (q : PyStr) : List Tok := (tokenStream q).map Tok.erase

def Tok.ofWhat (p : TokType × PyStr) : Tok := ⟨p.1, p.2, 0, 0⟩

theorem eofTok_erase (q : PyStr) : (eofTok q).erase = ⟨.EOF, py!"<EOF>", 0, 0⟩ := rfl

theorem bareStream_eq (q : PyStr) :
    bareStream q = ((lexTokens q).map Tok.what).map Tok.ofWhat ++ [⟨.EOF, py!"<EOF>", 0, 0⟩] := by
  unfold bareStream tokenStream
  rw [List.map_append, List.map_map]
  rfl

/-- The syntax of a token list without positions. -/
structure BareSyntax (ts : List Tok) (cst : CQuery) : Prop where
  wf : cst.WF
  leaves : cst.toTree.leaves = ts
  chosen : ∃ c, Chosen (.rule .query) ts [cst.toTree] c

/-- A query is accepted, without locations, exactly if its bare tokens have a syntax that denotes the tree. -/
theorem parse_ok_bare (rt : Runtime) {cfg : Config} (hc : cfg.enableSourceLocations = false) (q : PyStr) (n : Node) :
    (parseQuery rt cfg q).1 = .ok n ↔
    lexErrors q = [] ∧ ∃ cst, BareSyntax (bareStream q) cst ∧ cst.Denotes rt.toPyRuntime cfg n := by
  rw [parse_ok]
  constructor
  · rintro ⟨hl, cst, hs, hd⟩
    refine ⟨hl, cst.map Tok.erase, ⟨CQuery.WF_map keeps_erase hs.wf, ?_, ?_⟩, (CQuery.Denotes_map keeps_erase hc cst n).2 hd⟩
    · rw [CQuery.toTree_map, PTree.leaves_map, hs.leaves]; rfl
    · obtain ⟨c, h⟩ := hs.chosen
      refine ⟨c, ?_⟩
      rw [CQuery.toTree_map]
      exact h.map keeps_erase.type
  · rintro ⟨hl, cst, ⟨h1, h2, c, h3⟩, hd⟩
    refine ⟨hl, ?_⟩
    have hg : Grammatical (tokenStream q) := by
      obtain ⟨F, h, -⟩ := h3.derives.unmap keeps_erase.type _ rfl
      exact ⟨F, c, h⟩
    obtain ⟨cst', hs⟩ := (grammatical_iff_syntax q).1 hg
    refine ⟨cst', hs, ?_⟩
    have e : (cst'.map Tok.erase).toTree = cst.toTree := by
      obtain ⟨c', h⟩ := hs.chosen
      have := ((h.map keeps_erase.type).unique h3).1
      rw [CQuery.toTree_map]
      simpa [PTree.mapL] using this
    rw [← CQuery.Denotes_map keeps_erase hc]
    have hlx : cst.toTree.Lexed := by
      rw [← e, CQuery.toTree_map]
      exact PTree.Lexed_map keeps_erase hs.lexed
    rw [← build_ok _ _ _ (CQuery.WF_map keeps_erase hs.wf) (by rw [e]; exact hlx), e, build_ok _ _ _ h1 hlx]
    exact hd

end Fcsql
