/-
The tree of a query depends on its tokens only through their types and meanings.
-/
import Verif.Proofs.Relabel
import Verif.Proofs.LaidAt
import Verif.Spec.Spelling

set_option autoImplicit false
set_option linter.unusedSimpArgs false
set_option linter.unusedSectionVars false

namespace Fcsql

/-! ### Two relabellings of the same tokens -/

section
variable (rt : PyRuntime) (cfg : Config) (g f : Tok → Tok)

/-- The two relabellings of the tokens mean the same. -/
def Agree : Option TokType → List Tok → Prop
  | _, [] => True
  | p, t :: ts => SameMeaning rt cfg p t.type (g t).text (f t).text ∧ Agree (some t.type) ts

variable {rt cfg g f}

theorem Agree.split {ts us : List Tok} : ∀ {p : Option TokType}, Agree rt cfg g f p (ts ++ us) →
    Agree rt cfg g f p ts ∧ ∃ p', Agree rt cfg g f p' us := by
  induction ts with
  | nil => exact fun h => ⟨trivial, _, h⟩
  | cons t ts ih =>
    intro p h
    obtain ⟨h1, h2⟩ := ih h.2
    exact ⟨⟨h.1, h1⟩, h2⟩

variable (hg : KeepsType g) (hf : KeepsType f) (hc : cfg.enableSourceLocations = false)
include hg hf

theorem agree_int {p : Option TokType} {x : Tok} {ts : List Tok} (hx : x.type = .INTEGER)
    (h : Agree rt cfg g f p (x :: ts)) (n : Int) : IntText rt (g x).text n ↔ IntText rt (f x).text n := by
  have := h.1
  simp only [hx, SameMeaning] at this
  exact this n

theorem CQuant.agree (q : CQuant) (hw : q.WF) {p : Option TokType} (h : Agree rt cfg g f p (PTree.leavesL q.forest)) (mn mx : Int) :
    (q.map g).Bounds rt mn mx ↔ (q.map f).Bounds rt mn mx := by
  cases q with
  | sym t => simp [CQuant.map, CQuant.Bounds, hg.type, hf.type]
  | exactly lb n rb =>
    obtain ⟨h1, h2, h3⟩ := hw
    simp only [CQuant.forest, PTree.leavesL, PTree.leaves, List.cons_append, List.nil_append] at h
    simp only [CQuant.map, CQuant.Bounds, agree_int hg hf h2 h.2]
  | range lb n c m rb =>
    obtain ⟨h1, h2, h3, h4, h5, h6⟩ := hw
    cases n with
    | none =>
      cases m with
      | none => simp at h6
      | some m =>
        simp only [CQuant.forest, optLeaf, PTree.leavesL, PTree.leaves, List.cons_append, List.nil_append] at h
        simp only [CQuant.map, Option.map, CQuant.Bounds, agree_int hg hf (h5 m rfl) h.2.2]
    | some n =>
      cases m with
      | none =>
        simp only [CQuant.forest, optLeaf, PTree.leavesL, PTree.leaves, List.cons_append, List.nil_append] at h
        simp only [CQuant.map, Option.map, CQuant.Bounds, agree_int hg hf (h4 n rfl) h.2]
      | some m =>
        simp only [CQuant.forest, optLeaf, PTree.leavesL, PTree.leaves, List.cons_append, List.nil_append] at h
        simp only [CQuant.map, Option.map, CQuant.Bounds, agree_int hg hf (h4 n rfl) h.2, agree_int hg hf (h5 m rfl) h.2.2.2]

theorem optBounds_agree (q : Option CQuant) (hw : optQuantWF q) {p : Option TokType}
    (h : Agree rt cfg g f p (PTree.leavesL (optQuant q))) (mn mx : Int) :
    optBounds rt (q.map (CQuant.map g)) mn mx ↔ optBounds rt (q.map (CQuant.map f)) mn mx := by
  cases q with
  | none => simp [optBounds]
  | some q =>
    simp only [optQuant, PTree.leavesL, PTree.leaves, List.append_nil] at h
    exact CQuant.agree hg hf q (hw q rfl) h mn mx

theorem CRegexp.agree (r : CRegexp) (hw : r.WF) {p : Option TokType} (h : Agree rt cfg g f p r.toTree.leaves) (v : PyStr)
    (fl : Option FlagSet) : (r.map g).Denotes rt cfg v fl ↔ (r.map f).Denotes rt cfg v fl := by
  obtain ⟨h1, h2⟩ := hw
  rcases r with ⟨pt, _ | ⟨s, x⟩⟩
  all_goals replace h1 : pt.type = .REGEXP := h1
  · simp only [CRegexp.toTree, PTree.leavesL, PTree.leaves, List.cons_append, List.nil_append] at h
    have := h.1
    simp only [h1, SameMeaning] at this
    simp only [CRegexp.Denotes, CRegexp.map, optMap2, this v]
  · obtain ⟨h3, h4⟩ := h2 s x rfl
    simp only [CRegexp.toTree, PTree.leavesL, PTree.leaves, List.cons_append, List.nil_append] at h
    have e := h.1
    have e' := h.2.2.1
    simp only [h1, SameMeaning] at e
    simp only [h3, h4, SameMeaning, if_true] at e'
    simp only [CRegexp.Denotes, CRegexp.map, optMap2, e v, FlagsNamed, e']

theorem agree_name {p : Option TokType} {x : Tok} {ts : List Tok} (hx : isNameTok x) (h : Agree rt cfg g f p (x :: ts))
    (hp : p ≠ some .FWD_SLASH) (hp' : p ≠ some .WITHIN) : (g x).text = (f x).text := by
  have := h.1
  rcases hx with e | e | e | e <;> simpa only [e, SameMeaning, hp, hp', if_false] using this

theorem CAttr.agree (a : CAttr) (hw : a.WF) {p : Option TokType} {ts : List Tok} (h : Agree rt cfg g f p (a.toTree.leaves ++ ts))
    (hp : p ≠ some .FWD_SLASH) (hp' : p ≠ some .WITHIN) :
    ((a.map g).qual.map fun p => p.1.text) = ((a.map f).qual.map fun p => p.1.text) ∧ (a.map g).ident.text = (a.map f).ident.text := by
  obtain ⟨h1, h2⟩ := hw
  rcases a with ⟨_ | ⟨q, c⟩, i⟩
  · simp only [CAttr.toTree, PTree.leavesL, PTree.leaves, List.cons_append, List.nil_append] at h
    exact ⟨rfl, agree_name hg hf h1 h hp hp'⟩
  · obtain ⟨h3, h4⟩ := h2 q c rfl
    simp only [CAttr.toTree, PTree.leavesL, PTree.leaves, List.cons_append, List.nil_append] at h
    refine ⟨?_, agree_name hg hf h1 h.2.2 (by simp [h4]) (by simp [h4])⟩
    simp only [CAttr.map, optMap2, Option.map, Option.some.injEq]
    exact agree_name hg hf h3 h hp hp'

include hc

mutual
theorem CExpr.agree : ∀ (e : CExpr), e.WF → ∀ {p : Option TokType}, Agree rt cfg g f p e.toTree.leaves →
    p ≠ some .FWD_SLASH → p ≠ some .WITHIN → ∀ n : Node, (e.map g).Denotes rt cfg n ↔ (e.map f).Denotes rt cfg n
  | .basic a op r, hw, p, h, hp, hp', n => by
    obtain ⟨h1, h2, h3⟩ := hw
    simp only [CExpr.toTree, PTree.leavesL, PTree.leaves] at h
    obtain ⟨e1, e2⟩ := CAttr.agree hg hf a h1 h hp hp'
    obtain ⟨p', h'⟩ := h.split.2
    have h'' := h'.2
    rw [List.append_nil] at h''
    simp only [CExpr.map, CExpr.Denotes, CRegexp.agree hg hf r h3 h'', opSpec, hg.type, hf.type, span_none hc, e1, e2]
  | .group lp e rp, hw, p, h, hp, hp', n => by
    obtain ⟨h1, h2, h3⟩ := hw
    simp only [CExpr.toTree, PTree.leavesL, PTree.leaves, List.cons_append, List.nil_append] at h
    simp only [CExpr.map, CExpr.Denotes, span_none hc, CExpr.agree e h2 h.2.split.1 (by simp [h1]) (by simp [h1])]
  | .or e rest, hw, p, h, hp, hp', n => by
    obtain ⟨h1, -, -, h3⟩ := hw
    simp only [CExpr.toTree, PTree.leavesL, PTree.leaves, List.cons_append, List.nil_append] at h
    obtain ⟨p', h'⟩ := h.split.2
    simp only [CExpr.map, CExpr.Denotes, span_none hc, CExpr.agree e h1 h.split.1 hp hp', CTail.agree rest _ _ h3 (by simp) (by simp) h']
  | .and e rest, hw, p, h, hp, hp', n => by
    obtain ⟨h1, -, -, -, h3⟩ := hw
    simp only [CExpr.toTree, PTree.leavesL, PTree.leaves, List.cons_append, List.nil_append] at h
    obtain ⟨p', h'⟩ := h.split.2
    simp only [CExpr.map, CExpr.Denotes, span_none hc, CExpr.agree e h1 h.split.1 hp hp', CTail.agree rest _ _ h3 (by simp) (by simp) h']
  | .not b e, hw, p, h, hp, hp', n => by
    obtain ⟨h1, h2⟩ := hw
    simp only [CExpr.toTree, PTree.leavesL, PTree.leaves, List.cons_append, List.nil_append, List.append_nil] at h
    simp only [CExpr.map, CExpr.Denotes, span_none hc, CExpr.agree e h2 h.2 (by simp [h1]) (by simp [h1])]
theorem CTail.agree : ∀ (c : CTail) (op : TokType) (no : Rule), c.WF op no → op ≠ .FWD_SLASH → op ≠ .WITHIN →
    ∀ {p : Option TokType}, Agree rt cfg g f p (PTree.leavesL c.forest) →
    ∀ ns : List Node, (c.map g).Denotes rt cfg ns ↔ (c.map f).Denotes rt cfg ns
  | .nil, _, _, _, _, _, p, h, ns => by simp only [CTail.map, CTail.Denotes]
  | .cons o e rest, op, no, hw, ho, ho', p, h, ns => by
    obtain ⟨h1, h2, h3, h4⟩ := hw
    simp only [CTail.forest, PTree.leavesL, PTree.leaves, List.cons_append, List.nil_append] at h
    obtain ⟨p', h'⟩ := h.2.split.2
    simp only [CTail.map, CTail.Denotes, CExpr.agree e h2 h.2.split.1 (by simp [h1, ho]) (by simp [h1, ho']),
      CTail.agree rest op no h4 ho ho' h']
end

theorem optDenotes_agree (lb rb : Tok) (hlb : lb.type = .L_SQUARE_BRACKET) (e : Option CExpr) (hw : ∀ x, e = some x → x.WF)
    (h : Agree rt cfg g f (some lb.type) (PTree.leavesL (optExpr e))) (n : Node) :
    optDenotes rt cfg (g lb) (g rb) (e.map (CExpr.map g)) n ↔ optDenotes rt cfg (f lb) (f rb) (e.map (CExpr.map f)) n := by
  cases e with
  | none => simp only [Option.map, optDenotes, span_none hc]
  | some e =>
    simp only [optExpr, PTree.leavesL, PTree.leaves, List.append_nil] at h
    simp only [Option.map, optDenotes]
    exact CExpr.agree hg hf hc e (hw e rfl) h (by simp [hlb]) (by simp [hlb]) n

mutual
theorem CQ.agree : ∀ (c : CQ), c.WF → ∀ {p : Option TokType}, Agree rt cfg g f p c.toTree.leaves →
    ∀ n : Node, (c.map g).Denotes rt cfg n ↔ (c.map f).Denotes rt cfg n
  | .implicit r q, hw, p, h, n => by
    obtain ⟨h1, h2⟩ := hw
    simp only [CQ.toTree, PTree.leavesL, PTree.leaves, List.append_nil] at h
    obtain ⟨p', h'⟩ := h.split.2
    simp only [CQ.map, CQ.Denotes, CRegexp.agree hg hf r h1 h.split.1, optBounds_agree hg hf q h2 h', span_none hc]
  | .segment lb e rb q, hw, p, h, n => by
    obtain ⟨h1, h2, h3, h4⟩ := hw
    simp only [CQ.toTree, PTree.leavesL, PTree.leaves, leavesL_append, List.append_nil, List.cons_append, List.nil_append, List.append_assoc] at h
    obtain ⟨p', h'⟩ := h.2.split.2
    simp only [CQ.map, CQ.Denotes, optDenotes_agree hg hf hc lb rb h1 e h2 h.2.split.1, optBounds_agree hg hf q h4 h'.2, span_none hc]
  | .group lp c rp q, hw, p, h, n => by
    obtain ⟨h1, h2, h3, h4, h5⟩ := hw
    simp only [CQ.toTree, PTree.leavesL, PTree.leaves, List.cons_append, List.nil_append] at h
    obtain ⟨p', h'⟩ := h.2.split.2
    simp only [CQ.map, CQ.Denotes, CQ.agree c h2 h.2.split.1, optBounds_agree hg hf q h5 h'.2, span_none hc]
  | .seq c rest, hw, p, h, n => by
    obtain ⟨h1, h2, h3⟩ := hw
    simp only [CQ.toTree, PTree.leavesL, PTree.leaves] at h
    obtain ⟨p', h'⟩ := h.split.2
    simp only [CQ.map, CQ.Denotes, CQ.agree c h1 h.split.1, CQTail.agree rest (.inl h3) h', span_none hc]
  | .disj c rest, hw, p, h, n => by
    obtain ⟨h1, h2, h3, h4⟩ := hw
    simp only [CQ.toTree, PTree.leavesL, PTree.leaves] at h
    obtain ⟨p', h'⟩ := h.split.2
    simp only [CQ.map, CQ.Denotes, CQ.agree c h1 h.split.1, CQTail.agree rest (.inr h4) h', span_none hc]
theorem CQTail.agree : ∀ (c : CQTail), c.WFseq ∨ c.WFdisj → ∀ {p : Option TokType}, Agree rt cfg g f p (PTree.leavesL c.forest) →
    ∀ ns : List Node, (c.map g).Denotes rt cfg ns ↔ (c.map f).Denotes rt cfg ns
  | .nil, _, p, h, ns => by simp only [CQTail.map, CQTail.Denotes]
  | .cons sep c rest, hw, p, h, ns => by
    have hw' : c.WF ∧ (rest.WFseq ∨ rest.WFdisj) := by
      rcases hw with ⟨-, h1, -, h2⟩ | ⟨-, h1, -, h2⟩
      · exact ⟨h1, .inl h2⟩
      · exact ⟨h1, .inr h2⟩
    simp only [CQTail.forest, leavesL_append, PTree.leavesL] at h
    obtain ⟨p', h'⟩ := h.split.2
    obtain ⟨p'', h''⟩ := h'.split.2
    simp only [CQTail.map, CQTail.Denotes, CQ.agree c hw'.1 h'.split.1, CQTail.agree rest hw'.2 h'']
end

theorem CQuery.agree (q : CQuery) (hw : q.WF) {p : Option TokType} (h : Agree rt cfg g f p q.toTree.leaves) (n : Node) :
    (q.map g).Denotes rt cfg n ↔ (q.map f).Denotes rt cfg n := by
  obtain ⟨h1, h2, h3⟩ := hw
  rcases q with ⟨m, _ | ⟨w, s⟩, e⟩
  · simp only [CQuery.toTree, PTree.leavesL, PTree.leaves, List.append_nil] at h
    simpa only [CQuery.map, CQuery.Denotes, optMap2] using CQ.agree hg hf hc m h1 h.split.1 n
  · obtain ⟨e1, e2⟩ := h2 w s rfl
    simp only [CQuery.toTree, PTree.leavesL, PTree.leaves, optWithin, List.append_nil, List.cons_append, List.nil_append] at h
    obtain ⟨p', h'⟩ := h.split.2
    have := h'.2.1
    simp only [e1, e2, SameMeaning, if_true] at this
    simp only [CQuery.map, CQuery.Denotes, optMap2, CQ.agree hg hf hc m h1 h.split.1, this, span_none hc]

end

/-! ### Any two token lists with the same types are relabellings of one list -/

/-- The token at the index given by the start of `t`, if it has the type of `t`. -/
def pick (a : List Tok) (t : Tok) : Tok :=
  match a[t.start.toNat]? with
  | some x => if x.type = t.type then x else t
  | none => t

theorem keeps_pick (a : List Tok) : KeepsType (pick a) := by
  refine ⟨fun t => ?_⟩
  unfold pick
  split
  · split
    · assumption
    · rfl
  · rfl

/-- Tokens with their indices for start. -/
def numbered (k : Nat) : List Tok → List Tok
  | [] => []
  | t :: ts => { t with start := (k : Int) } :: numbered (k + 1) ts

theorem numbered_pick (l : List Tok) : ∀ (a pre b : List Tok), a.map Tok.type = b.map Tok.type → l = pre ++ b →
    (numbered pre.length a).map (pick l) = b := by
  intro a
  induction a with
  | nil => intro pre b h _; cases b <;> simp_all [numbered]
  | cons t a ih =>
    intro pre b h hl
    cases b with
    | nil => simp at h
    | cons x b =>
      simp only [List.map_cons, List.cons.injEq] at h
      have := ih (pre ++ [x]) b h.2 (by simp [hl])
      simp only [List.length_append, List.length_cons, List.length_nil, Nat.zero_add] at this
      simp only [numbered, List.map_cons, List.cons.injEq]
      refine ⟨?_, this⟩
      simp [pick, hl, h.1]

theorem agree_of_alike {rt : PyRuntime} {cfg : Config} (A B : List Tok) : ∀ (a b pre pre' : List Tok) (p : Option TokType),
    Alike rt cfg p (a.map Tok.what) (b.map Tok.what) → A = pre ++ a → B = pre' ++ b → pre.length = pre'.length →
    Agree rt cfg (pick A) (pick B) p (numbered pre.length a) := by
  intro a
  induction a with
  | nil => intros; trivial
  | cons x a ih =>
    intro b pre pre' p h hA hB hl
    cases b with
    | nil => exact h.elim
    | cons y b =>
      obtain ⟨h1, h2, h3⟩ := h
      have h1 : x.type = y.type := h1
      have := ih b (pre ++ [x]) (pre' ++ [y]) _ h3 (by simp [hA]) (by simp [hB]) (by simp [hl])
      simp only [List.length_append, List.length_cons, List.length_nil, Nat.zero_add] at this
      refine ⟨?_, this⟩
      have e1 : (pick A { x with start := (pre.length : Int) }) = x := by simp [pick, hA]
      have e2 : (pick B { x with start := (pre.length : Int) }) = y := by simp [pick, hB, hl, h1]
      rw [e1, e2]
      exact h2

theorem alike_types {rt : PyRuntime} {cfg : Config} : ∀ (a b : List (TokType × PyStr)) (p : Option TokType), Alike rt cfg p a b →
    a.map Prod.fst = b.map Prod.fst
  | [], [], _, _ => rfl
  | [], _ :: _, _, h => h.elim
  | _ :: _, [], _, h => h.elim
  | (ty, w) :: a, (ty', w') :: b, p, h => by
    obtain ⟨rfl, -, h⟩ := h
    simp [alike_types a b _ h]

/-- Trees of token lists that mean the same. -/
theorem bare_alike {rt : PyRuntime} {cfg : Config} (hc : cfg.enableSourceLocations = false) {a b : List Tok}
    (ha : ∀ t ∈ a, t.Lexed) (h : Alike rt cfg none (a.map Tok.what) (b.map Tok.what)) {n : Node}
    (hn : ∃ cst, BareSyntax a cst ∧ cst.Denotes rt cfg n) : ∃ cst, BareSyntax b cst ∧ cst.Denotes rt cfg n := by
  obtain ⟨cst, ⟨h1, h2, c, h3⟩, hd⟩ := hn
  have hty : a.map Tok.type = b.map Tok.type := by
    have := alike_types _ _ _ h
    rw [List.map_map, List.map_map] at this
    exact this
  have ea := numbered_pick a a [] a rfl rfl
  have eb := numbered_pick b a [] b hty rfl
  have hag := agree_of_alike a b a b [] [] none h rfl rfl rfl
  simp only [List.length_nil] at ea eb hag
  generalize numbered 0 a = us at ea eb hag
  have kA := keeps_pick a
  have kB := keeps_pick b
  generalize pick a = g at *
  generalize pick b = f at *
  obtain ⟨F, d, e⟩ := h3.derives.unmap kA.type us ea.symm
  obtain ⟨cst0, w0, e0, l0⟩ := cst_of_D d
  subst e0
  simp only [PTree.mapL, List.cons.injEq, and_true] at e
  have hch : Chosen (.rule .query) us [cst0.toTree] c := by
    refine ⟨d, ?_⟩
    intro F' c' h'
    rcases h3.first _ _ (by rw [← ea]; exact h'.map kA.type) with ⟨e1, e2⟩ | hb
    · left
      subst e2
      exact ⟨(D_unique (x := []) (y := []) (r := []) (r' := []) h' d rfl rfl).2.1, rfl⟩
    · exact .inr hb
  refine ⟨cst0.map f, ⟨CQuery.WF_map kB w0, ?_, c, ?_⟩, ?_⟩
  · rw [CQuery.toTree_map, PTree.leaves_map, l0, eb]
  · rw [CQuery.toTree_map, ← eb]
    exact hch.map kB.type
  · rw [← CQuery.agree kA kB hc cst0 w0 (by rw [l0]; exact hag)]
    have hlx : cst.toTree.Lexed := by
      intro x hx
      rw [h2] at hx
      exact ha x hx
    rw [← build_ok _ _ _ (CQuery.WF_map kA w0) (by rw [CQuery.toTree_map, ← e]; exact hlx), CQuery.toTree_map, ← e, build_ok _ _ _ h1 hlx]
    exact hd

end Fcsql
