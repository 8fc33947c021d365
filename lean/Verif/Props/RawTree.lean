/-
C84: the parse tree objects of `antlr_parse`.
-/
import Verif.Proofs.Marked
import Verif.Props.Contexts
import Verif.Props.Generated

set_option autoImplicit false
set_option linter.unusedSimpArgs false

namespace Fcsql

theorem QueryReturns.unique {P : Predictor} {toks : List Tok} {T T' : CTree} (h : QueryReturns P toks T)
    (h' : QueryReturns P toks T') : T = T' := by
  obtain ⟨N, h⟩ := h
  obtain ⟨N', h'⟩ := h'
  have := h (max N N') (by omega)
  rw [h' (max N N') (by omega)] at this
  exact (Option.some.inj this).symm

mutual
theorem plain_leaves : ∀ T : CTree, T.plain.leaves = T.marks.map Prod.fst
  | .leaf x i => rfl
  | .node r ch a b ks => by rw [CTree.plain, PTree.leaves, CTree.marks, plainL_leaves]
theorem plainL_leaves : ∀ F : List CTree, PTree.leavesL (CTree.plainL F) = (CTree.marksL F).map Prod.fst
  | [] => rfl
  | c :: cs => by rw [CTree.plainL, PTree.leavesL, CTree.marksL, plain_leaves, plainL_leaves, List.map_append]
end

mutual
theorem plain_nodes : ∀ (T : CTree), T.plain.nodes = T.nodes.map CTree.plain
  | .leaf x i => rfl
  | .node r ch a b ks => by rw [CTree.plain, PTree.nodes, CTree.nodes, List.map_cons, plainL_nodes, CTree.plain]
theorem plainL_nodes : ∀ (F : List CTree), PTree.nodesL (CTree.plainL F) = (CTree.nodesL F).map CTree.plain
  | [] => rfl
  | c :: cs => by rw [CTree.plainL, PTree.nodesL, CTree.nodesL, plain_nodes, plainL_nodes, List.map_append]
end

theorem plainL_append (F G : List CTree) : CTree.plainL (F ++ G) = CTree.plainL F ++ CTree.plainL G := by
  induction F with
  | nil => rfl
  | cons c F ih => rw [List.cons_append, CTree.plainL, ih, CTree.plainL]; rfl

theorem marksL_append (F G : List CTree) : CTree.marksL (F ++ G) = CTree.marksL F ++ CTree.marksL G := by
  induction F with
  | nil => rfl
  | cons c F ih => rw [List.cons_append, CTree.marksL, ih, CTree.marksL, List.append_assoc]

theorem nodesL_append' (F G : List CTree) : CTree.nodesL (F ++ G) = CTree.nodesL F ++ CTree.nodesL G := by
  induction F with
  | nil => rfl
  | cons c F ih => rw [List.cons_append, CTree.nodesL, ih, CTree.nodesL, List.append_assoc]

/-- No context of a derivation tree is empty. -/
theorem fits_leaves_ne {r : Rule} {ks : List PTree} (h : Fits (body r) ks) : PTree.leavesL ks ≠ [] := by
  intro hz
  obtain ⟨c, hc⟩ := D_of_fits h
  rw [hz] at hc
  have := nullable_of_D hc rfl
  revert this
  cases r <;> decide

/-- The shape of the object that is returned. -/
structure RawTree (q : PyStr) (T : CTree) (F : List CTree) : Prop where
  root : T = .node .query [] (some 0) (ltPrev (lexTokens q).length) (F ++ [.leaf (eofTok q) (lexTokens q).length])
  marked : Marked (tokenStream q) [] 0 F (lexTokens q).length
  full : Inhabited' [T]
  nonempty : CTree.marksL F ≠ []

theorem rawTree {P : Predictor} (hP : P.Parses) (q : PyStr) (t : PTree) (h : antlrParse q = .ok t) :
    ∃ T F, QueryReturns P (tokenStream q) T ∧ T.plain = t ∧ RawTree q T F := by
  have h0 := antlrParse_ok.1 h
  obtain ⟨c, hc⟩ := (parseTokens_some _ _).1 h0
  obtain ⟨f, rfl⟩ := chosen_query_node hc
  obtain ⟨N, hN⟩ := hP q f h
  obtain ⟨F, h1, h2, h3⟩ :=
    execM_query (P := P) (ws := lexTokens q) (e := eofTok q) rfl (lexTokens_noEof q) (hN N (Nat.le_refl _))
  have h1 : execM P code (tokenStream q) N [] (code .query) 0 =
      .ok (F ++ [.leaf (eofTok q) (lexTokens q).length]) (lexTokens q).length := h1
  have hpl : CTree.plain (.node .query [] (some 0) (ltPrev (lexTokens q).length)
      (F ++ [.leaf (eofTok q) (lexTokens q).length])) = .node .query f := by
    rw [CTree.plain, plainL_append, ← h2]; rfl
  have hfits := (C09_derivation_tree q _ h).1
  have hfull : Inhabited' [.node .query [] (some 0) (ltPrev (lexTokens q).length)
      (F ++ [.leaf (eofTok q) (lexTokens q).length])] := by
    intro r ch a b ks hm
    rw [CTree.nodesL, CTree.nodesL, List.append_nil] at hm
    have hm' := List.mem_map_of_mem (f := CTree.plain) hm
    rw [← plain_nodes, hpl, CTree.plain] at hm'
    have hne := fits_leaves_ne (fits_node_of_tree hfits hm')
    rw [plainL_leaves] at hne
    intro hz
    rw [hz] at hne
    exact hne rfl
  refine ⟨_, F, ⟨N, fun n hn => ?_⟩, hpl, rfl, h3, hfull, ?_⟩
  · rw [queryM, execM_mono hn (by rw [h1]; simp), h1]
    dsimp only
    rw [ltNext, if_neg (by simp [tokenStream])]
    simp
  · -- `main_query` is not empty
    have hf0 := fits_node_of_tree hfits (r := .query) (ks := f) (by rw [PTree.nodes]; simp)
    have hlo := fits_lo (fun s => decide (s = Sym.rule .main_query)) hf0
    have h1' : 0 < countSym (fun s => decide (s = Sym.rule .main_query)) f :=
      Nat.lt_of_lt_of_le (by decide) hlo
    obtain ⟨c, hc, hs⟩ := List.countP_pos_iff.1 h1'
    rw [← h2] at hc
    simp only [decide_eq_true_eq] at hs
    rcases List.mem_append.1 hc with hc | hc
    · intro hz
      have : ∀ G : List CTree, CTree.marksL G = [] → c ∈ CTree.plainL G → c.leaves = [] := by
        intro G
        induction G with
        | nil => intro _ h; simp [CTree.plainL] at h
        | cons g G ih =>
          intro hG hm
          rw [CTree.marksL, List.append_eq_nil_iff] at hG
          rw [CTree.plainL] at hm
          rcases List.mem_cons.1 hm with rfl | hm
          · rw [plain_leaves, hG.1]; rfl
          · exact ih hG.2 hm
      have hz := this F hz hc
      cases c with
      | leaf x => cases hs
      | node r ks =>
        have hm : PTree.node r ks ∈ (PTree.node .query f).nodes := by
          rw [PTree.nodes]
          refine List.mem_cons_of_mem _ ?_
          have : ∀ l : List PTree, PTree.node r ks ∈ l → PTree.node r ks ∈ PTree.nodesL l := by
            intro l
            induction l with
            | nil => intro h; cases h
            | cons y l ih =>
              intro h
              rw [PTree.nodesL, List.mem_append]
              rcases List.mem_cons.1 h with rfl | h
              · left; rw [PTree.nodes]; simp
              · exact .inr (ih h)
          exact this f (by rw [← h2]; exact List.mem_append_left _ hc)
        rw [PTree.leaves] at hz
        exact fits_leaves_ne (fits_node_of_tree hfits hm) hz
    · simp only [List.mem_singleton] at hc
      subst hc
      cases hs

theorem stretch_fst (toks : List Tok) (i j : Nat) : (stretch toks i j).map Prod.fst = (toks.take j).drop i := by
  simp [stretch, List.map_drop, List.map_take, List.zipIdx_map_fst]

mutual
theorem text_marks : ∀ T : CTree, T.text = (T.marks.map Prod.fst).flatMap Tok.text
  | .leaf x i => by simp [CTree.text, CTree.marks]
  | .node r ch a b ks => by rw [CTree.text, CTree.marks, textL_marks]
theorem textL_marks : ∀ F : List CTree, CTree.textL F = ((CTree.marksL F).map Prod.fst).flatMap Tok.text
  | [] => rfl
  | c :: cs => by rw [CTree.textL, CTree.marksL, text_marks, textL_marks, List.map_append, List.flatMap_append]
end

theorem RawTree.below {q : PyStr} {T : CTree} {F : List CTree} (h : RawTree q T F) {c : CTree}
    (hc : c ∈ CTree.nodesL F) : c ∈ CTree.nodesL [T] := by
  rw [CTree.nodesL, h.root, CTree.nodes, nodesL_append']
  simp [hc]

mutual
theorem nodes_trans {r : Rule} {ch : List Nat} {a b : Option Nat} {ks : List CTree} {c : CTree} (hc : c ∈ CTree.nodesL ks) :
    ∀ T : CTree, CTree.node r ch a b ks ∈ T.nodes → c ∈ T.nodes
  | .leaf x i, h => by simp [CTree.nodes] at h
  | .node r' ch' a' b' ks', h => by
    rw [CTree.nodes] at h ⊢
    rcases List.mem_cons.1 h with h | h
    · cases h; exact List.mem_cons_of_mem _ hc
    · exact List.mem_cons_of_mem _ (nodesL_trans hc ks' h)
theorem nodesL_trans {r : Rule} {ch : List Nat} {a b : Option Nat} {ks : List CTree} {c : CTree} (hc : c ∈ CTree.nodesL ks) :
    ∀ F : List CTree, CTree.node r ch a b ks ∈ CTree.nodesL F → c ∈ CTree.nodesL F
  | [], h => by simp [CTree.nodesL] at h
  | d :: ds, h => by
    rw [CTree.nodesL, List.mem_append] at h ⊢
    rcases h with h | h
    · exact .inl (nodes_trans hc d h)
    · exact .inr (nodesL_trans hc ds h)
end

theorem mem_nodesL {c : CTree} : ∀ {F : List CTree}, c ∈ F → c ∈ CTree.nodesL F
  | [], h => by cases h
  | d :: F, h => by
    rw [CTree.nodesL, List.mem_append]
    rcases List.mem_cons.1 h with rfl | h
    · left
      cases c <;> simp [CTree.nodes]
    · exact .inr (mem_nodesL h)

mutual
theorem marks_nodes {c : CTree} {p : Tok × Nat} (hp : p ∈ c.marks) : ∀ T : CTree, c ∈ T.nodes → p ∈ T.marks
  | .leaf x i, h => by simp only [CTree.nodes, List.mem_singleton] at h; subst h; exact hp
  | .node r ch a b ks, h => by
    rw [CTree.nodes] at h
    rcases List.mem_cons.1 h with h | h
    · subst h; exact hp
    · rw [CTree.marks]; exact marksL_nodes hp ks h
theorem marksL_nodes {c : CTree} {p : Tok × Nat} (hp : p ∈ c.marks) : ∀ F : List CTree, c ∈ CTree.nodesL F → p ∈ CTree.marksL F
  | [], h => by simp [CTree.nodesL] at h
  | d :: ds, h => by
    rw [CTree.nodesL, List.mem_append] at h
    rw [CTree.marksL, List.mem_append]
    rcases h with h | h
    · exact .inl (marks_nodes hp d h)
    · exact .inr (marksL_nodes hp ds h)
end

/-! ### C84 -/

/-- **C84.** The following holds for every prediction that is right about the network (C53), among them the one of the ANTLR
runtime (`C84_antlr`). -/
theorem C84_ideal (P : Predictor) (hP : P.Ideal parserAtn) : P.Parses :=
  fun q _ h => (tokenStream_query hP q).1 _ (antlrParse_ok.1 h)

/-- **C84.** On a query that `antlr_parse` accepts, `parser.query()` returns an object for the tree of C09-C11; the
`tokenIndex` of its terminals counts them from 0. -/
theorem C84_returns (P : Predictor) (hP : P.Parses) (q : PyStr) (t : PTree) (h : antlrParse q = .ok t) :
    ∃ T, QueryReturns P (tokenStream q) T ∧ T.plain = t ∧ T.marks = (lexTokens q ++ [eofTok q]).zipIdx := by
  obtain ⟨T, F, h1, h2, h3⟩ := rawTree hP q t h
  refine ⟨T, h1, h2, ?_⟩
  rw [h3.root, CTree.marks, marksL_append, h3.marked.marks.1, stretch, tokenStream, List.drop_zero, List.zipIdx_append]
  rw [List.take_append_of_le_length (by simp), List.take_of_length_le (by simp)]
  simp [CTree.marksL, CTree.marks]

/-- **C84.** In such an object `ctx.start` is the first token under the context and `ctx.stop` the last one, `EOF` aside;
neither is `None`. -/
theorem C84_start_stop (P : Predictor) (hP : P.Parses) (q : PyStr) (t : PTree) (h : antlrParse q = .ok t)
    (T : CTree) (hT : QueryReturns P (tokenStream q) T) (r : Rule) (ch : List Nat) (a b : Option Nat) (ks : List CTree)
    (hm : CTree.node r ch a b ks ∈ T.nodes) :
    ∃ first last, (CTree.marksL ks).head? = some first ∧ a = some first.2 ∧
      ((CTree.marksL ks).filter fun p => p.1.type ≠ .EOF).getLast? = some last ∧ b = some last.2 := by
  obtain ⟨T', F, h1, h2, h3⟩ := rawTree hP q t h
  cases hT.unique h1
  have gen : ∀ {ctx : List Nat} {i j : Nat} {G : List CTree}, Marked (tokenStream q) ctx i G j → CTree.marksL G ≠ [] →
      ∃ first last, (CTree.marksL G).head? = some first ∧ i = first.2 ∧
        ((CTree.marksL G).filter fun p => p.1.type ≠ .EOF).getLast? = some last ∧ ltPrev j = some last.2 := by
    intro ctx i j G hG hne
    obtain ⟨e1, e2⟩ := hG.ends
    have hfil : (CTree.marksL G).filter (fun p => p.1.type ≠ .EOF) = CTree.marksL G :=
      List.filter_eq_self.2 fun p hp => by simpa using hG.marks.2 p hp
    rw [hfil]
    cases hG' : CTree.marksL G with
    | nil => exact absurd hG' hne
    | cons x xs =>
      rw [hG'] at e1 e2
      refine ⟨x, (x :: xs).getLast (by simp), rfl, (e1 x rfl).symm, List.getLast?_eq_some_getLast (by simp), ?_⟩
      rw [← e2 _ (List.getLast?_eq_some_getLast (by simp))]
      rfl
  rw [h3.root, CTree.nodes] at hm
  rcases List.mem_cons.1 hm with hm | hm
  · cases hm
    obtain ⟨first, last, g1, g2, g3, g4⟩ := gen h3.marked h3.nonempty
    refine ⟨first, last, ?_, by rw [← g2], ?_, g4⟩
    · rw [marksL_append, List.head?_append, g1]; rfl
    · rw [marksL_append, List.filter_append]
      have : (CTree.marksL [CTree.leaf (eofTok q) (lexTokens q).length]).filter (fun p => p.1.type ≠ .EOF) = [] := by
        simp [CTree.marksL, CTree.marks, eofTok]
      rw [this, List.append_nil, g3]
  · rw [nodesL_append'] at hm
    rcases List.mem_append.1 hm with hm | hm
    · obtain ⟨i, j, rfl, rfl, hM, -, hj, -⟩ := h3.marked.sub hm
      have hne : CTree.marksL ks ≠ [] := h3.full r ch _ _ ks (h3.below hm)
      obtain ⟨first, last, g1, g2, g3, g4⟩ := gen hM hne
      exact ⟨first, last, g1, by rw [← g2], g3, g4⟩
    · simp [CTree.nodesL, CTree.nodes] at hm

/-- **C84.** Below the root: `getSourceInterval()` is a non-empty range of token indices, the intervals of the children
divide it among them, and `getText()` is the texts of these tokens, joined. -/
theorem C84_interval (P : Predictor) (hP : P.Parses) (q : PyStr) (t : PTree) (h : antlrParse q = .ok t)
    (T : CTree) (hT : QueryReturns P (tokenStream q) T) (r : Rule) (ch : List Nat) (a b : Option Nat) (ks : List CTree)
    (hm : CTree.node r ch a b ks ∈ CTree.nodesL T.children) :
    ∃ x y : Nat, (CTree.node r ch a b ks).sourceInterval = ((x : Int), (y : Int)) ∧ x ≤ y ∧ y < (lexTokens q).length ∧
      Tiles x (ks.map CTree.sourceInterval) (y + 1) ∧
      (CTree.node r ch a b ks).text = (((lexTokens q).take (y + 1)).drop x).flatMap Tok.text := by
  obtain ⟨T', F, h1, h2, h3⟩ := rawTree hP q t h
  cases hT.unique h1
  rw [h3.root, CTree.children, nodesL_append'] at hm
  rcases List.mem_append.1 hm with hm | hm
  · obtain ⟨i, j, rfl, rfl, hM, -, hj, -⟩ := h3.marked.sub hm
    have hne : CTree.marksL ks ≠ [] := h3.full r ch _ _ ks (h3.below hm)
    have hl := hM.length
    cases j with
    | zero =>
      have : (CTree.marksL ks).length ≠ 0 := by simpa using hne
      omega
    | succ y =>
      have : (CTree.marksL ks).length ≠ 0 := by simpa using hne
      refine ⟨i, y, rfl, by omega, by omega, hM.tiles ?_, ?_⟩
      · intro r' ch' a' b' ks' hm'
        exact h3.full r' ch' a' b' ks' (h3.below (nodesL_trans hm' F hm))
      · rw [CTree.text, textL_marks, hM.marks.1, stretch_fst, tokenStream, List.take_append_of_le_length hj]
  · simp [CTree.nodesL, CTree.nodes] at hm

/-- **C84.** The root: its interval is that of all tokens, `EOF` excepted, although `EOF` is its last child; its text is
that of all tokens, followed by `<EOF>`. -/
theorem C84_root (P : Predictor) (hP : P.Parses) (q : PyStr) (t : PTree) (h : antlrParse q = .ok t)
    (T : CTree) (hT : QueryReturns P (tokenStream q) T) :
    T.sourceInterval = (0, ((lexTokens q).length : Int) - 1) ∧ 0 < (lexTokens q).length ∧
    Tiles 0 (T.children.map CTree.sourceInterval) ((lexTokens q).length + 1) ∧
    T.children.getLast? = some (.leaf (eofTok q) (lexTokens q).length) ∧
    T.text = (lexTokens q).flatMap Tok.text ++ py!"<EOF>" := by
  obtain ⟨T', F, h1, h2, h3⟩ := rawTree hP q t h
  cases hT.unique h1
  have hl := h3.marked.length
  have hne : (CTree.marksL F).length ≠ 0 := by simpa using h3.nonempty
  have htile : ∀ (l : List (Int × Int)) (a e : Int), Tiles a l e → Tiles a (l ++ [(e, e)]) (e + 1) := by
    intro l
    induction l with
    | nil => intro a e h; exact ⟨h.symm, Int.le_refl _, rfl⟩
    | cons p l ih => intro a e h; exact ⟨h.1, h.2.1, ih _ _ h.2.2⟩
  have hfull : Inhabited' F := fun r ch a b ks hm => h3.full r ch a b ks (h3.below hm)
  rw [h3.root]
  refine ⟨?_, by omega, ?_, ?_, ?_⟩
  · cases hk : (lexTokens q).length with
    | zero => omega
    | succ k =>
      have e : ((k : Int), ((k + 1 : Nat) : Int) - 1) = ((k : Int), (k : Int)) := by simp
      simp [CTree.sourceInterval, ltPrev]
  · rw [CTree.children, List.map_append]
    exact htile _ _ _ (by simpa using h3.marked.tiles hfull)
  · rw [CTree.children, List.getLast?_concat]
  · rw [CTree.text, textL_marks, marksL_append, h3.marked.marks.1, List.map_append, stretch_fst, List.flatMap_append,
      tokenStream, List.take_left, List.drop_zero]
    rfl

/-- **C84.** `ctx.depth()` is 1 for the root and one more for children than for their parents. -/
theorem C84_depth (P : Predictor) (hP : P.Parses) (q : PyStr) (t : PTree) (h : antlrParse q = .ok t)
    (T : CTree) (hT : QueryReturns P (tokenStream q) T) (d : Nat) (r : Rule) (ch : List Nat) (a b : Option Nat)
    (ks : List CTree) (hd : AtDepth T d (.node r ch a b ks)) : (CTree.node r ch a b ks).depth = d := by
  obtain ⟨T', F, h1, h2, h3⟩ := rawTree hP q t h
  cases hT.unique h1
  have hfold : ∀ (l : List Nat) (n : Nat), l.foldl (fun n _ => n + 1) n = n + l.length := by
    intro l
    induction l with
    | nil => intro n; rfl
    | cons x l ih => intro n; rw [List.foldl_cons, ih]; simp; omega
  have key : ∀ c d, AtDepth T d c → ∀ r ch a b ks, c = .node r ch a b ks →
      ch.length + 1 = d ∧ ∃ i G j suf, Marked (tokenStream q) ch i G j ∧ ks = G ++ suf ∧ ∀ x ∈ suf, ∃ y k, x = .leaf y k := by
    intro c d hcd
    induction hcd with
    | root =>
      intro r ch a b ks e
      rw [h3.root] at e
      cases e
      exact ⟨rfl, 0, F, _, _, h3.marked, rfl, fun x hx => ⟨_, _, by simpa using hx⟩⟩
    | child hp hc ih =>
      intro r ch a b ks e
      rename_i d p c
      subst e
      cases p with
      | leaf x i => simp [CTree.children] at hc
      | node r' ch' a' b' ks' =>
        obtain ⟨e1, i, G, j, suf, hG, rfl, hsuf⟩ := ih _ _ _ _ _ rfl
        simp only [CTree.children] at hc
        rcases List.mem_append.1 hc with hc | hc
        · obtain ⟨st, rfl⟩ := hG.chain hc
          refine ⟨by simp; omega, ?_⟩
          have hm : CTree.node r (st :: ch') a b ks ∈ CTree.nodesL G := mem_nodesL hc
          obtain ⟨i', j', -, -, hM, -⟩ := hG.sub hm
          exact ⟨i', ks, j', [], hM, by simp, by simp⟩
        · obtain ⟨y, k, e⟩ := hsuf _ hc
          cases e
  obtain ⟨e, -⟩ := key _ _ hd _ _ _ _ _ rfl
  rw [CTree.depth, hfold]
  omega

/-- **C84.** `SourceLocation.fromContext(ctx)` as it is used for the nodes of the query tree (C25, C26): from the beginning
of `ctx.start` to the end of `ctx.stop`. -/
theorem C84_location (P : Predictor) (hP : P.Parses) (q : PyStr) (t : PTree) (h : antlrParse q = .ok t)
    (T : CTree) (hT : QueryReturns P (tokenStream q) T) (r : Rule) (ch : List Nat) (a b : Option Nat) (ks : List CTree)
    (hm : CTree.node r ch a b ks ∈ T.nodes) :
    ∃ i j x y, a = some i ∧ b = some j ∧ (tokenStream q)[i]? = some x ∧ (tokenStream q)[j]? = some y ∧
      ctxLoc (CTree.plainL ks) = some ⟨x.start, y.stop + 1⟩ := by
  obtain ⟨first, last, e1, e2, e3, e4⟩ := C84_start_stop P hP q t h T hT r ch a b ks hm
  have hmark : ∀ p ∈ CTree.marksL ks, (tokenStream q)[p.2]? = some p.1 := by
    intro p hp
    obtain ⟨T', g1, -, g3⟩ := C84_returns P hP q t h
    cases hT.unique g1
    have := marks_nodes (c := .node r ch a b ks) (p := p) (by rw [CTree.marks]; exact hp) T hm
    rw [g3] at this
    obtain ⟨x, i⟩ := p
    exact List.mem_zipIdx_iff_getElem?.1 this
  have hf := hmark first (List.mem_of_mem_head? e1)
  have hl := hmark last (List.mem_filter.1 (List.mem_of_getLast? e3)).1
  refine ⟨_, _, _, _, e2, e4, hf, hl, ?_⟩
  rw [ctxLoc, plainL_leaves, List.head?_map, e1, List.filter_map]
  have e3' : ((CTree.marksL ks).filter ((fun t : Tok => decide (t.type ≠ .EOF)) ∘ Prod.fst)).getLast? = some last := e3
  rw [List.getLast?_map, e3']
  rfl

/-! ### The hypotheses are met -/

/-- Predictions for the query `'a'` (the first alternative everywhere). -/
def exPredictor : Predictor := { predict := fun _ _ _ => some 1, sync := fun _ _ _ => true }

/-- A real run: what `examples/run_parse.py` shows for `'a'`. -/
example : (queryM exPredictor 60 (tokenStream py!"'a'")).map (fun T =>
      (T.toStringTree parserRuleNames, T.text, T.sourceInterval, T.depth)) =
    some (py!"(query (main_query (query_simple (query_implicit (regexp (regexp_pattern 'a'))))) <EOF>)", py!"'a'<EOF>", (0, 0), 1) := by
  decide +kernel

/-- There is such a prediction, and queries are accepted with it: all hypotheses of C84 together. -/
example : ∃ P t T, Predictor.Parses P ∧ antlrParse py!"[a='b' & c='d'] within s" = .ok t ∧
    QueryReturns P (tokenStream py!"[a='b' & c='d'] within s") T := by
  have hP := C84_ideal _ (bestPredictor_ideal parserAtn)
  obtain ⟨t, ht⟩ : ∃ t, antlrParse py!"[a='b' & c='d'] within s" = .ok t := antlrParse_toBool (by decide +kernel)
  obtain ⟨T, hT, -⟩ := C84_returns _ hP _ t ht
  exact ⟨_, t, T, hP, ht, hT⟩

end Fcsql
