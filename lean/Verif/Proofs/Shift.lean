/-
The same tokens at another place of the text give the same tree at another place.
-/
import Verif.Spec.Shift
import Verif.Proofs.BestQuery
import Verif.Props.Locations

set_option autoImplicit false
set_option linter.unusedSimpArgs false

namespace Fcsql

/-- A token moved by `k` characters. -/
def Tok.shift (k : Int) (t : Tok) : Tok := { t with start := t.start + k, stop := t.stop + k }

theorem keeps_shift (k : Int) : Keeps (Tok.shift k) := ⟨fun _ => rfl, fun _ => rfl⟩

theorem Node.shiftL_map (k : Int) (l : List Node) : Node.shiftL k l = l.map (Node.shift k) := by
  induction l with
  | nil => rfl
  | cons n l ih => simp [Node.shiftL, ih]

theorem span_shift (cfg : Config) (k : Int) (ts : List Tok) :
    cfg.span (ts.map (Tok.shift k)) = (cfg.span ts).map (Loc.shift k) := by
  simp only [Config.span, List.head?_map, List.getLast?_map]
  by_cases h : cfg.enableSourceLocations = true
  · simp only [h, if_true]
    cases ts.head? <;> cases ts.getLast? <;> simp [Tok.shift, Loc.shift]
    omega
  · simp [h]

section
variable {rt : PyRuntime} {cfg : Config} (k : Int)

theorem leaves_shift (t t' : PTree) (h : t' = t.map (Tok.shift k)) :
    cfg.span t'.leaves = (cfg.span t.leaves).map (Loc.shift k) := by
  rw [h, PTree.leaves_map, span_shift]

mutual
theorem CExpr.Denotes_shift : ∀ (e : CExpr) (n : Node), e.Denotes rt cfg n →
    (e.map (Tok.shift k)).Denotes rt cfg (n.shift k)
  | .basic a op r, n, h => by
    obtain ⟨o, v, fl, h1, h2, rfl⟩ := h
    refine ⟨o, v, fl, (opSpec_map (keeps_shift k) _ _).2 h1, (CRegexp.Denotes_map (keeps_shift k) _ _ _).2 h2, ?_⟩
    have e1 := attr_map (keeps_shift k) a
    have e2 := leaves_shift (cfg := cfg) k _ _ (CExpr.toTree_map (f := Tok.shift k) (.basic a op r))
    simp only [CExpr.map] at e2
    rw [e1.1, e1.2, e2]
    rfl
  | .group lp e rp, n, h => by
    obtain ⟨m, h1, rfl⟩ := h
    refine ⟨_, CExpr.Denotes_shift e m h1, ?_⟩
    have e2 := leaves_shift (cfg := cfg) k _ _ (CExpr.toTree_map (f := Tok.shift k) (.group lp e rp))
    simp only [CExpr.map] at e2
    rw [e2]; rfl
  | .not b e, n, h => by
    obtain ⟨m, h1, rfl⟩ := h
    refine ⟨_, CExpr.Denotes_shift e m h1, ?_⟩
    have e2 := leaves_shift (cfg := cfg) k _ _ (CExpr.toTree_map (f := Tok.shift k) (.not b e))
    simp only [CExpr.map] at e2
    rw [e2]; rfl
  | .or f rest, n, h => by
    obtain ⟨m, ms, h1, h2, rfl⟩ := h
    refine ⟨_, _, CExpr.Denotes_shift f m h1, CTail.Denotes_shift rest ms h2, ?_⟩
    have e2 := leaves_shift (cfg := cfg) k _ _ (CExpr.toTree_map (f := Tok.shift k) (.or f rest))
    simp only [CExpr.map] at e2
    rw [e2]; rfl
  | .and f rest, n, h => by
    obtain ⟨m, ms, h1, h2, rfl⟩ := h
    refine ⟨_, _, CExpr.Denotes_shift f m h1, CTail.Denotes_shift rest ms h2, ?_⟩
    have e2 := leaves_shift (cfg := cfg) k _ _ (CExpr.toTree_map (f := Tok.shift k) (.and f rest))
    simp only [CExpr.map] at e2
    rw [e2]; rfl
theorem CTail.Denotes_shift : ∀ (t : CTail) (ns : List Node), t.Denotes rt cfg ns →
    (t.map (Tok.shift k)).Denotes rt cfg (Node.shiftL k ns)
  | .nil, ns, h => by
    obtain rfl : ns = [] := h
    rfl
  | .cons o e rest, ns, h => by
    obtain ⟨m, ms, h1, h2, rfl⟩ := h
    exact ⟨_, _, CExpr.Denotes_shift e m h1, CTail.Denotes_shift rest ms h2, rfl⟩
end

mutual
theorem CQ.Denotes_shift : ∀ (c : CQ) (n : Node), c.Denotes rt cfg n →
    (c.map (Tok.shift k)).Denotes rt cfg (n.shift k)
  | .implicit r q, n, h => by
    obtain ⟨v, fl, mn, mx, h1, h2, rfl⟩ := h
    refine ⟨v, fl, mn, mx, (CRegexp.Denotes_map (keeps_shift k) _ _ _).2 h1, (optBounds_map (keeps_shift k) _ _ _).2 h2, ?_⟩
    have e2 := leaves_shift (cfg := cfg) k _ _ (CQ.toTree_map (f := Tok.shift k) (.implicit r q))
    have e3 := leaves_shift (cfg := cfg) k _ _ (CRegexp.toTree_map (f := Tok.shift k) r)
    simp only [CQ.map] at e2
    rw [e2, e3]; rfl
  | .segment lb e rb q, n, h => by
    obtain ⟨m, mn, mx, h1, h2, rfl⟩ := h
    refine ⟨m.shift k, mn, mx, ?_, (optBounds_map (keeps_shift k) _ _ _).2 h2, ?_⟩
    · cases e with
      | none =>
        obtain rfl : m = _ := h1
        have := span_shift cfg k [lb, rb]
        simp only [List.map_cons, List.map_nil] at this
        simp only [Option.map_none, optDenotes, this]
        rfl
      | some e => exact CExpr.Denotes_shift k e m h1
    · have e2 := leaves_shift (cfg := cfg) k _ _ (CQ.toTree_map (f := Tok.shift k) (.segment lb e rb q))
      simp only [CQ.map] at e2
      rw [e2]; rfl
  | .group lp c rp q, n, h => by
    obtain ⟨m, mn, mx, h1, h2, rfl⟩ := h
    refine ⟨_, mn, mx, CQ.Denotes_shift c m h1, (optBounds_map (keeps_shift k) _ _ _).2 h2, ?_⟩
    have e2 := leaves_shift (cfg := cfg) k _ _ (CQ.toTree_map (f := Tok.shift k) (.group lp c rp q))
    simp only [CQ.map] at e2
    rw [e2]; rfl
  | .seq f rest, n, h => by
    obtain ⟨m, ms, h1, h2, rfl⟩ := h
    refine ⟨_, _, CQ.Denotes_shift f m h1, CQTail.Denotes_shift rest ms h2, ?_⟩
    have e2 := leaves_shift (cfg := cfg) k _ _ (CQ.toTree_map (f := Tok.shift k) (.seq f rest))
    simp only [CQ.map] at e2
    rw [e2]; rfl
  | .disj f rest, n, h => by
    obtain ⟨m, ms, h1, h2, rfl⟩ := h
    refine ⟨_, _, CQ.Denotes_shift f m h1, CQTail.Denotes_shift rest ms h2, ?_⟩
    have e2 := leaves_shift (cfg := cfg) k _ _ (CQ.toTree_map (f := Tok.shift k) (.disj f rest))
    simp only [CQ.map] at e2
    rw [e2]; rfl
theorem CQTail.Denotes_shift : ∀ (t : CQTail) (ns : List Node), t.Denotes rt cfg ns →
    (t.map (Tok.shift k)).Denotes rt cfg (Node.shiftL k ns)
  | .nil, ns, h => by
    obtain rfl : ns = [] := h
    rfl
  | .cons o e rest, ns, h => by
    obtain ⟨m, ms, h1, h2, rfl⟩ := h
    exact ⟨_, _, CQ.Denotes_shift e m h1, CQTail.Denotes_shift rest ms h2, rfl⟩
end

theorem CQ.Best_shift {c : CQ} (h : c.Best) : (c.map (Tok.shift k)).Best := by
  obtain ⟨d, h⟩ := h
  have h := h.map (f := Tok.shift k) (keeps_shift k).type
  refine ⟨d, ?_⟩
  have e : (c.map (Tok.shift k)).lv = c.lv.map (Tok.shift k) := by rw [CQ.lv, CQ.toTree_map, PTree.leaves_map]
  rw [CQ.rule_map, e, CQ.toTree_map]
  exact h

theorem CExpr.Best_shift {c : CExpr} (h : c.Best) : (c.map (Tok.shift k)).Best := by
  obtain ⟨d, h⟩ := h
  have h := h.map (f := Tok.shift k) (keeps_shift k).type
  refine ⟨d, ?_⟩
  have e : (c.map (Tok.shift k)).lv = c.lv.map (Tok.shift k) := by rw [CExpr.lv, CExpr.toTree_map, PTree.leaves_map]
  rw [e, CExpr.toTree_map]
  exact h

theorem CQ.CanonMain_map {f : Tok → Tok} {c : CQ} (h : c.CanonMain) : (c.map f).CanonMain := by
  intro x hx
  cases c with
  | seq y rest =>
    cases rest with
    | nil => exact h y rfl
    | cons o c' rest => simp [CQ.map, CQTail.map] at hx
  | _ => simp [CQ.map] at hx

end

/-- A text whose tokens are those of a chosen main query. -/
theorem parse_main {rt : Runtime} {cfg : Config} {q : PyStr} {n : Node} {c : CQ} (hw : c.WF) (hb : c.Best) (hcan : c.CanonMain)
    (hl : lexErrors q = []) (hlv : c.lv = lexTokens q) (hd : c.Denotes rt.toPyRuntime cfg n) :
    (parseQuery rt cfg q).1 = .ok n := by
  refine (parse_ok rt cfg q n).2 ⟨hl, ⟨c, none, eofTok q⟩, ?_, hd⟩
  have hwf : (CQuery.mk c none (eofTok q)).WF := ⟨hw, by simp, rfl⟩
  have hlv : (CQuery.mk c none (eofTok q)).toTree.leaves = tokenStream q := by
    rw [lv_query]; simp [withinLv, hlv, tokenStream]
  exact ⟨hwf, hlv, hlv ▸ best_query hwf hb hcan⟩

/-! ### Lexing a part of the text -/

/-- Pieces that begin at `k` and follow each other. -/
def FromPos : Nat → List Piece → Prop
  | _, [] => True
  | k, p :: ps => p.start = k ∧ FromPos (k + p.text.length) ps

theorem fromPos_of_start : ∀ (ps : List Piece) (pos : Nat),
    (∀ a p b, ps = a ++ p :: b → p.start = pos + (piecesText a).length) → FromPos pos ps
  | [], _, _ => trivial
  | p :: ps, pos, h => by
    refine ⟨by simpa [piecesText] using h [] p ps rfl, fromPos_of_start ps _ ?_⟩
    intro a x b e
    have := h (p :: a) x b (by simp [e])
    simp only [piecesText, List.flatMap_cons, List.length_append] at this ⊢
    omega

theorem FromPos.suffix : ∀ {a b : List Piece} {k : Nat}, FromPos k (a ++ b) → FromPos (k + (piecesText a).length) b
  | [], b, k, h => by simpa [piecesText] using h
  | p :: a, b, k, h => by
    have := FromPos.suffix (a := a) h.2
    simpa [piecesText, Nat.add_assoc] using this

theorem FromPos.prefix : ∀ {a b : List Piece} {k : Nat}, FromPos k (a ++ b) → FromPos k a
  | [], _, _, _ => trivial
  | _ :: a, _, _, h => ⟨h.1, FromPos.prefix (a := a) h.2⟩

theorem lexPieces_fromPos (q : PyStr) : FromPos 0 (lexPieces q) :=
  fromPos_of_start _ _ fun a p b e => ((lexPieces_splits q).start a p b e).1

theorem toks_shift : ∀ {ps qs : List Piece} {i j : Nat}, ps.map Piece.what = qs.map Piece.what → FromPos i ps → FromPos j qs →
    ps.filterMap Piece.tok? = (qs.filterMap Piece.tok?).map (Tok.shift ((i : Int) - j)) := by
  intro ps
  induction ps with
  | nil => intro qs i j h _ _; cases qs <;> simp_all
  | cons p ps ih =>
    intro qs i j h hi hj
    cases qs with
    | nil => simp at h
    | cons q qs =>
      simp only [List.map_cons, List.cons.injEq] at h
      obtain ⟨k, tx, st, co⟩ := p
      obtain ⟨k', tx', st', co'⟩ := q
      obtain ⟨h0, h⟩ := h
      simp only [Piece.what, Prod.mk.injEq] at h0
      obtain ⟨rfl, rfl⟩ := h0
      obtain ⟨rfl, hi⟩ := hi
      obtain ⟨rfl, hj⟩ := hj
      have ih := ih h hi hj
      have e : ((st + tx.length : Nat) : Int) - (st' + tx.length : Nat) = (st : Int) - st' := by omega
      simp only [e] at ih
      cases k with
      | tok t =>
        simp only [List.filterMap_cons, Piece.tok?, List.map_cons, List.cons.injEq]
        refine ⟨?_, ih⟩
        simp only [Tok.shift, Tok.mk.injEq, true_and]
        omega
      | skip => simpa [List.filterMap_cons, Piece.tok?] using ih
      | err => simpa [List.filterMap_cons, Piece.tok?] using ih

/-- The tokens of the text between the first and the last token of a stretch of tokens are those tokens. -/
theorem fragment_tokens {q : PyStr} {x v y : List Tok} (hq : lexErrors q = []) (h : lexTokens q = x ++ v ++ y) {a b : Tok}
    (ha : v.head? = some a) (hb : v.getLast? = some b) :
    lexErrors (substring q a.start (b.stop + 1)) = [] ∧
    lexTokens (substring q a.start (b.stop + 1)) = v.map (Tok.shift (-a.start)) := by
  have hv : v ≠ [] := by rintro rfl; simp at ha
  refine ⟨(fragment_lexes hq h ha hb).1, ?_⟩
  obtain ⟨pa, pb, pc, p, r, e, h1, h2, h3, h4, h5⟩ := pieces_of_tokens hv h
  rw [ha] at h4
  rw [hb] at h5
  obtain ⟨-, k1, k2, -⟩ := piece_tok h4
  obtain ⟨-, k3, k4, k5⟩ := piece_tok h5
  have hs := lexPieces_splits q
  rw [e] at hs
  have ht := hs.text
  have hfp := lexPieces_fromPos q
  rw [e] at hfp
  have hps : p.start = (piecesText pa).length := by
    cases pb with
    | nil => simp at h2
    | cons z pb =>
      simp at h2; subst h2
      have := (hs.start pa z (pb ++ pc) (by simp)).1; omega
  obtain ⟨pb', hb'⟩ := List.getLast?_eq_some_iff.1 h3
  have hrs : r.start = (piecesText pa).length + (piecesText pb').length := by
    have := (hs.start (pa ++ pb') r pc (by rw [hb']; simp)).1
    simp only [piecesText, List.flatMap_append, List.length_append] at this ⊢; omega
  have hbl : (piecesText pb).length = (piecesText pb').length + r.text.length := by
    rw [hb']; simp [piecesText]
  have hql : q.length = (piecesText pa).length + (piecesText pb).length + (piecesText pc).length := by
    rw [← ht]; simp [piecesText]; omega
  have hsl : substring q a.start (b.stop + 1) = piecesText pb := by
    have e1 : a.start = ((piecesText pa).length : Nat) := by rw [k2, hps]
    have e2 : b.stop + 1 = ((piecesText pa).length + (piecesText pb).length : Nat) := by rw [k5]; omega
    rw [e1, e2, slice_nat (by omega) (by omega), ← ht]
    simp [piecesText, List.take_append, List.drop_append]
  have hkind : ∀ z ∈ pb, z.kind ≠ .err := by
    intro z hz he
    have : z ∈ lexErrors q := by simp [lexErrors, e, hz, he]
    rw [hq] at this; cases this
  have hl := lex_infix e hkind
  have e1 : FromPos ((piecesText pa).length) pb := by
    rw [List.append_assoc] at hfp
    simpa using FromPos.prefix (FromPos.suffix hfp)
  rw [hsl, lexTokens, toks_shift hl (lexPieces_fromPos _) e1, h1, k2, hps]
  simp
end Fcsql
