/-
The object graph built by the tree builder.
-/
import Verif.Spec.Objects
import Verif.Proofs.Parse

set_option autoImplicit false
set_option linter.unusedSimpArgs false

namespace Fcsql

mutual
/-- The tree is laid out in post-order at addresses `lo..a`, its root at `a` has parent `p`. -/
def HeapTree (h : Heap) : Node → Nat → Option Nat → Nat → Prop
  | .mk k cs l, a, p, lo => ∃ as, h[a]? = some ⟨k, as, p, l⟩ ∧ HeapForest h cs as (some a) lo a
/-- The trees are laid out one after the other at addresses `lo..hi-1`. -/
def HeapForest (h : Heap) : List Node → List Nat → Option Nat → Nat → Nat → Prop
  | [], as, _, lo, hi => as = [] ∧ lo = hi
  | c :: cs, as, p, lo, hi => ∃ a as', as = a :: as' ∧ HeapTree h c a p lo ∧ HeapForest h cs as' p (a + 1) hi
end

mutual
theorem HeapTree.le (h : Heap) : ∀ (n : Node) (a : Nat) (p : Option Nat) (lo : Nat), HeapTree h n a p lo → lo ≤ a
  | .mk k cs l, a, p, lo, ht => by
    simp only [HeapTree] at ht
    obtain ⟨as, _, hf⟩ := ht
    exact (HeapForest.le h cs as (some a) lo a hf).1
theorem HeapForest.le (h : Heap) : ∀ (cs : List Node) (as : List Nat) (p : Option Nat) (lo hi : Nat),
    HeapForest h cs as p lo hi → lo ≤ hi ∧ ∀ x ∈ as, lo ≤ x ∧ x < hi
  | [], as, p, lo, hi, hf => by
    simp only [HeapForest] at hf
    obtain ⟨rfl, rfl⟩ := hf
    simp
  | c :: cs, as, p, lo, hi, hf => by
    simp only [HeapForest] at hf
    obtain ⟨a, as', rfl, h1, h2⟩ := hf
    have i1 := HeapTree.le h c a p lo h1
    obtain ⟨i2, i3⟩ := HeapForest.le h cs as' p (a + 1) hi h2
    refine ⟨by omega, fun x hx => ?_⟩
    rcases List.mem_cons.1 hx with rfl | hx
    · omega
    · have := i3 x hx; omega
end

mutual
theorem HeapTree.congr {h h' : Heap} : ∀ (n : Node) (a : Nat) (p : Option Nat) (lo : Nat), HeapTree h n a p lo →
    (∀ x, lo ≤ x → x ≤ a → h'[x]? = h[x]?) → HeapTree h' n a p lo
  | .mk k cs l, a, p, lo, ht, he => by
    have := HeapTree.le h _ _ _ _ ht
    simp only [HeapTree] at ht ⊢
    obtain ⟨as, h1, hf⟩ := ht
    exact ⟨as, by rw [he a this (Nat.le_refl _), h1],
      HeapForest.congr cs as (some a) lo a hf fun x h1 h2 => he x h1 (by omega)⟩
theorem HeapForest.congr {h h' : Heap} : ∀ (cs : List Node) (as : List Nat) (p : Option Nat) (lo hi : Nat),
    HeapForest h cs as p lo hi → (∀ x, lo ≤ x → x < hi → h'[x]? = h[x]?) → HeapForest h' cs as p lo hi
  | [], as, p, lo, hi, hf, he => by simpa only [HeapForest] using hf
  | c :: cs, as, p, lo, hi, hf, he => by
    simp only [HeapForest] at hf ⊢
    obtain ⟨a, as', rfl, h1, h2⟩ := hf
    have i1 := HeapTree.le h c a p lo h1
    have i2 := (HeapForest.le h cs as' p (a + 1) hi h2).1
    exact ⟨a, as', rfl, HeapTree.congr c a p lo h1 fun x h1 h2 => he x h1 (by omega),
      HeapForest.congr cs as' p (a + 1) hi h2 fun x h1 h2 => he x (by omega) h2⟩
end

/-- Changing the parent of the root of a tree. -/
theorem HeapTree.setParent {h h' : Heap} {n : Node} {a : Nat} {p p' : Option Nat} {lo : Nat} (ht : HeapTree h n a p lo)
    (h1 : ∀ x, lo ≤ x → x < a → h'[x]? = h[x]?) (h2 : h'[a]? = h[a]?.map fun o => { o with parent := p' }) :
    HeapTree h' n a p' lo := by
  obtain ⟨k, cs, l⟩ := n
  simp only [HeapTree] at ht ⊢
  obtain ⟨as, h3, hf⟩ := ht
  exact ⟨as, by rw [h2, h3]; rfl, hf.congr _ _ _ _ _ h1⟩

theorem HeapForest.setParents {h h' : Heap} {p' : Option Nat} : ∀ (cs : List Node) (as : List Nat) (p : Option Nat)
    (lo hi : Nat), HeapForest h cs as p lo hi →
    (∀ x, lo ≤ x → x < hi → h'[x]? = if x ∈ as then h[x]?.map fun o => { o with parent := p' } else h[x]?) →
    HeapForest h' cs as p' lo hi
  | [], as, p, lo, hi, hf, _ => by simpa only [HeapForest] using hf
  | c :: cs, as, p, lo, hi, hf, he => by
    simp only [HeapForest] at hf ⊢
    obtain ⟨a, as', rfl, h1, h2⟩ := hf
    have i1 := HeapTree.le h c a p lo h1
    obtain ⟨i2, i3⟩ := HeapForest.le h cs as' p (a + 1) hi h2
    refine ⟨a, as', rfl, h1.setParent ?_ ?_, HeapForest.setParents cs as' p (a + 1) hi h2 ?_⟩
    · intro x hx hxa
      rw [he x hx (by omega), if_neg]
      intro hm
      rcases List.mem_cons.1 hm with rfl | hm
      · omega
      · have := i3 x hm; omega
    · rw [he a i1 (by omega), if_pos (by simp)]
    · intro x hx hxa
      rw [he x (by omega) hxa]
      have : x ≠ a := by omega
      simp [this]

theorem setParents_get (self : Nat) (as : List Nat) (h : Heap) (x : Nat) :
    (setParents self as h)[x]? = if x ∈ as then h[x]?.map fun o => { o with parent := some self } else h[x]? := by
  rw [setParents, List.getElem?_mapIdx]
  split <;> simp_all

/-- The result of a computation on pure trees and the one on the heap are the same tree. -/
def AgreesT (h : Heap) : Except Exc (Node × Unit) → Except Exc (Nat × Heap) → Prop
  | .error e, y => y = .error e
  | .ok (n, _), y => ∃ a h', y = .ok (a, h') ∧ (∀ x < h.length, h'[x]? = h[x]?) ∧ h'.length = a + 1 ∧
      HeapTree h' n a none h.length

/-- The same for lists of trees. -/
def AgreesF (h : Heap) : Except Exc (List Node × Unit) → Except Exc (List Nat × Heap) → Prop
  | .error e, y => y = .error e
  | .ok (ns, _), y => ∃ as h', y = .ok (as, h') ∧ (∀ x < h.length, h'[x]? = h[x]?) ∧
      HeapForest h' ns as none h.length h'.length

theorem newObj_tree {h h' : Heap} {ns : List Node} {as : List Nat} (k : Kind) (l : Option Loc)
    (h1 : ∀ x < h.length, h'[x]? = h[x]?) (h2 : HeapForest h' ns as none h.length h'.length) (u : Unit) :
    AgreesT h (.ok (pureAlloc.new k ns l u)) (.ok (heapAlloc.new k as l h')) := by
  obtain ⟨i1, i2⟩ := HeapForest.le _ _ _ _ _ _ h2
  have hget := setParents_get h'.length as (h' ++ [{ kind := k, children := as, parent := none, loc := l }])
  refine ⟨_, _, rfl, ?_, ?_, ?_⟩
  · intro x hx
    rw [hget, if_neg]
    · rw [List.getElem?_append_left (by omega), h1 x hx]
    · intro hm; have := i2 x hm; omega
  · simp [heapAlloc, newObj, setParents]
  · show HeapTree _ (.mk k ns l) _ none h.length
    simp only [HeapTree]
    refine ⟨as, ?_, ?_⟩
    · rw [hget, if_neg]
      · simp
      · intro hm; have := i2 _ hm; omega
    · refine h2.setParents _ _ _ _ _ ?_
      intro x _ hx
      rw [hget, List.getElem?_append_left hx]

/-- A leaf node. -/
theorem newObj_leaf (h : Heap) (k : Kind) (l : Option Loc) (u : Unit) :
    AgreesT h (.ok (pureAlloc.new k [] l u)) (.ok (heapAlloc.new k [] l h)) :=
  newObj_tree k l (fun _ _ => rfl) (by simp [HeapForest]) u

theorem forest_one {h h' : Heap} {n : Node} {a : Nat} (h2 : h'.length = a + 1)
    (h3 : HeapTree h' n a none h.length) : HeapForest h' [n] [a] none h.length h'.length := by
  simp only [HeapForest]
  exact ⟨a, [], rfl, h3, rfl, h2.symm⟩

theorem forest_cons {h h1 h2 : Heap} {n : Node} {a : Nat} {ns : List Node} {as : List Nat} (hl : h1.length = a + 1)
    (ht : HeapTree h1 n a none h.length) (he : ∀ x < h1.length, h2[x]? = h1[x]?)
    (hf : HeapForest h2 ns as none h1.length h2.length) :
    HeapForest h2 (n :: ns) (a :: as) none h.length h2.length := by
  simp only [HeapForest]
  refine ⟨a, as, rfl, ht.congr _ _ _ _ fun x _ hx => he x (by omega), ?_⟩
  rw [← hl]; exact hf

theorem keep_trans {h h1 h2 : Heap} (hl : h.length ≤ h1.length) (h3 : ∀ x < h.length, h1[x]? = h[x]?)
    (h4 : ∀ x < h1.length, h2[x]? = h1[x]?) : ∀ x < h.length, h2[x]? = h[x]? := fun x hx => by
  rw [h4 x (by omega), h3 x hx]

section
variable (rt : PyRuntime) (cfg : Config)

mutual
theorem objs_expr : ∀ (e : CExpr) (h : Heap), AgreesT h (e.mean pureAlloc rt cfg ()) (e.mean heapAlloc rt cfg h)
  | .basic a op r, h => by
    simp only [CExpr.mean]
    rcases regexpMean rt cfg r with e | ⟨v, fl⟩
    · exact rfl
    · exact newObj_leaf h _ _ _
  | .group lp e rp, h => by
    simp only [CExpr.mean]
    have ih := objs_expr e h
    rcases hp : e.mean pureAlloc rt cfg () with er | ⟨n, u⟩ <;> rw [hp] at ih
    · simp only [AgreesT] at ih; rw [ih]; exact rfl
    · obtain ⟨a, h', e1, e2, e3, e4⟩ := ih
      rw [e1]; exact newObj_tree _ _ e2 (forest_one e3 e4) _
  | .not b e, h => by
    simp only [CExpr.mean]
    have ih := objs_expr e h
    rcases hp : e.mean pureAlloc rt cfg () with er | ⟨n, u⟩ <;> rw [hp] at ih
    · simp only [AgreesT] at ih; rw [ih]; exact rfl
    · obtain ⟨a, h', e1, e2, e3, e4⟩ := ih
      rw [e1]; exact newObj_tree _ _ e2 (forest_one e3 e4) _
  | .or f rest, h => by
    simp only [CExpr.mean]
    have ih := objs_expr f h
    rcases hp : f.mean pureAlloc rt cfg () with er | ⟨n, u⟩ <;> rw [hp] at ih
    · simp only [AgreesT] at ih; rw [ih]; exact rfl
    · obtain ⟨a, h', e1, e2, e3, e4⟩ := ih
      rw [e1]
      have ih2 := objs_tail rest h'
      simp only
      rcases hq : rest.mean pureAlloc rt cfg u with er | ⟨ns, u2⟩ <;> rw [hq] at ih2
      · simp only [AgreesF] at ih2; rw [ih2]; exact rfl
      · obtain ⟨as, h2, e5, e6, e7⟩ := ih2
        have := HeapTree.le _ _ _ _ _ e4
        rw [e5]; exact newObj_tree _ _ (keep_trans (by omega) e2 e6) (forest_cons e3 e4 e6 e7) _
  | .and f rest, h => by
    simp only [CExpr.mean]
    have ih := objs_expr f h
    rcases hp : f.mean pureAlloc rt cfg () with er | ⟨n, u⟩ <;> rw [hp] at ih
    · simp only [AgreesT] at ih; rw [ih]; exact rfl
    · obtain ⟨a, h', e1, e2, e3, e4⟩ := ih
      rw [e1]
      have ih2 := objs_tail rest h'
      simp only
      rcases hq : rest.mean pureAlloc rt cfg u with er | ⟨ns, u2⟩ <;> rw [hq] at ih2
      · simp only [AgreesF] at ih2; rw [ih2]; exact rfl
      · obtain ⟨as, h2, e5, e6, e7⟩ := ih2
        have := HeapTree.le _ _ _ _ _ e4
        rw [e5]; exact newObj_tree _ _ (keep_trans (by omega) e2 e6) (forest_cons e3 e4 e6 e7) _
theorem objs_tail : ∀ (t : CTail) (h : Heap), AgreesF h (t.mean pureAlloc rt cfg ()) (t.mean heapAlloc rt cfg h)
  | .nil, h => by
    simp only [CTail.mean]
    exact ⟨[], h, rfl, fun _ _ => rfl, by simp [HeapForest]⟩
  | .cons o e rest, h => by
    simp only [CTail.mean]
    have ih := objs_expr e h
    rcases hp : e.mean pureAlloc rt cfg () with er | ⟨n, u⟩ <;> rw [hp] at ih
    · simp only [AgreesT] at ih; rw [ih]; exact rfl
    · obtain ⟨a, h', e1, e2, e3, e4⟩ := ih
      rw [e1]
      have ih2 := objs_tail rest h'
      simp only
      rcases hq : rest.mean pureAlloc rt cfg u with er | ⟨ns, u2⟩ <;> rw [hq] at ih2
      · simp only [AgreesF] at ih2; rw [ih2]; exact rfl
      · obtain ⟨as, h2, e5, e6, e7⟩ := ih2
        have := HeapTree.le _ _ _ _ _ e4
        rw [e5]; exact ⟨_, _, rfl, keep_trans (by omega) e2 e6, forest_cons e3 e4 e6 e7⟩
end

theorem objs_seg (lb rb : Tok) (e : Option CExpr) (h : Heap) :
    AgreesT h (segMean pureAlloc rt cfg lb rb e ()) (segMean heapAlloc rt cfg lb rb e h) := by
  cases e with
  | none => exact newObj_leaf h _ _ _
  | some e => exact objs_expr rt cfg e h

mutual
theorem objs_q : ∀ (c : CQ) (h : Heap), AgreesT h (c.mean pureAlloc rt cfg ()) (c.mean heapAlloc rt cfg h)
  | .implicit r q, h => by
    simp only [CQ.mean]
    rcases regexpMean rt cfg r with e | ⟨v, fl⟩
    · exact rfl
    · obtain ⟨a, h', e1, e2, e3, e4⟩ := newObj_leaf h (mkExpressionKind (some []) cfg.defaultIdentifier
        cfg.defaultOperator v (some fl)) (locOf cfg [r.toTree]) ()
      simp only [Except.ok.injEq] at e1
      rcases quantMean rt q with e | ⟨mn, mx⟩
      · exact rfl
      · simp only [e1]
        exact newObj_tree _ _ e2 (forest_one e3 e4) _
  | .segment lb e rb q, h => by
    simp only [CQ.mean]
    have ih := objs_seg rt cfg lb rb e h
    rcases hp : segMean pureAlloc rt cfg lb rb e () with er | ⟨n, u⟩ <;> rw [hp] at ih
    · simp only [AgreesT] at ih; rw [ih]; exact rfl
    · obtain ⟨a, h', e1, e2, e3, e4⟩ := ih
      rw [e1]
      rcases quantMean rt q with e | ⟨mn, mx⟩
      · exact rfl
      · exact newObj_tree _ _ e2 (forest_one e3 e4) _
  | .group lp c rp q, h => by
    simp only [CQ.mean]
    have ih := objs_q c h
    rcases hp : c.mean pureAlloc rt cfg () with er | ⟨n, u⟩ <;> rw [hp] at ih
    · simp only [AgreesT] at ih; rw [ih]; exact rfl
    · obtain ⟨a, h', e1, e2, e3, e4⟩ := ih
      rw [e1]
      rcases quantMean rt q with e | ⟨mn, mx⟩
      · exact rfl
      · exact newObj_tree _ _ e2 (forest_one e3 e4) _
  | .seq f rest, h => by
    simp only [CQ.mean]
    have ih := objs_q f h
    rcases hp : f.mean pureAlloc rt cfg () with er | ⟨n, u⟩ <;> rw [hp] at ih
    · simp only [AgreesT] at ih; rw [ih]; exact rfl
    · obtain ⟨a, h', e1, e2, e3, e4⟩ := ih
      rw [e1]
      have ih2 := objs_qtail rest h'
      simp only
      rcases hq : rest.mean pureAlloc rt cfg u with er | ⟨ns, u2⟩ <;> rw [hq] at ih2
      · simp only [AgreesF] at ih2; rw [ih2]; exact rfl
      · obtain ⟨as, h2, e5, e6, e7⟩ := ih2
        have := HeapTree.le _ _ _ _ _ e4
        rw [e5]; exact newObj_tree _ _ (keep_trans (by omega) e2 e6) (forest_cons e3 e4 e6 e7) _
  | .disj f rest, h => by
    simp only [CQ.mean]
    have ih := objs_q f h
    rcases hp : f.mean pureAlloc rt cfg () with er | ⟨n, u⟩ <;> rw [hp] at ih
    · simp only [AgreesT] at ih; rw [ih]; exact rfl
    · obtain ⟨a, h', e1, e2, e3, e4⟩ := ih
      rw [e1]
      have ih2 := objs_qtail rest h'
      simp only
      rcases hq : rest.mean pureAlloc rt cfg u with er | ⟨ns, u2⟩ <;> rw [hq] at ih2
      · simp only [AgreesF] at ih2; rw [ih2]; exact rfl
      · obtain ⟨as, h2, e5, e6, e7⟩ := ih2
        have := HeapTree.le _ _ _ _ _ e4
        rw [e5]; exact newObj_tree _ _ (keep_trans (by omega) e2 e6) (forest_cons e3 e4 e6 e7) _
theorem objs_qtail : ∀ (t : CQTail) (h : Heap), AgreesF h (t.mean pureAlloc rt cfg ()) (t.mean heapAlloc rt cfg h)
  | .nil, h => by
    simp only [CQTail.mean]
    exact ⟨[], h, rfl, fun _ _ => rfl, by simp [HeapForest]⟩
  | .cons o c rest, h => by
    simp only [CQTail.mean]
    have ih := objs_q c h
    rcases hp : c.mean pureAlloc rt cfg () with er | ⟨n, u⟩ <;> rw [hp] at ih
    · simp only [AgreesT] at ih; rw [ih]; exact rfl
    · obtain ⟨a, h', e1, e2, e3, e4⟩ := ih
      rw [e1]
      have ih2 := objs_qtail rest h'
      simp only
      rcases hq : rest.mean pureAlloc rt cfg u with er | ⟨ns, u2⟩ <;> rw [hq] at ih2
      · simp only [AgreesF] at ih2; rw [ih2]; exact rfl
      · obtain ⟨as, h2, e5, e6, e7⟩ := ih2
        have := HeapTree.le _ _ _ _ _ e4
        rw [e5]; exact ⟨_, _, rfl, keep_trans (by omega) e2 e6, forest_cons e3 e4 e6 e7⟩
end

theorem objs_query (q : CQuery) (h : Heap) : AgreesT h (q.mean pureAlloc rt cfg ()) (q.mean heapAlloc rt cfg h) := by
  simp only [CQuery.mean]
  have ih := objs_q rt cfg q.main h
  rcases hp : q.main.mean pureAlloc rt cfg () with er | ⟨n, u⟩ <;> rw [hp] at ih
  · simp only [AgreesT] at ih; rw [ih]; exact rfl
  · obtain ⟨a, h', e1, e2, e3, e4⟩ := ih
    rw [e1]
    rcases q.within with _ | ⟨w, s⟩
    · exact ⟨a, h', rfl, e2, e3, e4⟩
    · simp only
      rcases scopeOf s.text with e | sc
      · exact rfl
      · obtain ⟨b, h2, e5, e6, e7, e8⟩ := newObj_leaf h' (.within sc) (locOf cfg [.leaf s]) u
        simp only [Except.ok.injEq] at e5
        simp only [e5]
        have := HeapTree.le _ _ _ _ _ e4
        exact newObj_tree _ _ (keep_trans (by omega) e2 e6) (forest_cons e3 e4 e6 (forest_one e7 e8)) _

end

/-! ### Consequences of the layout -/

mutual
theorem HeapTree.represents {h : Heap} : ∀ (n : Node) (a : Nat) (p : Option Nat) (lo : Nat), HeapTree h n a p lo →
    Represents h n a
  | .mk k cs l, a, p, lo, ht => by
    simp only [HeapTree] at ht
    obtain ⟨as, h1, h2⟩ := ht
    simp only [Represents]
    exact ⟨_, h1, rfl, rfl, HeapForest.represents cs as _ _ _ h2⟩
theorem HeapForest.represents {h : Heap} : ∀ (cs : List Node) (as : List Nat) (p : Option Nat) (lo hi : Nat),
    HeapForest h cs as p lo hi → RepresentsL h cs as
  | [], as, p, lo, hi, hf => by simp only [HeapForest] at hf; simp only [RepresentsL]; exact hf.1
  | c :: cs, as, p, lo, hi, hf => by
    simp only [HeapForest] at hf
    obtain ⟨a, as', rfl, h1, h2⟩ := hf
    simp only [RepresentsL]
    exact ⟨a, as', rfl, HeapTree.represents c _ _ _ h1, HeapForest.represents cs _ _ _ _ h2⟩
end

theorem HeapForest.roots {h : Heap} : ∀ (cs : List Node) (as : List Nat) (p : Option Nat) (lo hi : Nat),
    HeapForest h cs as p lo hi → (∀ a ∈ as, ∃ o : Obj, h[a]? = some o ∧ o.parent = p) ∧ as.Nodup
  | [], as, p, lo, hi, hf => by simp only [HeapForest] at hf; rw [hf.1]; simp
  | c :: cs, as, p, lo, hi, hf => by
    simp only [HeapForest] at hf
    obtain ⟨a, as', rfl, h1, h2⟩ := hf
    obtain ⟨i1, i2⟩ := HeapForest.roots cs as' p _ _ h2
    have i3 := (HeapForest.le _ _ _ _ _ _ h2).2
    refine ⟨fun x hx => ?_, List.nodup_cons.2 ⟨fun hm => ?_, i2⟩⟩
    · rcases List.mem_cons.1 hx with rfl | hx
      · obtain ⟨k, ccs, l⟩ := c
        simp only [HeapTree] at h1
        obtain ⟨_, e, _⟩ := h1
        exact ⟨_, e, rfl⟩
      · exact i1 x hx
    · have := i3 a hm; omega

/-- What holds at every address of a laid-out tree. -/
def LinkAt (h : Heap) (x : Nat) : Prop :=
  ∃ o : Obj, h[x]? = some o ∧ o.children.Nodup ∧ ∀ c ∈ o.children, ∃ oc : Obj, h[c]? = some oc ∧ oc.parent = some x

/-- The object is the child of its parent. -/
def ChildAt (h : Heap) (x : Nat) : Prop :=
  ∃ (a : Nat) (o ox : Obj), h[a]? = some o ∧ x ∈ o.children ∧ h[x]? = some ox ∧ ox.parent = some a

mutual
theorem HeapTree.links {h : Heap} : ∀ (n : Node) (a : Nat) (p : Option Nat) (lo : Nat), HeapTree h n a p lo →
    ∀ x, lo ≤ x → x ≤ a → LinkAt h x ∧ (x ≠ a → ChildAt h x)
  | .mk k cs l, a, p, lo, ht, x, h1, h2 => by
    simp only [HeapTree] at ht
    obtain ⟨as, e, hf⟩ := ht
    obtain ⟨r1, r2⟩ := HeapForest.roots _ _ _ _ _ hf
    by_cases hx : x = a
    · subst hx
      exact ⟨⟨_, e, r2, r1⟩, fun h => absurd rfl h⟩
    · obtain ⟨i1, i2⟩ := HeapForest.links cs as (some a) lo a hf x h1 (by omega)
      refine ⟨i1, fun _ => ?_⟩
      rcases i2 with i2 | i2
      · obtain ⟨o, eo, ep⟩ := r1 x i2
        exact ⟨a, _, o, e, i2, eo, ep⟩
      · exact i2
theorem HeapForest.links {h : Heap} : ∀ (cs : List Node) (as : List Nat) (p : Option Nat) (lo hi : Nat),
    HeapForest h cs as p lo hi → ∀ x, lo ≤ x → x < hi → LinkAt h x ∧ (x ∈ as ∨ ChildAt h x)
  | [], as, p, lo, hi, hf, x, h1, h2 => by simp only [HeapForest] at hf; omega
  | c :: cs, as, p, lo, hi, hf, x, h1, h2 => by
    simp only [HeapForest] at hf
    obtain ⟨a, as', rfl, t1, t2⟩ := hf
    by_cases hx : x ≤ a
    · obtain ⟨i1, i2⟩ := HeapTree.links c a p lo t1 x h1 hx
      refine ⟨i1, ?_⟩
      by_cases hxa : x = a
      · exact .inl (by simp [hxa])
      · exact .inr (i2 hxa)
    · obtain ⟨i1, i2⟩ := HeapForest.links cs as' p (a + 1) hi t2 x (by omega) h2
      exact ⟨i1, i2.imp (fun h => by simp [h]) id⟩
end

theorem HeapTree.parentLinks {h : Heap} {n : Node} {a : Nat} (ht : HeapTree h n a none 0) (hl : h.length = a + 1) :
    ParentLinks h a := by
  have hlinks := HeapTree.links n a none 0 ht
  have hlt : ∀ (x : Nat) (o : Obj), h[x]? = some o → x ≤ a := by
    intro x o e
    have := (List.getElem?_eq_some_iff.1 e).1; omega
  have hroot : ∃ o : Obj, h[a]? = some o ∧ o.parent = none := by
    obtain ⟨k, cs, l⟩ := n
    simp only [HeapTree] at ht
    obtain ⟨_, e, _⟩ := ht
    exact ⟨_, e, rfl⟩
  refine ⟨hroot, ?_, ?_, ?_, ?_⟩
  · intro x o e c hc
    obtain ⟨o', e', _, h3⟩ := (hlinks x (by omega) (hlt x o e)).1
    rw [e] at e'; cases e'
    exact h3 c hc
  · intro x o e
    obtain ⟨o', e', h3, _⟩ := (hlinks x (by omega) (hlt x o e)).1
    rw [e] at e'; cases e'
    exact h3
  · intro x o e hx
    obtain ⟨b, ob, ox, e1, e2, _⟩ := (hlinks x (by omega) (hlt x o e)).2 hx
    exact ⟨b, ob, e1, e2⟩
  · intro x o b e hp
    by_cases hx : x = a
    · obtain ⟨o', e', h'⟩ := hroot
      rw [hx] at e; rw [e] at e'; cases e'
      rw [hp] at h'; cases h'
    · obtain ⟨b', ob, ox, e1, e2, e3, e4⟩ := (hlinks x (by omega) (hlt x o e)).2 hx
      rw [e] at e3; cases e3
      rw [hp] at e4; cases e4
      exact ⟨ob, e1, e2⟩

/-- The outcome of `parse` on objects and on pure trees. -/
theorem parseObjects_spec (rt : Runtime) (cfg : Config) (q : PyStr) :
    match (parseQuery rt cfg q).1 with
    | .error e => parseObjects rt cfg q = .error e
    | .ok n => ∃ a h, parseObjects rt cfg q = .ok (a, h) ∧ h.length = a + 1 ∧ HeapTree h n a none 0 := by
  unfold parseQuery parseObjects parseWith
  cases hr : (rawErrors rt q).map (listenerDetail q) with
  | cons e es => simp [Except.map]
  | nil =>
    simp only
    cases hp : parseTokens (tokenStream q) with
    | none => simp [Except.map]
    | some t =>
      obtain ⟨cst, hs, rfl⟩ := syntaxOf_of_parse hp
      simp only [buildWith_eq _ _ _ cst hs.wf]
      have := objs_query rt.toPyRuntime cfg cst []
      rcases hm : cst.mean pureAlloc rt.toPyRuntime cfg () with e | ⟨n, u⟩ <;> rw [hm] at this
      · simp only [AgreesT] at this
        rw [this]; simp [Except.map]
      · obtain ⟨a, h, e1, -, e3, e4⟩ := this
        rw [e1]; simp only [Except.map]
        exact ⟨a, h, rfl, e3, e4⟩

end Fcsql
