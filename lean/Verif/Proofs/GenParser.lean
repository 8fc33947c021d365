/-
The generated rule functions, driven by an ideal predictor, build the chosen derivation.
-/
import Verif.Spec.GenParser
import Verif.Model.ParserCode
import Verif.Proofs.AtnSeg

set_option autoImplicit false
set_option linter.unusedSimpArgs false

namespace Fcsql

/-! ### FIRST and FOLLOW -/

/-- Token types a rule can begin with. -/
def firstOf : Rule → List Int
  | .query => [1, 3, 23] | .main_query => [1, 3, 23] | .query_disjunction => [1, 3, 23]
  | .query_sequence => [1, 3, 23] | .query_group => [1] | .query_simple => [3, 23] | .quantifier => [9, 11, 12, 13]
  | .query_implicit => [23] | .query_segment => [3] | .within_part => [19] | .within_part_simple => [19]
  | .expression => [1, 7, 18, 19, 20, 21] | .expression_or => [1, 7, 18, 19, 20, 21]
  | .expression_and => [1, 7, 18, 19, 20, 21] | .expression_group => [1] | .expression_not => [7]
  | .expression_basic => [18, 19, 20, 21] | .attribute_ => [18, 19, 20, 21] | .qualifier => [18, 19, 20, 21]
  | .identifier => [18, 19, 20, 21] | .regexp => [23] | .regexp_pattern => [23] | .regexp_flag => [20]

/-- Token types an expression can begin with. -/
def G.first : G → List Int
  | .eps => []
  | .tok t => [t.num]
  | .rule r => firstOf r
  | .seq a b => a.first ++ if a.nullable then b.first else []
  | .alt a b => a.first ++ b.first
  | .star a => a.first

theorem firstOf_body (r : Rule) : ∀ k ∈ (body r).first, k ∈ firstOf r := by cases r <;> decide

theorem first_of_D {g : G} {ts : List Tok} {f : List PTree} {c : List Bool} (h : D g ts f c) {x : Tok} {xs : List Tok}
    (e : ts = x :: xs) : x.type.num ∈ g.first := by
  induction h generalizing x xs with
  | eps => cases e
  | tok h => cases e; simp [G.first, h]
  | rule _ ih => exact firstOf_body _ _ (ih e)
  | @seq a b ts ts' f f' c c' h h' ih ih' =>
    simp only [G.first, List.mem_append]
    cases ts with
    | nil =>
      right
      rw [nullable_of_D h rfl]
      exact ih' e
    | cons y ys => cases e; exact .inl (ih rfl)
  | altL _ ih => simp [G.first, ih e]
  | altR _ ih => simp [G.first, ih e]
  | starNil => cases e
  | @starCons a ts ts' f f' c c' h h' ih ih' =>
    cases ts with
    | nil => exact ih' e
    | cons y ys => cases e; exact ih rfl

/-- The next token, where an expression and then something that begins with a token in `F` follow. -/
theorem la_mem {g : G} {us vs : List Tok} {f : List PTree} {c : List Bool} (h : D g us f c) {F : List Int}
    (hF : la vs ∈ F) : la (us ++ vs) ∈ g.first ++ (if g.nullable then F else []) := by
  cases us with
  | nil =>
    rw [nullable_of_D h rfl]
    simpa using .inr hF
  | cons x xs =>
    exact List.mem_append_left _ (first_of_D h rfl)

/-! ### Contexts -/

section
variable {A : Atn}

theorem walk_stop (hA : Implements A) {e : Nat} (he : A.isStop e = true) {vs : List Tok} {f : List PTree} :
    Walk A e vs f ↔ vs = [] ∧ f = [] := by
  have ho := hA.stops _ he
  constructor
  · intro h
    cases h with
    | stop => exact ⟨rfl, rfl⟩
    | _ h => rw [ho] at h; simp at h
  · rintro ⟨rfl, rfl⟩; exact .stop he

theorem Seg.accepts (hA : Implements A) {g : G} {s e : Nat} (h : Seg A g s e) (ctx : List Nat) (ts : List Tok) :
    Accepts A s ctx ts ↔ ∃ us vs f c, ts = us ++ vs ∧ D g us f c ∧ Accepts A e ctx vs := by
  constructor
  · intro ha
    cases ha with
    | done hw =>
      obtain ⟨us, vs, f1, f2, c, h1, h2, h3, h4⟩ := (h.iff hA _ _).1 hw
      exact ⟨us, vs, f1, c, h1, h3, .done h4⟩
    | @ret _ st t ctx us' vs' f hw hf ha =>
      obtain ⟨us, vs, f1, f2, c, h1, h2, h3, h4⟩ := (h.iff hA _ _).1 hw
      exact ⟨us, vs ++ vs', f1, c, by rw [h1]; simp, h3, .ret h4 hf ha⟩
  · rintro ⟨us, vs, f, c, rfl, hd, ha⟩
    cases ha with
    | done hw => exact .done ((h.iff hA _ _).2 ⟨us, vs, f, _, c, rfl, rfl, hd, hw⟩)
    | @ret _ st t ctx us' vs' f' hw hf ha =>
      rw [← List.append_assoc]
      exact .ret ((h.iff hA _ _).2 ⟨us, us', f, _, c, rfl, rfl, hd, hw⟩) hf ha

theorem accepts_stop (hA : Implements A) {e : Nat} (he : A.isStop e = true) {st t : Nat} (hf : A.follow st = some t)
    {ctx : List Nat} {ts : List Tok} : Accepts A e (st :: ctx) ts ↔ Accepts A t ctx ts := by
  constructor
  · intro h
    cases h with
    | ret hw hf' ha =>
      obtain ⟨rfl, -⟩ := (walk_stop hA he).1 hw
      rw [hf] at hf'
      cases hf'
      exact ha
  · intro h
    exact .ret (us := []) (.stop he) hf h

theorem accepts_stop_nil (hA : Implements A) {e : Nat} (he : A.isStop e = true) {ts : List Tok} :
    Accepts A e [] ts ↔ ts = [] := by
  constructor
  · intro h
    cases h with
    | done hw => exact ((walk_stop hA he).1 hw).1
  · rintro rfl
    exact .done (.stop he)

theorem Accepts.expected {s : Nat} {ctx : List Nat} {ts : List Tok} (h : Accepts A s ctx ts) :
    Expected A s (la ts) := by
  cases h with
  | done hw => exact ⟨_, _, hw, fun x xs e => by subst e; rfl⟩
  | ret hw _ _ => exact ⟨_, _, hw, fun x xs e => by subst e; rfl⟩

end

/-! ### Alternatives, with decisions -/

/-- The decisions that lead to alternative `i` of `n`. -/
def altChoice (n i : Nat) : List Bool := List.replicate i true ++ if i + 1 < n then [false] else []

theorem altChoice_succ (n i : Nat) : altChoice (n + 1) (i + 1) = true :: altChoice n i := by
  simp [altChoice, List.replicate_succ]

theorem D_alts_choice {gs : List G} (h0 : gs ≠ []) {ts : List Tok} {f : List PTree} {c : List Bool} :
    D (G.alts gs) ts f c ↔
      ∃ (i : Nat) (h : i < gs.length) (c' : List Bool), c = altChoice gs.length i ++ c' ∧ D gs[i] ts f c' := by
  induction gs generalizing c with
  | nil => exact absurd rfl h0
  | cons a gs ih =>
    cases gs with
    | nil =>
      simp only [G.alts, List.length_singleton]
      constructor
      · intro h; exact ⟨0, by omega, c, rfl, h⟩
      · rintro ⟨i, hi, c', rfl, h⟩
        obtain rfl : i = 0 := by omega
        exact h
    | cons b gs =>
      have ih := @ih
      rw [G.alts_cons, D_alt]
      constructor
      · rintro (⟨c', rfl, h⟩ | ⟨c', rfl, h⟩)
        · exact ⟨0, by simp, c', by simp [altChoice], h⟩
        · obtain ⟨i, hi, c'', rfl, h'⟩ := (ih (by simp)).1 h
          refine ⟨i + 1, by simpa using hi, c'', ?_, by simpa using h'⟩
          rw [List.length_cons (a := a), altChoice_succ]; rfl
      · rintro ⟨i, hi, c', rfl, h⟩
        cases i with
        | zero => exact .inl ⟨c', by simp [altChoice], h⟩
        | succ i =>
          rw [List.length_cons, altChoice_succ]
          exact .inr ⟨_, rfl, (ih (by simp)).2 ⟨i, by simpa using hi, c', rfl, by simpa using h⟩⟩

theorem altChoice_before {n i j : Nat} (h : j < i) (hi : i < n) (x y : List Bool) :
    Before (altChoice n j ++ x) (altChoice n i ++ y) := by
  refine ⟨List.replicate j true, x, List.replicate (i - j - 1) true ++ ((if i + 1 < n then [false] else []) ++ y), ?_, ?_⟩
  · simp [altChoice, show j + 1 < n by omega]
  · have h1 : List.replicate i true = List.replicate j true ++ true :: List.replicate (i - j - 1) true := by
      rw [← List.replicate_succ, List.replicate_append_replicate]
      congr 1; omega
    simp only [altChoice]
    rw [h1]
    simp

/-! ### Code that implements a grammar expression -/

/-- Token types that can follow a rule. -/
def followOf : Rule → List Int
  | .query => [-1] | .main_query => [18, -1] | .query_disjunction => [2, 18, -1] | .query_sequence => [2, 5, 18, -1]
  | .query_group => [1, 2, 3, 5, 18, 23, -1] | .query_simple => [1, 2, 3, 5, 18, 23, -1]
  | .quantifier => [1, 2, 3, 5, 18, 23, -1]
  | .query_implicit => [1, 2, 3, 5, 9, 11, 12, 13, 18, 23, -1]
  | .query_segment => [1, 2, 3, 5, 9, 11, 12, 13, 18, 23, -1]
  | .within_part => [-1] | .within_part_simple => [-1]
  | .expression => [4] | .expression_or => [2, 4, 5, 6] | .expression_and => [2, 4, 5, 6]
  | .expression_group => [2, 4, 5, 6] | .expression_not => [2, 4, 5, 6] | .expression_basic => [2, 4, 5, 6]
  | .attribute_ => [15, 16] | .qualifier => [17] | .identifier => [15, 16]
  | .regexp => [1, 2, 3, 4, 5, 6, 9, 11, 12, 13, 18, 23, -1]
  | .regexp_pattern => [1, 2, 3, 4, 5, 6, 8, 9, 11, 12, 13, 18, 23, -1]
  | .regexp_flag => [1, 2, 3, 4, 5, 6, 9, 11, 12, 13, 18, 23, -1]

/-- `Impl A g code s e F`: the statements `code` implement the expression `g`, which is the part of the network from
`s` to `e`, where only tokens with types in `F` can follow. -/
inductive Impl (A : Atn) : G → List Stmt → Nat → Nat → List Int → Prop
  | pre {g : G} {c : List Stmt} {s s' e : Nat} {F : List Int} :
      A.out s = [.eps s'] → Impl A g c s' e F → Impl A g c s e F
  | post {g : G} {c : List Stmt} {s m e : Nat} {F : List Int} :
      Impl A g c s m F → A.out m = [.eps e] → Impl A g c s e F
  | sync {g : G} {c : List Stmt} {s e : Nat} {F : List Int} : Impl A g c s e F → Impl A g (.sync s :: c) s e F
  | eps {s : Nat} {F : List Int} : Impl A .eps [] s s F
  | tok {t : TokType} {s e : Nat} {F : List Int} :
      A.out s = [.atom t.num e] → Impl A (.tok t) [.matchTok s t.num] s e F
  | set {l : List (Int × Int)} {ks : List TokType} {t : LaTest} {s e : Nat} {F : List Int} : A.out s = [.set l e] →
      (ks ≠ [] ∧ 2 ≤ ks.length) → (∀ k : TokType, InIntervals k.num l ↔ k ∈ ks) → (∀ k : TokType, t.eval k.num = true ↔ k ∈ ks) →
      Impl A (G.alts (ks.map .tok)) [.matchSet s t] s e F
  | rule {r : Rule} {s e : Nat} {F : List Int} : A.out s = [.rule (A.start r) r.num e] → (∀ k ∈ F, k ∈ followOf r) →
      Impl A (.rule r) [.call s r] s e F
  | seq {a b : G} {c c' : List Stmt} {s m e : Nat} {F : List Int} :
      Impl A a c s m (b.first ++ if b.nullable then F else []) → Impl A b c' m e F →
      Impl A (.seq a b) (c ++ c') s e F
  | predict {gs : List G} {ss : List Nat} {bs : List (List Stmt)} {d s e : Nat} {F : List Int} :
      A.decisions[d]? = some s → A.out s = ss.map .eps → gs.length = ss.length → gs ≠ [] →
      (∀ (i : Nat) (h : i < gs.length) (h' : i < ss.length), Impl A gs[i] (branch bs (i + 1)) ss[i] e F) →
      Impl A (G.alts gs) [.predict d bs] s e F
  | switch {gs : List G} {ss : List Nat} {cs : List (List Int × List Stmt)} {s e : Nat} {F : List Int} :
      A.out s = ss.map .eps → gs.length = ss.length → gs.length = cs.length → gs ≠ [] →
      (∀ (i : Nat) (h : i < gs.length) (h' : i < ss.length) (h'' : i < cs.length),
        Impl A gs[i] cs[i].2 ss[i] e F) →
      (∀ (i : Nat) (h : i < gs.length) (h'' : i < cs.length),
        gs[i].nullable = false ∧ ∀ k ∈ gs[i].first, switchCase k cs = some cs[i].2) →
      Impl A (G.alts gs) [.switchLA cs] s e F
  | ifLA {a : G} {t : LaTest} {b : List Stmt} {s s1 s2 e : Nat} {F : List Int} : A.out s = [.eps s1, .eps s2] →
      Impl A a b s1 e F → Impl A .eps [] s2 e F → a.nullable = false → (∀ k ∈ a.first, t.eval k = true) →
      (∀ k ∈ F, t.eval k = false) → Impl A (.alt a .eps) [.ifLA t b] s e F
  | whileLA {a : G} {t : LaTest} {b : List Stmt} {s l x : Nat} {F : List Int} : A.out l = [.eps s, .eps x] →
      Impl A a b s l (a.first ++ F) → a.nullable = false → (∀ k ∈ a.first, t.eval k = true) →
      (∀ k ∈ F, t.eval k = false) → Impl A (.seq a (.star a)) [.whileLA b l t] s x F
  | whilePredict {a : G} {b : List Stmt} {s l x d : Nat} {F : List Int} : A.decisions[d]? = some l →
      A.out l = [.eps s, .eps x] → Impl A a b s l (a.first ++ F) → a.nullable = false →
      Impl A (.seq a (.star a)) [.whilePredict b l d] s x F

theorem Impl.seg {A : Atn} {g : G} {code : List Stmt} {s e : Nat} {F : List Int} (h : Impl A g code s e F) : Seg A g s e := by
  induction h with
  | pre ho _ ih => exact .pre ho ih
  | post _ ho ih => exact .post ih ho
  | sync _ ih => exact ih
  | eps => exact .eps
  | tok ho => exact .tok ho
  | set ho h0 hl _ => exact .set ho h0.1 hl
  | rule ho _ => exact .rule ho
  | seq _ _ ih ih' => exact .seq ih ih'
  | predict _ ho hl h0 _ ih => exact .alt ho hl h0 ih
  | switch ho hl hl' h0 _ _ ih => exact .alt ho hl h0 fun i hi hi' => (ih i hi hi' (by omega))
  | @ifLA a t b s s1 s2 e F ho _ _ _ _ _ ih ih' =>
    exact .alt (gs := [a, .eps]) (ss := [s1, s2]) ho rfl (by simp) fun i hi hi' => by
      match i, hi with
      | 0, _ => exact ih
      | 1, _ => exact ih'
  | whileLA ho _ _ _ _ ih => exact .seq ih (.star ho ih)
  | whilePredict _ ho _ _ ih => exact .seq ih (.star ho ih)

/-! ### Running code -/

/-- The statements run through, whatever follows, adding `f` and leaving `ts'`. -/
def Runs (P : Predictor) (prog : Rule → List Stmt) (ctx : List Nat) (code : List Stmt) (ts : List Tok) (f : List PTree)
    (ts' : List Tok) : Prop :=
  ∃ k N, ∀ n, N ≤ n → ∀ ss, exec P prog (k + n) ctx (code ++ ss) ts = (exec P prog n ctx ss ts').prepend f

theorem Res.prepend_nil (r : Res) : r.prepend [] = r := by cases r <;> rfl

theorem Res.prepend_prepend (r : Res) (f f' : List PTree) : (r.prepend f').prepend f = r.prepend (f ++ f') := by
  cases r <;> simp [Res.prepend]

section
variable {P : Predictor} {prog : Rule → List Stmt} {ctx : List Nat}

theorem Runs.nil {ts : List Tok} : Runs P prog ctx [] ts [] ts :=
  ⟨0, 0, fun n _ ss => by rw [Res.prepend_nil]; simp⟩

theorem Runs.append {c c' : List Stmt} {ts ts' ts'' : List Tok} {f f' : List PTree} (h : Runs P prog ctx c ts f ts')
    (h' : Runs P prog ctx c' ts' f' ts'') : Runs P prog ctx (c ++ c') ts (f ++ f') ts'' := by
  obtain ⟨k, N, h⟩ := h
  obtain ⟨k', N', h'⟩ := h'
  refine ⟨k + k', max N N', fun n hn ss => ?_⟩
  rw [List.append_assoc, Nat.add_assoc, h _ (by omega), h' _ (by omega), Res.prepend_prepend]

theorem Runs.step {s : Stmt} {c : List Stmt} {ts ts' : List Tok} {f : List PTree}
    (h : Runs P prog ctx c ts f ts')
    (hs : ∀ n ss, exec P prog (n + 1) ctx (s :: ss) ts = exec P prog n ctx (c ++ ss) ts) :
    Runs P prog ctx [s] ts f ts' := by
  obtain ⟨k, N, h⟩ := h
  refine ⟨k + 1, N, fun n hn ss => ?_⟩
  rw [show k + 1 + n = (k + n) + 1 by omega, List.singleton_append, hs, h _ hn]

theorem Runs.cons {s : Stmt} {c : List Stmt} {ts ts' : List Tok} {f : List PTree}
    (h : Runs P prog ctx c ts f ts')
    (hs : ∀ n ss, exec P prog (n + 1) ctx (s :: ss) ts = exec P prog n ctx ss ts) :
    Runs P prog ctx (s :: c) ts f ts' := by
  obtain ⟨k, N, h⟩ := h
  refine ⟨k + 1, N, fun n hn ss => ?_⟩
  rw [show k + 1 + n = (k + n) + 1 by omega, List.cons_append, hs, h _ hn]

end

/-! ### Least derivations -/

/-- `us`, `f`, `c` is the derivation that takes the earliest alternatives, among those of prefixes of `ts` whose rest
satisfies `K`; `vs` is the rest. -/
structure LeastRun (g : G) (K : List Tok → Prop) (ts us vs : List Tok) (f : List PTree) (c : List Bool) : Prop where
  split : ts = us ++ vs
  derives : D g us f c
  rest : K vs
  least : ∀ us' vs' f' c', ts = us' ++ vs' → D g us' f' c' → K vs' → ¬ Before c' c

theorem LeastRun.seq_left {a b : G} {K : List Tok → Prop} {ua ub vs : List Tok} {fa fb : List PTree} {ca cb : List Bool}
    (h : LeastRun (.seq a b) K ((ua ++ ub) ++ vs) (ua ++ ub) vs (fa ++ fb) (ca ++ cb)) (ha : D a ua fa ca) (hb : D b ub fb cb) :
    LeastRun a (fun w => ∃ us vs f c, w = us ++ vs ∧ D b us f c ∧ K vs) (ua ++ (ub ++ vs)) ua (ub ++ vs) fa ca := by
  refine ⟨rfl, ha, ⟨ub, vs, fb, cb, rfl, hb, h.rest⟩, ?_⟩
  rintro us' _ f' c' he hd ⟨us, vs', f, c, rfl, hd', hk⟩ hbef
  exact h.least (us' ++ us) vs' (f' ++ f) (c' ++ c) (by simpa using he) (.seq hd hd') hk hbef.append_right

theorem LeastRun.seq_right {a b : G} {K : List Tok → Prop} {ua ub vs : List Tok} {fa fb : List PTree} {ca cb : List Bool}
    (h : LeastRun (.seq a b) K ((ua ++ ub) ++ vs) (ua ++ ub) vs (fa ++ fb) (ca ++ cb)) (ha : D a ua fa ca) (hb : D b ub fb cb) :
    LeastRun b K (ub ++ vs) ub vs fb cb := by
  refine ⟨rfl, hb, h.rest, ?_⟩
  intro us' vs' f' c' he hd hk hbef
  exact h.least (ua ++ us') vs' (fa ++ f') (ca ++ c') (by simp [he]) (.seq ha hd) hk hbef.append_left

theorem LeastRun.congr {g : G} {K K' : List Tok → Prop} (hK : ∀ w, K w ↔ K' w) {ts us vs : List Tok} {f : List PTree}
    {c : List Bool} (h : LeastRun g K ts us vs f c) : LeastRun g K' ts us vs f c :=
  ⟨h.split, h.derives, (hK _).1 h.rest, fun _ _ _ _ a b d => h.least _ _ _ _ a b ((hK _).2 d)⟩

theorem LeastRun.alt_of {gs : List G} (h0 : gs ≠ []) {K : List Tok → Prop} {ts us vs : List Tok} {f : List PTree}
    {c : List Bool} (h : LeastRun (G.alts gs) K ts us vs f c) :
    ∃ (i : Nat) (hi : i < gs.length) (c' : List Bool), LeastRun gs[i] K ts us vs f c' ∧
      ∀ (j : Nat) (hj : j < i) (us' vs' : List Tok) (f' : List PTree) (c'' : List Bool),
        ts = us' ++ vs' → D (gs[j]'(by omega)) us' f' c'' → ¬ K vs' := by
  obtain ⟨i, hi, c', rfl, hd⟩ := (D_alts_choice h0).1 h.derives
  refine ⟨i, hi, c', ⟨h.split, hd, h.rest, ?_⟩, ?_⟩
  · intro us' vs' f' c'' he hd' hk hb
    exact h.least us' vs' f' _ he ((D_alts_choice h0).2 ⟨i, hi, c'', rfl, hd'⟩) hk hb.append_left
  · intro j hj us' vs' f' c'' he hd' hk
    exact h.least us' vs' f' _ he ((D_alts_choice h0).2 ⟨j, by omega, c'', rfl, hd'⟩) hk (altChoice_before hj hi _ _)

/-! ### Depth of trees -/

mutual
def PTree.depth : PTree → Nat
  | .leaf _ => 0
  | .node _ ks => PTree.depthL ks + 1
def PTree.depthL : List PTree → Nat
  | [] => 0
  | t :: ts => max t.depth (PTree.depthL ts)
end

theorem PTree.depthL_append (f f' : List PTree) : PTree.depthL (f ++ f') = max (PTree.depthL f) (PTree.depthL f') := by
  induction f with
  | nil => simp [PTree.depthL]
  | cons t f ih => simp only [List.cons_append, PTree.depthL, ih]; omega

/-! ### Completeness -/

/-- Every function implements its rule. -/
structure CodeOk (A : Atn) (prog : Rule → List Stmt) : Prop where
  impl : Implements A
  rule : ∀ r, ∃ e, A.isStop e = true ∧ Impl A (body r) (prog r) (A.start r) e (followOf r)

section
variable {A : Atn} {P : Predictor} {prog : Rule → List Stmt}

/-- The property proved of a segment of code, for derivations of bounded depth. -/
def Performs (A : Atn) (P : Predictor) (prog : Rule → List Stmt) (n : Nat) (g : G) (code : List Stmt) (e : Nat)
    (F : List Int) : Prop :=
  ∀ ctx ts us vs f c, (∀ w, Accepts A e ctx w → la w ∈ F) → LeastRun g (Accepts A e ctx) ts us vs f c →
    PTree.depthL f ≤ n → Runs P prog ctx code ts f vs

theorem performs_call (hc : CodeOk A prog) {n : Nat}
    (ih : ∀ r e, A.isStop e = true → Impl A (body r) (prog r) (A.start r) e (followOf r) →
      ∀ m, m < n → Performs A P prog m (body r) (prog r) e (followOf r))
    {r : Rule} {s e : Nat} {F : List Int} (ho : A.out s = [.rule (A.start r) r.num e])
    (hF : ∀ k ∈ F, k ∈ followOf r) : Performs A P prog n (.rule r) [.call s r] e F := by
  intro ctx ts us vs f c hla hl hdep
  obtain ⟨e', he, hi⟩ := hc.rule r
  have hf : A.follow s = some e := by simp [Atn.follow, ho]
  obtain ⟨f', hd, rfl⟩ := D_rule.1 hl.derives
  have hacc : ∀ w, Accepts A e' (s :: ctx) w ↔ Accepts A e ctx w := fun w => accepts_stop hc.impl he hf
  have hl' : LeastRun (body r) (Accepts A e' (s :: ctx)) ts us vs f' c := by
    refine ⟨hl.split, hd, (hacc _).2 hl.rest, ?_⟩
    intro us' vs' f'' c' h1 h2 h3
    exact hl.least us' vs' _ c' h1 (.rule h2) ((hacc _).1 h3)
  simp only [PTree.depthL, PTree.depth] at hdep
  obtain ⟨k, N, hrun⟩ := ih r e' he hi (n - 1) (by omega) (s :: ctx) ts us vs f' c
    (fun w hw => hF _ (hla _ ((hacc w).1 hw))) hl' (by omega)
  refine ⟨1, k + N + 1, fun m hm ss => ?_⟩
  obtain ⟨j, rfl⟩ : ∃ j, m = k + (j + 1) := ⟨m - k - 1, by omega⟩
  have h1 : exec P prog (k + (j + 1)) (s :: ctx) (prog r) ts = .ok f' vs := by
    have := hrun (j + 1) (by omega) []
    rw [List.append_nil] at this
    rw [this]
    simp [exec, Res.prepend]
  rw [show 1 + (k + (j + 1)) = (k + (j + 1)) + 1 by omega]
  simp only [List.singleton_append]
  conv => lhs; unfold exec
  simp only [h1]

theorem accepts_eps (hA : Implements A) {m e : Nat} (ho : A.out m = [.eps e]) {ctx : List Nat} {w : List Tok} :
    Accepts A m ctx w ↔ Accepts A e ctx w := by
  rw [(Seg.post Seg.eps ho).accepts hA]
  constructor
  · rintro ⟨us, vs, f, c, rfl, hd, h⟩
    obtain ⟨rfl, -, -⟩ := D_eps.1 hd
    exact h
  · intro h
    exact ⟨[], w, [], [], rfl, .eps, h⟩

theorem runs_sync (hP : P.Ideal A) {s : Nat} {ctx : List Nat} {ts ts' : List Tok} {f : List PTree} {code : List Stmt}
    (ha : Accepts A s ctx ts) (h : Runs P prog ctx code ts f ts') : Runs P prog ctx (.sync s :: code) ts f ts' :=
  h.cons fun n ss => by
    have := hP.sync s ctx ts ha.expected
    simp [exec, this]

theorem LeastRun.accepts (hA : Implements A) {g : G} {s e : Nat} (hs : Seg A g s e) {ctx : List Nat} {ts us vs : List Tok}
    {f : List PTree} {c : List Bool} (h : LeastRun g (Accepts A e ctx) ts us vs f c) : Accepts A s ctx ts :=
  (hs.accepts hA ctx ts).2 ⟨us, vs, f, c, h.split, h.derives, h.rest⟩

theorem LeastRun.star_cases {a : G} {K : List Tok → Prop} {ts us vs : List Tok} {f : List PTree} {c : List Bool}
    (h : LeastRun (.star a) K ts us vs f c) :
    (us = [] ∧ f = [] ∧ ts = vs ∧ ∀ us' vs' f' c', ts = us' ++ vs' → D (.seq a (.star a)) us' f' c' → ¬ K vs') ∨
    ∃ c', LeastRun (.seq a (.star a)) K ts us vs f c' := by
  rcases D_star.1 h.derives with ⟨rfl, rfl, rfl⟩ | ⟨ta, tb, fa, fb, ca, cb, rfl, rfl, rfl, ha, hb⟩
  · refine .inl ⟨rfl, rfl, h.split, ?_⟩
    intro us' vs' f' c' he hd hk
    obtain ⟨ta, tb, fa, fb, ca, cb, rfl, rfl, rfl, ha, hb⟩ := D_seq.1 hd
    exact h.least _ _ _ _ he (.starCons ha hb) hk before_false_true
  · refine .inr ⟨ca ++ cb, h.split, .seq ha hb, h.rest, ?_⟩
    intro us' vs' f' c' he hd hk hbef
    obtain ⟨ta', tb', fa', fb', ca', cb', rfl, rfl, rfl, ha', hb'⟩ := D_seq.1 hd
    exact h.least _ _ _ _ he (.starCons ha' hb') hk hbef.cons

/-- Loops: the tail of a loop (sync, then decide) runs the rest of the iterations, if it stops and goes on rightly. -/
theorem performs_loop (hA : Implements A) {n : Nat} {a : G} {b tail : List Stmt} {s l x : Nat} {F : List Int}
    (ho : A.out l = [.eps s, .eps x]) (hs : Seg A a s l) (hn : a.nullable = false)
    (hg : Performs A P prog n a b l (a.first ++ F))
    (hstop : ∀ ctx ts, la ts ∈ F → Accepts A l ctx ts → Accepts A x ctx ts → ¬ Accepts A s ctx ts →
      Runs P prog ctx tail ts [] ts)
    (hgo : ∀ ctx ts vs f, la ts ∈ a.first → Accepts A l ctx ts → Accepts A s ctx ts →
      Runs P prog ctx (b ++ tail) ts f vs → Runs P prog ctx tail ts f vs) :
    Performs A P prog n (.seq a (.star a)) (b ++ tail) x F ∧ Performs A P prog n (.star a) tail x F := by
  have hstar : Seg A (.star a) l x := .star ho hs
  have hseq : Seg A (.seq a (.star a)) s x := .seq hs hstar
  have key : ∀ (k : Nat) ctx ts us vs f c, us.length ≤ k → (∀ w, Accepts A x ctx w → la w ∈ F) →
      LeastRun (.seq a (.star a)) (Accepts A x ctx) ts us vs f c → PTree.depthL f ≤ n →
      (∀ ts us vs f c, us.length < k → LeastRun (.star a) (Accepts A x ctx) ts us vs f c → PTree.depthL f ≤ n →
        Runs P prog ctx tail ts f vs) → Runs P prog ctx (b ++ tail) ts f vs := by
    intro k ctx ts us vs f c hk hla hl hdep ih
    obtain ⟨ua, ub, fa, fb, ca, cb, rfl, rfl, rfl, ha, hb⟩ := D_seq.1 hl.derives
    obtain rfl := hl.split
    have h1 := (hl.seq_left ha hb).congr fun w => (hstar.accepts hA ctx w).symm
    have h2 := hl.seq_right ha hb
    rw [PTree.depthL_append] at hdep
    have hlen : 0 < ua.length := by
      cases ua with
      | nil => rw [nullable_of_D ha rfl] at hn; cases hn
      | cons => simp
    rw [List.length_append] at hk
    rw [List.append_assoc]
    refine (hg ctx _ ua _ fa ca ?_ h1 (by omega)).append (ih _ ub vs fb cb (by omega) h2 (by omega))
    intro w hw
    obtain ⟨us, vs, f, c, rfl, hd, hx⟩ := (hstar.accepts hA ctx w).1 hw
    simpa [G.first, G.nullable] using la_mem hd (hla _ hx)
  have key2 : ∀ (k : Nat) ctx, (∀ w, Accepts A x ctx w → la w ∈ F) → ∀ ts us vs f c, us.length < k →
      LeastRun (.star a) (Accepts A x ctx) ts us vs f c → PTree.depthL f ≤ n → Runs P prog ctx tail ts f vs := by
    intro k ctx hla
    induction k with
    | zero => intro ts us vs f c hk; omega
    | succ k ih =>
      intro ts us vs f c hk hl hdep
      rcases hl.star_cases with ⟨rfl, rfl, rfl, hno⟩ | ⟨c', hl'⟩
      · refine hstop ctx ts (hla _ hl.rest) (hl.accepts hA hstar) hl.rest ?_
        intro hacc
        obtain ⟨us, vs, f, c, he, hd, hx⟩ := (hseq.accepts hA ctx ts).1 hacc
        exact hno us vs f c he hd hx
      · refine hgo ctx ts vs f ?_ (hl.accepts hA hstar) (hl'.accepts hA hseq)
          (key k ctx ts us vs f c' (by omega) hla hl' hdep ih)
        obtain rfl := hl'.split
        have := la_mem hl'.derives (hla _ hl'.rest)
        simpa [G.first, G.nullable, hn] using this
  constructor
  · intro ctx ts us vs f c hla hl hdep
    exact key us.length ctx ts us vs f c (Nat.le_refl _) hla hl hdep (key2 us.length ctx hla)
  · intro ctx ts us vs f c hla hl hdep
    exact key2 (us.length + 1) ctx hla ts us vs f c (by omega) hl hdep

theorem performs_of_impl (hc : CodeOk A prog) (hP : P.Ideal A) (n : Nat) {g : G} {code : List Stmt} {s e : Nat} {F : List Int}
    (h : Impl A g code s e F) : Performs A P prog n g code e F := by
  induction n using Nat.strongRecOn generalizing g code s e F with
  | _ n ihn =>
    have hA := hc.impl
    induction h with
    | pre ho _ ih => exact ih
    | post _ ho ih =>
      intro ctx ts us vs f c hla hl hdep
      exact ih ctx ts us vs f c (fun w hw => hla w ((accepts_eps hA ho).1 hw))
        (hl.congr fun w => (accepts_eps hA ho).symm) hdep
    | sync hi ih =>
      intro ctx ts us vs f c hla hl hdep
      exact runs_sync hP (hl.accepts hA hi.seg) (ih ctx ts us vs f c hla hl hdep)
    | eps =>
      intro ctx ts us vs f c hla hl hdep
      obtain ⟨rfl, rfl, rfl⟩ := D_eps.1 hl.derives
      rw [hl.split]
      exact .nil
    | tok ho =>
      intro ctx ts us vs f c hla hl hdep
      obtain ⟨x, hx, rfl, rfl, rfl⟩ := D_tok.1 hl.derives
      rw [hl.split]
      refine ⟨1, 0, fun m _ ss => ?_⟩
      rw [Nat.add_comm]
      simp [exec, hx]
    | @set l ks t s e F ho h0 hl' ht =>
      obtain ⟨h0, -⟩ := h0
      intro ctx ts us vs f c hla hl hdep
      obtain ⟨x, hx, rfl, rfl⟩ := (D_alts_toks h0).1 ⟨_, hl.derives⟩
      rw [hl.split]
      refine ⟨1, 0, fun m _ ss => ?_⟩
      rw [Nat.add_comm]
      simp [exec, (ht _).2 hx]
    | rule ho hF =>
      exact performs_call hc (fun r e _ hi m hm => ihn m hm hi) ho hF
    | @seq a b c c' s m e F h1 h2 ih ih' =>
      intro ctx ts us vs f c hla hl hdep
      obtain ⟨ua, ub, fa, fb, ca, cb, rfl, rfl, rfl, ha, hb⟩ := D_seq.1 hl.derives
      obtain rfl := hl.split
      have hl1 := (hl.seq_left ha hb).congr fun w => (h2.seg.accepts hA ctx w).symm
      rw [PTree.depthL_append] at hdep
      rw [List.append_assoc]
      refine (ih ctx _ ua _ fa ca ?_ hl1 (by omega)).append (ih' ctx _ ub vs fb cb hla (hl.seq_right ha hb) (by omega))
      intro w hw
      obtain ⟨us, vs, f, c, rfl, hd, hx⟩ := (h2.seg.accepts hA ctx w).1 hw
      exact la_mem hd (hla _ hx)
    | @predict gs ss bs d s e F hd ho hlen h0 hi ih =>
      intro ctx ts us vs f c hla hl hdep
      obtain ⟨i, hi', c', hl', hno⟩ := hl.alt_of h0
      refine (ih i hi' (by omega) ctx ts us vs f c' hla hl' hdep).step fun m ss' => ?_
      have hout : ∀ j (hj : j < ss.length), (A.out s)[j]? = some (.eps ss[j]) := by
        intro j hj; rw [ho]; simp [hj]
      have hv : ViableAlt A d ctx ts (i + 1) :=
        ⟨s, ss[i], hd, by omega, by simpa using hout i (by omega), hl'.accepts hA (hi i hi' (by omega)).seg⟩
      have := hP.predict d ctx ts (i + 1) hv (by
        rintro j hj ⟨s', t, h1, h2, h3, h4⟩
        rw [hd] at h1
        cases h1
        rw [hout (j - 1) (by omega)] at h3
        cases h3
        obtain ⟨us', vs', f', c'', he, hd', hx⟩ :=
          ((hi (j - 1) (by omega) (by omega)).seg.accepts hA ctx ts).1 h4
        exact hno (j - 1) (by omega) us' vs' f' c'' he hd' hx)
      simp [exec, this]
    | @switch gs ss cs s e F ho hlen hlen' h0 hi hcond ih =>
      intro ctx ts us vs f c hla hl hdep
      obtain ⟨i, hi', c', hl', hno⟩ := hl.alt_of h0
      refine (ih i hi' (by omega) (by omega) ctx ts us vs f c' hla hl' hdep).step fun m ss' => ?_
      obtain ⟨hn, hf⟩ := hcond i hi' (by omega)
      have hmem : la ts ∈ gs[i].first := by
        have := la_mem hl'.derives (hla _ hl'.rest)
        rw [hl'.split]
        simpa [hn] using this
      simp [exec, hf _ hmem]
    | @ifLA a t b s s1 s2 e F ho h1 h2 hn hf hF ih ih' =>
      intro ctx ts us vs f c hla hl hdep
      have hl0 : LeastRun (G.alts [a, .eps]) (Accepts A e ctx) ts us vs f c := hl
      obtain ⟨i, hi', c', hl', hno⟩ := hl0.alt_of (by simp)
      match i, hi' with
      | 0, _ =>
        refine (ih ctx ts us vs f c' hla hl' hdep).step fun m ss' => ?_
        have hmem : la ts ∈ a.first := by
          have := la_mem hl'.derives (hla _ hl'.rest)
          rw [hl'.split]
          simpa [hn] using this
        simp [exec, hf _ hmem]
      | 1, _ =>
        refine (ih' ctx ts us vs f c' hla hl' hdep).step fun m ss' => ?_
        obtain ⟨rfl, -, -⟩ := D_eps.1 hl'.derives
        have hts := hl'.split
        simp only [List.nil_append] at hts
        subst hts
        simp [exec, hF _ (hla _ hl'.rest)]
    | @whileLA a t b s l x F ho h1 hn hf hF ih =>
      have := (performs_loop hA (tail := [.sync l, .ifLA t [.whileLA b l t]]) ho h1.seg hn ih ?_ ?_).1
      · intro ctx ts us vs f c hla hl hdep
        exact (this ctx ts us vs f c hla hl hdep).step fun m ss' => by simp [exec]
      · intro ctx ts hla hl _ _
        exact runs_sync hP hl (Runs.nil.step fun m ss' => by simp [exec, hF _ hla])
      · intro ctx ts vs f hla hl _ hr
        refine runs_sync hP hl (Runs.step (c := [.whileLA b l t]) (hr.step fun m ss' => ?_) fun m ss' => ?_)
        · simp [exec]
        · simp [exec, hf _ hla]
    | @whilePredict a b s l x d F hd ho h1 hn ih =>
      have := (performs_loop hA (tail := [.sync l, .loopPredict b l d]) ho h1.seg hn ih ?_ ?_).1
      · intro ctx ts us vs f c hla hl hdep
        exact (this ctx ts us vs f c hla hl hdep).step fun m ss' => by simp [exec]
      · intro ctx ts hla hl hx hno
        refine runs_sync hP hl (Runs.nil.step fun m ss' => ?_)
        have hp := hP.predict d ctx ts 2 ⟨l, x, hd, by omega, by rw [ho]; rfl, hx⟩ (by
          rintro j hj ⟨s', t', h1, h2, h3, h4⟩
          rw [hd] at h1
          cases h1
          obtain rfl : j = 1 := by omega
          rw [ho] at h3
          cases h3
          exact hno h4)
        simp [exec, hp]
      · intro ctx ts vs f hla hl hs hr
        refine runs_sync hP hl (Runs.step (c := [.whilePredict b l d]) (hr.step fun m ss' => ?_) fun m ss' => ?_)
        · simp [exec]
        · have hp := hP.predict d ctx ts 1 ⟨l, s, hd, by omega, by rw [ho]; rfl, hs⟩ (by
            rintro j hj ⟨s', t', h1, h2, h3, h4⟩
            omega)
          simp [exec, hp]

/-! ### Soundness, for any predictor -/

theorem Res.prepend_ok {r : Res} {f0 f : List PTree} {vs : List Tok} (h : r.prepend f0 = .ok f vs) :
    ∃ f2, r = .ok f2 vs ∧ f = f0 ++ f2 := by
  cases r with
  | ok f' ts => simp [Res.prepend] at h; obtain ⟨rfl, rfl⟩ := h; exact ⟨f', rfl, rfl⟩
  | error => cases h
  | timeout => cases h

/-- What a successful run of a segment of code has done, before the rest of the code. -/
def Did (P : Predictor) (prog : Rule → List Stmt) (g : G) (m : Nat) (ctx : List Nat) (ss : List Stmt) (ts : List Tok)
    (f : List PTree) (vs : List Tok) : Prop :=
  ∃ us ts' f1 f2 c m', ts = us ++ ts' ∧ f = f1 ++ f2 ∧ D g us f1 c ∧ m' ≤ m ∧
    exec P prog m' ctx ss ts' = .ok f2 vs

theorem Did.mono {g : G} {m m' : Nat} {ctx : List Nat} {ss : List Stmt} {ts vs : List Tok}
    {f : List PTree} (h : Did P prog g m ctx ss ts f vs) (hm : m ≤ m') : Did P prog g m' ctx ss ts f vs := by
  obtain ⟨us, ts', f1, f2, c, k, h1, h2, h3, h4, h5⟩ := h
  exact ⟨us, ts', f1, f2, c, k, h1, h2, h3, by omega, h5⟩

theorem Did.alts {gs : List G} {i : Nat} (hi : i < gs.length) {m : Nat} {ctx : List Nat} {ss : List Stmt}
    {ts vs : List Tok} {f : List PTree} (h : Did P prog gs[i] m ctx ss ts f vs) :
    Did P prog (G.alts gs) m ctx ss ts f vs := by
  have h0 : gs ≠ [] := by intro h; subst h; simp at hi
  obtain ⟨us, ts', f1, f2, c, k, h1, h2, h3, h4, h5⟩ := h
  obtain ⟨c', h3'⟩ := (D_alts h0).2 ⟨i, hi, c, h3⟩
  exact ⟨us, ts', f1, f2, c', k, h1, h2, h3', h4, h5⟩

theorem exec_zero {ctx : List Nat} {ss : List Stmt} {ts vs : List Tok} {f : List PTree}
    (h : exec P prog 0 ctx ss ts = .ok f vs) : False := by
  unfold exec at h; cases h

theorem switchCase_some {k : Int} {cs : List (List Int × List Stmt)} {b : List Stmt} (h : switchCase k cs = some b) :
    ∃ (i : Nat) (hi : i < cs.length), cs[i].2 = b := by
  induction cs with
  | nil => cases h
  | cons p cs ih =>
    obtain ⟨ks, b'⟩ := p
    simp only [switchCase] at h
    split at h
    · cases h; exact ⟨0, by simp, rfl⟩
    · obtain ⟨i, hi, h⟩ := ih h
      exact ⟨i + 1, by simpa using hi, by simpa using h⟩

/-- The predictor answers only with alternatives that exist. -/
def Predictor.InRange (P : Predictor) (A : Atn) : Prop :=
  ∀ d ctx ts i s, P.predict d ctx ts = some i → A.decisions[d]? = some s → 1 ≤ i ∧ i ≤ (A.out s).length

theorem did_of_impl (hc : CodeOk A prog) (hR : P.InRange A) (n : Nat) {g : G} {code : List Stmt} {s e : Nat}
    {F : List Int} (h : Impl A g code s e F) : ∀ m, m ≤ n → ∀ ctx ss ts f vs,
      exec P prog m ctx (code ++ ss) ts = .ok f vs → Did P prog g m ctx ss ts f vs := by
  induction n using Nat.strongRecOn generalizing g code s e F with
  | _ n ihn =>
    induction h with
    | pre ho _ ih => exact ih
    | post _ ho ih => exact ih
    | sync hi ih =>
      intro m hm ctx ss ts f vs h
      cases m with
      | zero => exact (exec_zero h).elim
      | succ m =>
        simp only [List.cons_append, exec] at h
        split at h
        · exact (ih m (by omega) ctx ss ts f vs h).mono (by omega)
        · cases h
    | eps =>
      intro m hm ctx ss ts f vs h
      exact ⟨[], ts, [], f, [], m, rfl, rfl, .eps, Nat.le_refl _, h⟩
    | tok ho =>
      intro m hm ctx ss ts f vs h
      cases m with
      | zero => exact (exec_zero h).elim
      | succ m =>
        simp only [List.cons_append, List.nil_append, exec] at h
        split at h
        · cases h
        · rename_i x xs
          split at h
          · rename_i hx
            obtain ⟨f2, h2, rfl⟩ := Res.prepend_ok h
            exact ⟨[x], xs, [.leaf x], f2, [], m, rfl, rfl, .tok (TokType.num_inj hx), by omega, h2⟩
          · cases h
    | @set l ks t s e F ho h0 hl' ht =>
      obtain ⟨h0, -⟩ := h0
      intro m hm ctx ss ts f vs h
      cases m with
      | zero => exact (exec_zero h).elim
      | succ m =>
        simp only [List.cons_append, List.nil_append, exec] at h
        split at h
        · cases h
        · rename_i x xs
          split at h
          · rename_i hx
            obtain ⟨f2, h2, rfl⟩ := Res.prepend_ok h
            obtain ⟨c, hd⟩ := (D_alts_toks h0 (ts := [x]) (f := [.leaf x])).2 ⟨x, (ht _).1 hx, rfl, rfl⟩
            exact ⟨[x], xs, [.leaf x], f2, c, m, rfl, rfl, hd, by omega, h2⟩
          · cases h
    | @rule r s e F ho hF =>
      intro m hm ctx ss ts f vs h
      cases m with
      | zero => exact (exec_zero h).elim
      | succ m =>
        simp only [List.cons_append, List.nil_append, exec] at h
        split at h
        · rename_i f' ts' hr
          obtain ⟨f2, h2, rfl⟩ := Res.prepend_ok h
          obtain ⟨e', he, hi⟩ := hc.rule r
          obtain ⟨us, ts'', f1, f2', c, k, h1, h2', h3, h4, h5⟩ :=
            ihn m (by omega) hi m (Nat.le_refl _) (s :: ctx) [] ts f' ts' (by rw [List.append_nil]; exact hr)
          cases k with
          | zero => exact (exec_zero h5).elim
          | succ k =>
            simp only [exec, Res.ok.injEq] at h5
            obtain ⟨rfl, rfl⟩ := h5
            rw [List.append_nil] at h2'
            subst h2'
            exact ⟨us, ts'', [.node r f'], f2, c, m, h1, rfl, .rule h3, by omega, h2⟩
        · cases h
        · cases h
    | @seq a b c c' s m e F h1 h2 ih ih' =>
      intro m hm ctx ss ts f vs h
      rw [List.append_assoc] at h
      obtain ⟨us, ts', f1, f2, c1, k, h1, h2, h3, h4, h5⟩ := ih m hm ctx _ ts f vs h
      obtain ⟨us', ts'', f1', f2', c1', k', h1', h2', h3', h4', h5'⟩ := ih' k (by omega) ctx ss ts' f2 vs h5
      exact ⟨us ++ us', ts'', f1 ++ f1', f2', _, k', by rw [h1, h1']; simp, by rw [h2, h2']; simp, .seq h3 h3',
        by omega, h5'⟩
    | @predict gs ss0 bs d s e F hd ho hlen h0 hi ih =>
      intro m hm ctx ss ts f vs h
      cases m with
      | zero => exact (exec_zero h).elim
      | succ m =>
        simp only [List.cons_append, List.nil_append, exec] at h
        split at h
        · cases h
        · rename_i a ha
          obtain ⟨h1, h2⟩ := hR _ _ _ _ _ ha hd
          rw [ho, List.length_map, ← hlen] at h2
          obtain ⟨i, rfl⟩ : ∃ i, a = i + 1 := ⟨a - 1, by omega⟩
          exact ((ih i (by omega) (by omega) m (by omega) ctx ss ts f vs h).mono (by omega)).alts (by omega)
    | @switch gs ss0 cs s e F ho hlen hlen' h0 hi hcond ih =>
      intro m hm ctx ss ts f vs h
      cases m with
      | zero => exact (exec_zero h).elim
      | succ m =>
        simp only [List.cons_append, List.nil_append, exec] at h
        split at h
        · cases h
        · rename_i b hb
          obtain ⟨i, hi', rfl⟩ := switchCase_some hb
          exact ((ih i (by omega) (by omega) (by omega) m (by omega) ctx ss ts f vs h).mono (by omega)).alts (by omega)
    | @ifLA a t b s s1 s2 e F ho h1 h2 hn hf hF ih ih' =>
      intro m hm ctx ss ts f vs h
      cases m with
      | zero => exact (exec_zero h).elim
      | succ m =>
        simp only [List.cons_append, List.nil_append, exec] at h
        split at h
        · exact ((ih m (by omega) ctx ss ts f vs h).mono (by omega)).alts (gs := [a, .eps]) (i := 0) (by simp)
        · exact ((ih' m (by omega) ctx ss ts f vs h).mono (by omega)).alts (gs := [a, .eps]) (i := 1) (by simp)
    | @whileLA a t b s l x F ho h1 hn hf hF ih =>
      intro m
      induction m using Nat.strongRecOn with
      | _ m ihm =>
        intro hm ctx ss ts f vs h
        cases m with
        | zero => exact (exec_zero h).elim
        | succ m =>
          simp only [List.cons_append, List.nil_append, exec] at h
          obtain ⟨us, ts', f1, f2, c1, k, h1, h2, h3, h4, h5⟩ := ih m (by omega) ctx _ ts f vs h
          match k, h5 with
          | 0, h5 => exact (exec_zero h5).elim
          | 1, h5 => simp only [exec] at h5; split at h5 <;> cases h5
          | k + 2, h5 =>
            simp only [exec] at h5
            split at h5
            · split at h5
              · obtain ⟨us', ts'', f1', f2', c1', k', h1', h2', h3', h4', h5'⟩ :=
                  ihm k (by omega) (by omega) ctx ss ts' f2 vs h5
                obtain ⟨ta, tb, fa, fb, ca, cb, rfl, rfl, rfl, ha, hb⟩ := D_seq.1 h3'
                exact ⟨us ++ (ta ++ tb), ts'', f1 ++ (fa ++ fb), f2', _, k', by rw [h1, h1']; simp,
                  by rw [h2, h2']; simp, .seq h3 (.starCons ha hb), by omega, h5'⟩
              · exact ⟨us ++ [], ts', f1 ++ [], f2, _, k, by rw [h1]; simp, by rw [h2]; simp, .seq h3 .starNil,
                  by omega, h5⟩
            · cases h5
    | @whilePredict a b s l x d F hd ho h1 hn ih =>
      intro m
      induction m using Nat.strongRecOn with
      | _ m ihm =>
        intro hm ctx ss ts f vs h
        cases m with
        | zero => exact (exec_zero h).elim
        | succ m =>
          simp only [List.cons_append, List.nil_append, exec] at h
          obtain ⟨us, ts', f1, f2, c1, k, h1, h2, h3, h4, h5⟩ := ih m (by omega) ctx _ ts f vs h
          match k, h5 with
          | 0, h5 => exact (exec_zero h5).elim
          | 1, h5 => simp only [exec] at h5; split at h5 <;> cases h5
          | k + 2, h5 =>
            simp only [exec] at h5
            split at h5
            · split at h5
              · cases h5
              · split at h5
                · exact ⟨us ++ [], ts', f1 ++ [], f2, _, k, by rw [h1]; simp, by rw [h2]; simp, .seq h3 .starNil,
                    by omega, h5⟩
                · split at h5
                  · obtain ⟨us', ts'', f1', f2', c1', k', h1', h2', h3', h4', h5'⟩ :=
                      ihm k (by omega) (by omega) ctx ss ts' f2 vs h5
                    obtain ⟨ta, tb, fa, fb, ca, cb, rfl, rfl, rfl, ha, hb⟩ := D_seq.1 h3'
                    exact ⟨us ++ (ta ++ tb), ts'', f1 ++ (fa ++ fb), f2', _, k', by rw [h1, h1']; simp,
                      by rw [h2, h2']; simp, .seq h3 (.starCons ha hb), by omega, h5'⟩
                  · cases h5
            · cases h5

end

end Fcsql
