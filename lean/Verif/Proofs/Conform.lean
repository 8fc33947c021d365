/-
The contexts of the tree built for any query look as their grammar rules say.
-/
import Verif.Proofs.ErrorTree
import Verif.Proofs.GenCheck
import Verif.Spec.Conform

set_option autoImplicit false
set_option linter.unusedSimpArgs false

namespace Fcsql

variable {A : Atn} {eof : Tok} {prog : Rule → List Stmt}

/-! ### Error nodes -/

theorem kept_append (f g : List ETree) : kept (f ++ g) = kept f ++ kept g := List.filter_append ..

theorem kept_errors {f : List ETree} (h : ∀ t ∈ f, t.isError = true) : kept f = [] := by
  unfold kept
  rw [List.filter_eq_nil_iff]
  intro t ht
  simp [h t ht]

theorem isError_nodeFor {s : EState} (h : s.recovering = true) (t : Tok) : (s.nodeFor t).isError = true := by
  simp [EState.nodeFor, h, ETree.isError]

theorem nodeFor_calm {s : EState} (h : s.recovering = false) (t : Tok) : s.nodeFor t = .leaf t := by simp [EState.nodeFor, h]

theorem errors_skipped {s : EState} (h : s.recovering = true) (j : Nat) : ∀ t ∈ s.skipped j, t.isError = true := by
  intro t ht
  obtain ⟨x, -, rfl⟩ := List.mem_map.1 ht
  exact isError_nodeFor h x

theorem recovering_report (t : Tok) (m : PyStr) (s : EState) : (s.report t m).recovering = true := by
  unfold EState.report
  split
  · assumption
  · rfl

theorem recovering_unwanted (ctx : List Nat) (s : EState) : (reportUnwanted A eof ctx s).recovering = true := recovering_report ..

theorem recovering_failure (ctx : List Nat) (f : Failure) (s : EState) : (reportFailure A eof ctx f s).recovering = true := by
  unfold reportFailure
  split
  · assumption
  · split <;> exact recovering_report ..

theorem errors_caught (ctx : List Nat) (f : Failure) (s : EState) : ∀ t ∈ caughtTrees A eof ctx f s, t.isError = true := by
  have h := recovering_failure (A := A) (eof := eof) ctx f s
  unfold caughtTrees recoverTrees
  dsimp only
  intro t ht
  rcases List.mem_append.1 ht with ht | ht
  · split at ht
    · rcases List.mem_singleton.1 ht with rfl
      exact isError_nodeFor h _
    · cases ht
  · exact errors_skipped (s := (reportFailure A eof ctx f s).skip _) h _ t ht

theorem errors_sync (ctx : List Nat) (s : EState) : ∀ t ∈ syncTrees A eof ctx s, t.isError = true := by
  unfold syncTrees
  dsimp only
  intro t ht
  split at ht
  · cases ht
  · split at ht
    · cases ht
    · split at ht
      · split at ht
        · rcases List.mem_singleton.1 ht with rfl
          exact isError_nodeFor (recovering_unwanted ctx _) _
        · cases ht
      · split at ht
        · exact errors_skipped (recovering_unwanted ctx s) _ t ht
        · cases ht

/-! ### What a match adds -/

/-- What is expected where a token, or one of a set, has to come. -/
theorem nextTokens_atom (hA : A.StopsEnd) {s e : Nat} {k : Int} (ho : A.out s = [.atom k e]) : A.nextTokens s = [some [(k, k)]] := by
  have hs : A.isStop s = false := by
    cases h : A.isStop s with
    | false => rfl
    | true => rw [hA s h] at ho; cases ho
  rw [Atn.nextTokens, Atn.lookSet, if_neg (by simp [hs]), ho]
  rfl

theorem nextTokens_set (hA : A.StopsEnd) {s e : Nat} {l : List (Int × Int)} (ho : A.out s = [.set l e]) : A.nextTokens s = [some l] := by
  have hs : A.isStop s = false := by
    cases h : A.isStop s with
    | false => rfl
    | true => rw [hA s h] at ho; cases ho
  rw [Atn.nextTokens, Atn.lookSet, if_neg (by simp [hs]), ho]
  rfl

theorem expected_one {s : Nat} {l : List (Int × Int)} (h : A.nextTokens s = [some l]) (ctx : List Nat) (k : Int) :
    A.expectedTok k s ctx = true ↔ InIntervals k l := by
  cases ctx <;> simp [Atn.expectedTok, h, Atn.hasTok, Atn.hasEps, InIntervals]

/-- The type of the token after the one that is deleted. -/
theorem current_la2 (he : eof.type = .EOF) {s : EState} (h : Line s.rest) (ctx : List Nat) :
    (((reportUnwanted A eof ctx s).skip 1).current eof).type.num = la2 s.rest := by
  have h1 := rest_unwanted' (A := A) (eof := eof) ctx s
  have h3 : ((reportUnwanted A eof ctx s).skip 1).rest = skipTo 1 s.rest := by
    change skipTo 1 (reportUnwanted A eof ctx s).rest = _
    rw [h1]
  unfold EState.current
  rw [h3]
  cases hr : s.rest with
  | nil => simp [skipTo, la2, la, he, TokType.num]
  | cons x xs =>
    rw [hr] at h
    cases xs with
    | nil =>
      have hx : x.type = .EOF := by
        rcases h with h | ⟨us, e, h4, h5, -⟩
        · cases h
        · cases us with
          | nil => cases h4; exact h5
          | cons y us => cases us <;> cases h4
      simp [skipTo, la2, la, hx, TokType.num]
    | cons y ys => simp [skipTo, la2]

theorem missingType_one {s : EState} {k : TokType} (h : A.nextTokens s.state = [some [(k.num, k.num)]]) (ctx : List Nat) :
    missingType A ctx s = k.num := by
  unfold missingType
  have : (typeNumbers.filter fun j => A.expectedTok j s.state ctx) = typeNumbers.filter fun j => decide (j = k.num) := by
    apply List.filter_congr
    intro j _
    rw [Bool.eq_iff_iff, expected_one h]
    simp [InIntervals]
    omega
  rw [this]
  cases k <;> rfl

/-- What `match` has added when it goes on. -/
theorem fits_match (hA : A.StopsEnd) (he : eof.type = .EOF) {k : TokType} {st e : Nat} (ho : A.out st = [.atom k.num e]) (ctx : List Nat)
    {s s' : EState} (hs : s.state = st) (hl : Line s.rest) (h : matchE A eof ctx (fun j => decide (j = k.num)) s = .go s') :
    Shaped (.tok k) (kept (matchTrees A eof true ctx (fun j => decide (j = k.num)) s)) := by
  have hn := nextTokens_atom hA ho
  rw [← hs] at hn
  have inline : inlineE A eof ctx s = .go s' → Shaped (.tok k) (kept (inlineTrees A eof true ctx s)) := by
    intro hi
    unfold inlineE at hi
    unfold inlineTrees
    dsimp only at hi ⊢
    split at hi
    · rename_i hd
      rw [if_pos hd]
      have hk : la2 s.rest = k.num := by
        have := (expected_one hn ctx _).1 hd
        obtain ⟨p, hp, h1, h2⟩ := this
        rcases List.mem_singleton.1 hp with rfl
        exact Int.le_antisymm h2 h1
      have hx := current_la2 (A := A) he (s := s.look 1) hl ctx
      rw [show la2 (s.look 1).rest = k.num from hk] at hx
      rw [kept, List.filter_cons_of_neg (by rw [isError_nodeFor (recovering_unwanted ctx _)]; simp), nodeFor_calm rfl]
      have := Shaped.tok (((reportUnwanted A eof ctx (s.look 1)).skip 1).current eof)
      rw [TokType.num_inj hx] at this
      exact this
    · rename_i hd
      rw [if_neg hd]
      split at hi
      · rename_i hc
        rw [if_pos hc, if_pos rfl, missingType_one (s := s.look 1) hn ctx]
        exact .made k
      · cases hi
  unfold matchE at h
  unfold matchTrees
  cases hr : s.rest with
  | nil => rw [hr] at h; exact inline h
  | cons x xs =>
    rw [hr] at h
    dsimp only at h ⊢
    split
    · rename_i hx
      rw [nodeFor_calm rfl]
      have := Shaped.tok x
      rw [TokType.num_inj (of_decide_eq_true hx)] at this
      exact this
    · rename_i hx
      rw [if_neg hx] at h
      exact inline h

theorem shaped_alts {gs : List G} {f : List ETree} : ∀ (i : Nat) (h : i < gs.length), Shaped gs[i] f → Shaped (G.alts gs) f := by
  induction gs with
  | nil => intro i h; cases h
  | cons a gs ih =>
    intro i h hf
    cases gs with
    | nil =>
      obtain rfl : i = 0 := by simpa using h
      exact hf
    | cons b gs =>
      rw [G.alts_cons]
      cases i with
      | zero => exact .altL hf
      | succ i => exact .altR (ih i (by simpa using h) hf)

theorem fits_tok_of {ks : List TokType} {x : Tok} (h : x.type ∈ ks) : Shaped (G.alts (ks.map .tok)) [.leaf x] := by
  obtain ⟨i, hi, hx⟩ := List.mem_iff_getElem.1 h
  refine shaped_alts i (by simpa using hi) ?_
  rw [List.getElem_map, hx]
  exact .tok x

/-- What the test of a token set has added when it goes on. -/
theorem fits_matchSet (hA : A.StopsEnd) (he : eof.type = .EOF) {ks : List TokType} {l : List (Int × Int)} {t : LaTest} {st e : Nat}
    (ho : A.out st = [.set l e]) (h2 : 2 ≤ ks.length) (hks : ∀ k : TokType, InIntervals k.num l ↔ k ∈ ks)
    (ht : ∀ k : TokType, t.eval k.num = true ↔ k ∈ ks) (ctx : List Nat)
    {s s' : EState} (hs : s.state = st) (hl : Line s.rest) (h : matchE A eof ctx t.eval s = .go s') :
    Shaped (G.alts (ks.map .tok)) (kept (matchTrees A eof false ctx t.eval s)) := by
  have hn := nextTokens_set hA ho
  rw [← hs] at hn
  have inline : inlineE A eof ctx s = .go s' → Shaped (G.alts (ks.map .tok)) (kept (inlineTrees A eof false ctx s)) := by
    intro hi
    unfold inlineE at hi
    unfold inlineTrees
    dsimp only at hi ⊢
    split at hi
    · rename_i hd
      rw [if_pos hd]
      have hk : InIntervals (la2 s.rest) l := (expected_one hn ctx _).1 hd
      have hx := current_la2 (A := A) he (s := s.look 1) hl ctx
      rw [show la2 (s.look 1).rest = la2 s.rest from rfl] at hx
      rw [← hx] at hk
      rw [kept, List.filter_cons_of_neg (by rw [isError_nodeFor (recovering_unwanted ctx _)]; simp), nodeFor_calm rfl]
      exact fits_tok_of ((hks _).1 hk)
    · rename_i hd
      rw [if_neg hd]
      split at hi
      · rename_i hc
        rw [if_pos hc]
        exact .gap h2
      · cases hi
  unfold matchE at h
  unfold matchTrees
  cases hr : s.rest with
  | nil => rw [hr] at h; exact inline h
  | cons x xs =>
    rw [hr] at h
    dsimp only at h ⊢
    split
    · rename_i hx
      rw [nodeFor_calm rfl]
      exact fits_tok_of ((ht _).1 hx)
    · rename_i hx
      rw [if_neg hx] at h
      exact inline h

/-- Everything can be made up. -/
theorem shaped_some : ∀ g : G, ∃ f, Shaped g f
  | .eps => ⟨_, .eps⟩
  | .tok t => ⟨_, .made t⟩
  | .rule r => ⟨_, .rule r true []⟩
  | .seq a b => by
    obtain ⟨f, hf⟩ := shaped_some a
    obtain ⟨f', hf'⟩ := shaped_some b
    exact ⟨_, .seq hf hf'⟩
  | .alt a b => by
    obtain ⟨f, hf⟩ := shaped_some a
    exact ⟨_, .altL hf⟩
  | .star a => ⟨_, .starNil⟩

/-! ### The run -/

/-- A run of code for `g`, with more statements to follow: it comes to these, having added what `g` asks for; or it ends before,
having added the beginning of that. -/
def DidN (A : Atn) (eof : Tok) (prog : Rule → List Stmt) (g : G) (n : Nat) (ctx : List Nat) (ss : List Stmt) (o : NOut) : Prop :=
  (∃ f s k, k ≤ n ∧ Line s.rest ∧ Shaped g (kept f) ∧ o = (execN A eof prog k ctx ss s).prepend f) ∨
  (∃ f j s more, o = .raised f j s ∧ Shaped g (kept f ++ more)) ∨ ∃ s, o = .timeout s

theorem prepend_nil (o : NOut) : o.prepend [] = o := by cases o <;> rfl

theorem prepend_prepend (f g : List ETree) (o : NOut) : (o.prepend g).prepend f = o.prepend (f ++ g) := by
  cases o <;> simp [NOut.prepend]

theorem DidN.mono {g : G} {n m : Nat} {ctx : List Nat} {ss : List Stmt} {o : NOut} (h : DidN A eof prog g n ctx ss o) (hm : n ≤ m) :
    DidN A eof prog g m ctx ss o := by
  rcases h with ⟨f, s, k, h1, h2, h3, h4⟩ | h
  · exact .inl ⟨f, s, k, by omega, h2, h3, h4⟩
  · exact .inr h

theorem DidN.map {g g' : G} {n : Nat} {ctx : List Nat} {ss : List Stmt} {o : NOut} (h : DidN A eof prog g n ctx ss o)
    (hg : ∀ f, Shaped g f → Shaped g' f) : DidN A eof prog g' n ctx ss o := by
  rcases h with ⟨f, s, k, h1, h2, h3, h4⟩ | ⟨f, j, s, more, h1, h2⟩ | h
  · exact .inl ⟨f, s, k, h1, h2, hg _ h3, h4⟩
  · exact .inr (.inl ⟨f, j, s, more, h1, hg _ h2⟩)
  · exact .inr (.inr h)

theorem DidN.stop {g : G} {n : Nat} {ctx : List Nat} {ss : List Stmt} {f : List ETree} (hf : kept f = []) (j : Failure) (s : EState) :
    DidN A eof prog g n ctx ss (.raised f j s) := by
  obtain ⟨more, h⟩ := shaped_some g
  exact .inr (.inl ⟨f, j, s, more, rfl, by rw [hf]; exact h⟩)

/-- Error nodes before it. -/
theorem DidN.errors {g : G} {n : Nat} {ctx : List Nat} {ss : List Stmt} {o : NOut} {f : List ETree} (hf : kept f = [])
    (h : DidN A eof prog g n ctx ss o) : DidN A eof prog g n ctx ss (o.prepend f) := by
  rcases h with ⟨f', s, k, h1, h2, h3, rfl⟩ | ⟨f', j, s, more, rfl, h2⟩ | ⟨s, rfl⟩
  · exact .inl ⟨f ++ f', s, k, h1, h2, by rw [kept_append, hf]; exact h3, prepend_prepend ..⟩
  · exact .inr (.inl ⟨f ++ f', j, s, more, rfl, by rw [kept_append, hf]; exact h2⟩)
  · exact .inr (.inr ⟨s, rfl⟩)

/-- One after the other. -/
theorem DidN.seq {a b : G} {n : Nat} {ctx : List Nat} {ss ss' : List Stmt} {o : NOut} (h : DidN A eof prog a n ctx ss o)
    (hb : ∀ k s, k ≤ n → Line s.rest → DidN A eof prog b k ctx ss' (execN A eof prog k ctx ss s)) : DidN A eof prog (.seq a b) n ctx ss' o := by
  rcases h with ⟨f, s, k, h1, h2, h3, rfl⟩ | ⟨f, j, s, more, rfl, h2⟩ | h
  · rcases hb k s h1 h2 with ⟨f', s', k', h1', h2', h3', h4'⟩ | ⟨f', j, s', more, h1', h2'⟩ | ⟨s', h'⟩
    · exact .inl ⟨f ++ f', s', k', by omega, h2', by rw [kept_append]; exact .seq h3 h3', by rw [h4', prepend_prepend]⟩
    · refine .inr (.inl ⟨f ++ f', j, s', more, by rw [h1']; rfl, ?_⟩)
      rw [kept_append, List.append_assoc]
      exact .seq h3 h2'
    · exact .inr (.inr ⟨s', by rw [h']; rfl⟩)
  · obtain ⟨more', h'⟩ := shaped_some b
    refine .inr (.inl ⟨f, j, s, more ++ more', rfl, ?_⟩)
    rw [← List.append_assoc]
    exact .seq h2 h'
  · exact .inr (.inr h)

theorem fits_star_cons {a : G} {f : List ETree} (h : Shaped (.seq a (.star a)) f) : Shaped (.star a) f := by
  generalize hg : G.seq a (.star a) = g at h
  cases h with
  | seq h1 h2 => cases hg; exact .starCons h1 h2
  | @gap ks h2 =>
    match ks, h2 with
    | _ :: _ :: _, _ => cases hg
  | _ => cases hg

/-- After a statement that goes on or raises. -/
theorem didN_step {g : G} {n : Nat} {ctx : List Nat} {ss : List Stmt} {step : EStep} {f : List ETree}
    (hl : Line step.state.rest) (hgo : ∀ s, step = .go s → Shaped g (kept f)) (hstop : ∀ j s, step = .stop j s → kept f = []) :
    DidN A eof prog g n ctx ss (step.thenN f (execN A eof prog n ctx ss)) := by
  cases step with
  | go s => exact .inl ⟨f, s, n, Nat.le_refl _, hl, hgo s rfl, rfl⟩
  | stop j s => exact .stop (hstop j s rfl) j s

theorem stop_match {keep : Bool} {ctx : List Nat} {ok : Int → Bool} {s s' : EState} {j : Failure}
    (h : matchE A eof ctx ok s = .stop j s') : kept (matchTrees A eof keep ctx ok s) = [] := by
  have inline : inlineE A eof ctx s = .stop j s' → kept (inlineTrees A eof keep ctx s) = [] := by
    intro hi
    unfold inlineE at hi
    unfold inlineTrees
    dsimp only at hi ⊢
    split at hi
    · cases hi
    · rename_i hd
      split at hi
      · cases hi
      · rename_i hc
        rw [if_neg hd, if_neg hc]
        rfl
  unfold matchE at h
  unfold matchTrees
  cases hr : s.rest with
  | nil => rw [hr] at h; exact inline h
  | cons x xs =>
    rw [hr] at h
    dsimp only at h ⊢
    split at h
    · cases h
    · rename_i hx
      rw [if_neg hx]
      exact inline h

theorem didN_zero {g : G} {n : Nat} {ctx : List Nat} {ss ss' : List Stmt} {s : EState} :
    DidN A eof prog g n ctx ss (execN A eof prog 0 ctx ss' s) := .inr (.inr ⟨s, rfl⟩)

theorem didN_of_impl (hc : CodeOk A prog) (he : eof.type = .EOF) (hR : A.simulator.predictor.InRange A) {g : G} {code : List Stmt} {s e : Nat}
    {F : List Int} (h : Impl A g code s e F) : ∀ m ctx ss (u : EState), Line u.rest →
      DidN A eof prog g m ctx ss (execN A eof prog m ctx (code ++ ss) u) := by
  have hA := hc.impl.stops
  induction h with
  | pre ho _ ih => exact ih
  | post _ ho ih => exact ih
  | @sync g c st e F hi ih =>
    intro m ctx ss u hl
    cases m with
    | zero => exact didN_zero
    | succ m =>
      rw [List.cons_append, execN]
      have hk := keeps_sync (A := A) he ctx (u.at st) hl
      have herr := kept_errors (errors_sync (A := A) (eof := eof) ctx (u.at st))
      cases hst : syncE A eof ctx (u.at st) with
      | go s' =>
        rw [hst] at hk
        exact ((ih m ctx ss s' hk.2).errors herr).mono (by omega)
      | stop j s' => exact .stop herr j s'
  | eps => exact fun m ctx ss u hl => .inl ⟨[], u, m, Nat.le_refl _, hl, .eps, (prepend_nil _).symm⟩
  | @tok t st e F ho =>
    intro m ctx ss u hl
    cases m with
    | zero => exact didN_zero
    | succ m =>
      rw [List.cons_append, List.nil_append, execN]
      have h1 := didN_step (A := A) (eof := eof) (prog := prog) (g := .tok t) (n := m) (ctx := ctx) (ss := ss)
        (f := matchTrees A eof true ctx (fun j => decide (j = t.num)) (u.at st)) (keeps_match (A := A) he true ctx (fun j => decide (j = t.num)) (u.at st) hl).2 (fun s' hs => fits_match hA he ho ctx (s := u.at st) rfl hl hs)
        (fun j s' hs => stop_match (s := u.at st) hs)
      exact h1.mono (Nat.le_succ m)
  | @set l ks t st e F ho h0 hl' ht =>
    intro m ctx ss u hl
    cases m with
    | zero => exact didN_zero
    | succ m =>
      rw [List.cons_append, List.nil_append, execN]
      have h1 := didN_step (A := A) (eof := eof) (prog := prog) (g := G.alts (ks.map .tok)) (n := m) (ctx := ctx) (ss := ss)
        (f := matchTrees A eof false ctx t.eval (u.at st)) (keeps_match (A := A) he false ctx t.eval (u.at st) hl).2 (fun s' hs => fits_matchSet hA he ho h0.2 hl' ht ctx (s := u.at st) rfl hl hs)
        (fun j s' hs => stop_match (s := u.at st) hs)
      exact h1.mono (Nat.le_succ m)
  | @rule r st e F ho hF =>
    intro m ctx ss u hl
    cases m with
    | zero => exact didN_zero
    | succ m =>
      rw [List.cons_append, List.nil_append, execN]
      have hk := execN_keeps (A := A) (prog := prog) he m (st :: ctx) (prog r) (u.at st) hl
      cases hs : execN A eof prog m (st :: ctx) (prog r) (u.at st) with
      | ok f s1 =>
        rw [hs] at hk
        exact .inl ⟨[.node r false f], s1.at st, m, by omega, hk.2, .rule r false f, rfl⟩
      | raised f k s1 =>
        rw [hs] at hk
        have h2 := Spends.trans hk (keeps_caught (A := A) he (st :: ctx) k s1 hk.2)
        exact .inl ⟨[.node r true (f ++ caughtTrees A eof (st :: ctx) k s1)], (caughtE A eof (st :: ctx) k s1).at st, m, by omega, h2.2,
          .rule r true _, rfl⟩
      | timeout s1 => exact .inr (.inr ⟨s1, rfl⟩)
  | @seq a b c c' st m' e F h1 h2 ih ih' =>
    intro m ctx ss u hl
    rw [List.append_assoc]
    exact (ih m ctx (c' ++ ss) u hl).seq fun k s _ hs => ih' k ctx ss s hs
  | @predict gs ss0 bs d st e F hd ho hlen h0 hi ih =>
    intro m ctx ss u hl
    cases m with
    | zero => exact didN_zero
    | succ m =>
      rw [List.cons_append, List.nil_append, execN]
      cases ha : A.simulator.predictor.predict d ctx u.rest with
      | none => exact .stop rfl _ _
      | some a =>
        obtain ⟨h1, h2⟩ := hR _ _ _ _ _ ha hd
        rw [ho, List.length_map, ← hlen] at h2
        obtain ⟨i, rfl⟩ : ∃ i, a = i + 1 := ⟨a - 1, by omega⟩
        exact ((ih i (by omega) (by omega) m ctx ss (u.look _) hl).mono (by omega)).map fun f => shaped_alts i (by omega)
  | @switch gs ss0 cs st e F ho hlen hlen' h0 hi hcond ih =>
    intro m ctx ss u hl
    cases m with
    | zero => exact didN_zero
    | succ m =>
      rw [List.cons_append, List.nil_append, execN]
      cases hb : switchCase (la u.rest) cs with
      | none => exact .stop rfl _ _
      | some b =>
        obtain ⟨i, hi', rfl⟩ := switchCase_some hb
        exact ((ih i (by omega) (by omega) (by omega) m ctx ss u hl).mono (by omega)).map fun f => shaped_alts i (by omega)
  | @ifLA a t b st s1 s2 e F ho h1 h2 hn hf hF ih ih' =>
    intro m ctx ss u hl
    cases m with
    | zero => exact didN_zero
    | succ m =>
      rw [List.cons_append, List.nil_append, execN]
      split
      · exact ((ih m ctx ss u hl).mono (by omega)).map fun f => .altL
      · exact ((ih' m ctx ss u hl).mono (by omega)).map fun f => .altR
  | @whileLA a t b st l x F ho h1 hn hf hF ih =>
    intro m
    induction m using Nat.strongRecOn with
    | _ m ihm =>
      intro ctx ss u hl
      cases m with
      | zero => exact didN_zero
      | succ m =>
        rw [List.cons_append, List.nil_append, execN]
        refine ((ih m ctx _ u hl).seq (b := .star a) (ss' := ss) fun k s hk hs => ?_).mono (by omega)
        match k, hk with
        | 0, _ => exact didN_zero
        | k + 1, hk =>
          rw [execN]
          have hks := keeps_sync (A := A) he ctx (s.at l) hs
          have herr := kept_errors (errors_sync (A := A) (eof := eof) ctx (s.at l))
          cases hst : syncE A eof ctx (s.at l) with
          | stop j s' => exact .stop herr j s'
          | go s' =>
            rw [hst] at hks
            refine DidN.errors herr ?_
            match k, hk with
            | 0, _ => exact didN_zero
            | k + 1, hk =>
              rw [execN]
              split
              · exact ((ihm k (by omega) ctx ss s' hks.2).mono (by omega)).map fun f => fits_star_cons
              · exact .inl ⟨[], s', k, by omega, hks.2, .starNil, (prepend_nil _).symm⟩
  | @whilePredict a b st l x d F hd ho h1 hn ih =>
    intro m
    induction m using Nat.strongRecOn with
    | _ m ihm =>
      intro ctx ss u hl
      cases m with
      | zero => exact didN_zero
      | succ m =>
        rw [List.cons_append, List.nil_append, execN]
        refine ((ih m ctx _ u hl).seq (b := .star a) (ss' := ss) fun k s hk hs => ?_).mono (by omega)
        match k, hk with
        | 0, _ => exact didN_zero
        | k + 1, hk =>
          rw [execN]
          have hks := keeps_sync (A := A) he ctx (s.at l) hs
          have herr := kept_errors (errors_sync (A := A) (eof := eof) ctx (s.at l))
          cases hst : syncE A eof ctx (s.at l) with
          | stop j s' => exact .stop herr j s'
          | go s' =>
            rw [hst] at hks
            refine DidN.errors herr ?_
            match k, hk with
            | 0, _ => exact didN_zero
            | k + 1, hk =>
              rw [execN]
              split
              · exact .stop rfl _ _
              · rename_i i hi
                split
                · exact .inl ⟨[], s'.look _, k, by omega, hks.2, .starNil, (prepend_nil _).symm⟩
                · split
                  · exact ((ihm k (by omega) ctx ss (s'.look _) hks.2).mono (by omega)).map fun f => fits_star_cons
                  · exact .stop rfl _ _

/-- The code of a rule. -/
theorem didN_rule (hc : CodeOk A prog) (he : eof.type = .EOF) (hR : A.simulator.predictor.InRange A) (r : Rule) (n : Nat) (ctx : List Nat)
    (u : EState) (hl : Line u.rest) : match execN A eof prog n ctx (prog r) u with
      | .ok f _ => Shaped (body r) (kept f)
      | .raised f _ _ => ∃ more, Shaped (body r) (kept f ++ more)
      | .timeout _ => True := by
  obtain ⟨e, -, hi⟩ := hc.rule r
  have h := didN_of_impl hc he hR hi n ctx [] u hl
  rw [List.append_nil] at h
  rcases h with ⟨f, s, k, h1, h2, h3, h4⟩ | ⟨f, j, s, more, h1, h2⟩ | ⟨s, h⟩
  · rw [h4]
    cases k with
    | zero => trivial
    | succ k =>
      rw [execN]
      change Shaped (body r) (kept (f ++ []))
      rw [List.append_nil]
      exact h3
  · rw [h1]; exact ⟨more, h2⟩
  · rw [h]; trivial

/-! ### All contexts -/

/-- The children added. -/
def NOut.trees : NOut → List ETree
  | .ok f _ => f
  | .raised f _ _ => f
  | .timeout _ => []

theorem conforms_error {t : ETree} (h : t.isError = true) : t.Conforms := by
  cases t <;> first | exact .error _ | cases h

theorem conforms_nodeFor (s : EState) (t : Tok) : (s.nodeFor t).Conforms := by
  unfold EState.nodeFor
  split
  · exact .error t
  · exact .leaf t

theorem conforms_inline (keep : Bool) (ctx : List Nat) (s : EState) : ∀ t ∈ inlineTrees A eof keep ctx s, t.Conforms := by
  unfold inlineTrees
  dsimp only
  intro t ht
  split at ht
  · simp only [List.mem_cons, List.not_mem_nil, or_false] at ht
    rcases ht with rfl | rfl <;> exact conforms_nodeFor _ _
  · split at ht
    · split at ht
      · rcases List.mem_singleton.1 ht with rfl
        exact .missing _
      · cases ht
    · cases ht

theorem conforms_match (keep : Bool) (ctx : List Nat) (ok : Int → Bool) (s : EState) : ∀ t ∈ matchTrees A eof keep ctx ok s, t.Conforms := by
  unfold matchTrees
  split
  · exact conforms_inline keep ctx s
  · split
    · intro t ht
      rcases List.mem_singleton.1 ht with rfl
      exact conforms_nodeFor _ _
    · exact conforms_inline keep ctx s

theorem trees_prepend (f : List ETree) (o : NOut) (hf : ∀ t ∈ f, t.Conforms) (ho : ∀ t ∈ o.trees, t.Conforms) :
    ∀ t ∈ (o.prepend f).trees, t.Conforms := by
  intro t ht
  cases o with
  | ok g s => rcases List.mem_append.1 ht with h | h; exacts [hf t h, ho t h]
  | raised g k s => rcases List.mem_append.1 ht with h | h; exacts [hf t h, ho t h]
  | timeout s => cases ht

theorem trees_thenN {step : EStep} {f : List ETree} {next : EState → NOut} (hf : ∀ t ∈ f, t.Conforms)
    (hn : ∀ s, step = .go s → ∀ t ∈ (next s).trees, t.Conforms) : ∀ t ∈ (step.thenN f next).trees, t.Conforms := by
  cases step with
  | go s => exact trees_prepend f _ hf (hn s rfl)
  | stop j s => exact hf

theorem conforms_failed {r : Rule} {f : List ETree} {ctx : List Nat} {k : Failure} {s : EState} (h : ∃ more, Shaped (body r) (kept f ++ more))
    (hf : ∀ t ∈ f, t.Conforms) : (ETree.node r true (f ++ caughtTrees A eof ctx k s)).Conforms := by
  have herr := errors_caught (A := A) (eof := eof) ctx k s
  obtain ⟨more, h⟩ := h
  refine .broken (more := more) (by rw [kept_append, kept_errors herr, List.append_nil]; exact h) ?_
  intro t ht
  rcases List.mem_append.1 ht with ht | ht
  · exact hf t ht
  · exact conforms_error (herr t ht)

theorem execN_conforms (hc : CodeOk A prog) (he : eof.type = .EOF) (hR : A.simulator.predictor.InRange A) :
    ∀ (n : Nat) (ctx : List Nat) (ss : List Stmt) (s : EState), Line s.rest → ∀ t ∈ (execN A eof prog n ctx ss s).trees, t.Conforms := by
  intro n
  induction n with
  | zero => intro ctx ss s _ t ht; cases ht
  | succ n ih =>
    intro ctx ss s h
    cases ss with
    | nil => intro t ht; cases ht
    | cons c ss =>
      cases c with
      | sync st =>
        rw [execN]
        have hk := keeps_sync (A := A) he ctx (s.at st) h
        exact trees_thenN (fun t ht => conforms_error (errors_sync ctx _ t ht)) fun s' hs => ih ctx ss s' (by rw [hs] at hk; exact hk.2)
      | matchTok st k =>
        rw [execN]
        have hk := keeps_match (A := A) he true ctx (fun j => decide (j = k)) (s.at st) h
        exact trees_thenN (fun t ht => conforms_match _ _ _ _ t ht) fun s' hs => ih ctx ss s' (by rw [hs] at hk; exact hk.2)
      | matchSet st t =>
        rw [execN]
        have hk := keeps_match (A := A) he false ctx t.eval (s.at st) h
        exact trees_thenN (fun t ht => conforms_match _ _ _ _ t ht) fun s' hs => ih ctx ss s' (by rw [hs] at hk; exact hk.2)
      | call st r =>
        rw [execN]
        have h1 := execN_keeps (A := A) (prog := prog) he n (st :: ctx) (prog r) (s.at st) h
        have h2 := ih (st :: ctx) (prog r) (s.at st) h
        have h3 := didN_rule hc he hR r n (st :: ctx) (s.at st) h
        cases hs : execN A eof prog n (st :: ctx) (prog r) (s.at st) with
        | ok f s1 =>
          rw [hs] at h1 h2 h3
          refine trees_prepend _ _ ?_ (ih ctx ss (s1.at st) h1.2)
          intro t ht
          rcases List.mem_singleton.1 ht with rfl
          exact .whole h3 h2
        | raised f k s1 =>
          rw [hs] at h1 h2 h3
          have h4 := Spends.trans h1 (keeps_caught (A := A) he (st :: ctx) k s1 h1.2)
          refine trees_prepend _ _ ?_ (ih ctx ss ((caughtE A eof (st :: ctx) k s1).at st) h4.2)
          intro t ht
          rcases List.mem_singleton.1 ht with rfl
          exact conforms_failed h3 h2
        | timeout s1 => intro t ht; cases ht
      | predict d bs =>
        rw [execN]
        cases A.simulator.predictor.predict d ctx s.rest with
        | none => intro t ht; cases ht
        | some a => exact ih _ _ (s.look _) h
      | switchLA cs =>
        rw [execN]
        cases switchCase (la s.rest) cs with
        | none => intro t ht; cases ht
        | some b => exact ih _ _ s h
      | ifLA t b => rw [execN]; exact ih _ _ s h
      | whileLA b st t => rw [execN]; exact ih _ _ s h
      | whilePredict b st d => rw [execN]; exact ih _ _ s h
      | loopPredict b st d =>
        rw [execN]
        cases A.simulator.predictor.predict d ctx s.rest with
        | none => intro t ht; cases ht
        | some a =>
          dsimp only
          split
          · exact ih _ _ (s.look _) h
          · split
            · exact ih _ _ (s.look _) h
            · intro t ht; cases ht

/-- A call of a rule function. -/
theorem callN_conforms (hc : CodeOk A prog) (he : eof.type = .EOF) (hR : A.simulator.predictor.InRange A) {n : Nat} {r : Rule} {ts : List Tok}
    (hl : Line ts) {t : ETree} {rs : List Report} (h : callN A eof prog n r ts = some (t, rs)) : t.Conforms := by
  have h2 := execN_conforms hc he hR n [] (prog r) (EState.new ts) hl
  have h3 := didN_rule hc he hR r n [] (EState.new ts) hl
  unfold callN at h
  cases hs : execN A eof prog n [] (prog r) (EState.new ts) with
  | ok f s1 => rw [hs] at h h2 h3; cases h; exact .whole h3 h2
  | raised f k s1 => rw [hs] at h h2 h3; cases h; exact conforms_failed h3 h2
  | timeout s1 => rw [hs] at h; cases h

end Fcsql
