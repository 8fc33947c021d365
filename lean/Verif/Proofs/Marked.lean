/-
The generated parser with cursor and stored context data does what the plain one does.
-/
import Verif.Spec.Marked
import Verif.Proofs.GenRun
import Verif.Proofs.GenHalt

set_option autoImplicit false
set_option linter.unusedSimpArgs false

namespace Fcsql

section
variable {P : Predictor} {prog : Rule → List Stmt}

/-- What is left is a suffix. -/
theorem exec_suffix (n : Nat) : ∀ ctx ss ts f rest, exec P prog n ctx ss ts = .ok f rest → rest <:+ ts := by
  induction n with
  | zero => intro ctx ss ts f rest h; simp [exec] at h
  | succ n ih =>
    intro ctx ss ts f rest h
    cases ss with
    | nil => simp only [exec, Res.ok.injEq] at h; rw [h.2]; exact List.suffix_refl _
    | cons s ss =>
      cases s with
      | sync st =>
        simp only [exec] at h
        split at h
        · exact ih _ _ _ _ _ h
        · cases h
      | matchTok st k =>
        cases ts with
        | nil => cases h
        | cons x xs =>
          simp only [exec] at h
          split at h
          · obtain ⟨f', h', -⟩ := Res.prepend_ok h
            exact (ih _ _ _ _ _ h').trans (List.suffix_cons _ _)
          · cases h
      | matchSet st t =>
        cases ts with
        | nil => cases h
        | cons x xs =>
          simp only [exec] at h
          split at h
          · obtain ⟨f', h', -⟩ := Res.prepend_ok h
            exact (ih _ _ _ _ _ h').trans (List.suffix_cons _ _)
          · cases h
      | call st r =>
        rw [exec] at h
        cases he : exec P prog n (st :: ctx) (prog r) ts with
        | ok g mid =>
          rw [he] at h
          obtain ⟨f', h', -⟩ := Res.prepend_ok h
          exact (ih _ _ _ _ _ h').trans (ih _ _ _ _ _ he)
        | error => rw [he] at h; cases h
        | timeout => rw [he] at h; cases h
      | predict d bs =>
        simp only [exec] at h
        split at h
        · cases h
        · exact ih _ _ _ _ _ h
      | switchLA cs =>
        simp only [exec] at h
        split at h
        · cases h
        · exact ih _ _ _ _ _ h
      | ifLA t b => simp only [exec] at h; exact ih _ _ _ _ _ h
      | whileLA b st t => simp only [exec] at h; exact ih _ _ _ _ _ h
      | whilePredict b st d => simp only [exec] at h; exact ih _ _ _ _ _ h
      | loopPredict b st d =>
        simp only [exec] at h
        split at h
        · cases h
        · split at h
          · exact ih _ _ _ _ _ h
          · split at h
            · exact ih _ _ _ _ _ h
            · cases h

theorem ResM.prepend_timeout {f : List CTree} {r : ResM} : r.prepend f = .timeout ↔ r = .timeout := by
  cases r <;> simp [ResM.prepend]

/-- More steps do not change a result. -/
theorem execM_succ (toks : List Tok) (n : Nat) : ∀ ctx ss i, execM P prog toks n ctx ss i ≠ .timeout →
    execM P prog toks (n + 1) ctx ss i = execM P prog toks n ctx ss i := by
  induction n with
  | zero => intro ctx ss ts h; simp [execM] at h
  | succ n ih =>
    intro ctx ss i h
    cases ss with
    | nil => simp [execM]
    | cons s ss =>
      cases s with
      | sync st =>
        simp only [execM] at h ⊢
        split
        · rename_i hs; rw [if_pos hs] at h; exact ih _ _ _ h
        · rfl
      | matchTok st k =>
        simp only [execM] at h ⊢
        cases hc : curTok toks i with
        | none => rfl
        | some x =>
          rw [hc] at h
          dsimp only at h ⊢
          split
          · rename_i hs
            rw [if_pos hs] at h
            rw [ih _ _ _ (fun e => h (ResM.prepend_timeout.2 e))]
          · rfl
      | matchSet st t =>
        simp only [execM] at h ⊢
        cases hc : curTok toks i with
        | none => rfl
        | some x =>
          rw [hc] at h
          dsimp only at h ⊢
          split
          · rename_i hs
            rw [if_pos hs] at h
            rw [ih _ _ _ (fun e => h (ResM.prepend_timeout.2 e))]
          · rfl
      | call st r =>
        rw [execM] at h
        conv => lhs; rw [execM]
        conv => rhs; rw [execM]
        have hne : execM P prog toks n (st :: ctx) (prog r) i ≠ .timeout := by
          intro e; rw [e] at h; exact h rfl
        rw [ih _ _ _ hne]
        cases he : execM P prog toks n (st :: ctx) (prog r) i with
        | ok f ts' =>
          rw [he] at h
          simp only at h ⊢
          rw [ih _ _ _ (fun e => h (ResM.prepend_timeout.2 e))]
        | error => rfl
        | timeout => rfl
      | predict d bs =>
        simp only [execM] at h ⊢
        cases hp : P.predict d ctx (toks.drop i) with
        | none => rfl
        | some a => rw [hp] at h; exact ih _ _ _ h
      | switchLA cs =>
        simp only [execM] at h ⊢
        cases hp : switchCase (laAt toks i) cs with
        | none => rfl
        | some a => rw [hp] at h; exact ih _ _ _ h
      | ifLA t b => simp only [execM] at h ⊢; exact ih _ _ _ h
      | whileLA b st t => simp only [execM] at h ⊢; exact ih _ _ _ h
      | whilePredict b st d => simp only [execM] at h ⊢; exact ih _ _ _ h
      | loopPredict b st d =>
        simp only [execM] at h ⊢
        cases hp : P.predict d ctx (toks.drop i) with
        | none => rfl
        | some a =>
          rw [hp] at h
          simp only at h ⊢
          split
          · rename_i hs; rw [if_pos hs] at h; exact ih _ _ _ h
          · rename_i hs
            rw [if_neg hs] at h
            split
            · rename_i hs; rw [if_pos hs] at h; exact ih _ _ _ h
            · rfl

theorem execM_mono {toks : List Tok} {n m : Nat} (hm : n ≤ m) {ctx : List Nat} {ss : List Stmt} {i : Nat}
    (h : execM P prog toks n ctx ss i ≠ .timeout) : execM P prog toks m ctx ss i = execM P prog toks n ctx ss i := by
  induction hm with
  | refl => rfl
  | step _ ih => rw [execM_succ _ _ _ _ _ (by rw [ih]; exact h), ih]

/-- Trees laid out on the tokens `i .. j - 1` in the context `ctx`, no `EOF` among them. -/
inductive Marked (toks : List Tok) : List Nat → Nat → List CTree → Nat → Prop
  | nil {ctx : List Nat} {i : Nat} : Marked toks ctx i [] i
  | leaf {ctx : List Nat} {i j : Nat} {x : Tok} {F : List CTree} : toks[i]? = some x → x.type ≠ .EOF →
      Marked toks ctx (i + 1) F j → Marked toks ctx i (.leaf x i :: F) j
  | node {ctx : List Nat} {st i k j : Nat} {r : Rule} {ks F : List CTree} : Marked toks (st :: ctx) i ks k →
      Marked toks ctx k F j → Marked toks ctx i (.node r (st :: ctx) (some i) (ltPrev k) ks :: F) j

variable {ws : List Tok} {e : Tok}

theorem drop_snoc {i : Nat} (hi : i ≤ ws.length) : (ws ++ [e]).drop i = ws.drop i ++ [e] := by
  rw [List.drop_append_of_le_length hi]

theorem curTok_of_drop {i : Nat} {x : Tok} {xs : List Tok} (h : (ws ++ [e]).drop i = x :: xs) :
    curTok (ws ++ [e]) i = some x ∧ (ws ++ [e])[i]? = some x ∧ (ws ++ [e]).drop (i + 1) = xs ∧ i < ws.length + 1 ∧ ltNext (ws ++ [e]) i = some i := by
  have h1 : (ws ++ [e])[i]? = some x := by
    have := congrArg List.head? h
    rw [List.head?_drop] at this
    simpa using this
  have hlt : i < (ws ++ [e]).length := (List.getElem?_eq_some_iff.1 h1).1
  have hlen : (ws ++ [e]).length = ws.length + 1 := by simp
  have hm : min i ((ws ++ [e]).length - 1) = i := by omega
  refine ⟨by rw [curTok, hm, h1], h1, ?_, by omega, ?_⟩
  · rw [← List.drop_drop, h]; rfl
  · rw [ltNext, hm, if_neg (by simp)]

theorem laAt_of_drop {i : Nat} {ts : List Tok} (h : (ws ++ [e]).drop i = ts) (hn : ts ≠ []) :
    laAt (ws ++ [e]) i = la ts := by
  cases ts with
  | nil => exact absurd rfl hn
  | cons x xs => rw [laAt, (curTok_of_drop h).1]; rfl

theorem execM_sim (hws : ∀ t ∈ ws, t.type ≠ .EOF) (n : Nat) :
    ∀ ctx ss i f rest, exec P prog n ctx ss ((ws ++ [e]).drop i) = .ok f rest → rest ≠ [] →
    ∃ F j, execM P prog (ws ++ [e]) n ctx ss i = .ok F j ∧ rest = (ws ++ [e]).drop j ∧ CTree.plainL F = f ∧
      Marked (ws ++ [e]) ctx i F j := by
  have hnext : ∀ {i x xs}, (ws ++ [e]).drop i = x :: xs → xs ≠ [] → x.type ≠ .EOF := by
    intro i x xs h hx
    obtain ⟨-, h1, h2, -, -⟩ := curTok_of_drop h
    have hi : i < ws.length := by
      apply Nat.lt_of_not_le
      intro hle
      apply hx
      rw [← h2]
      exact List.drop_eq_nil_of_le (by simp; omega)
    rw [List.getElem?_append_left hi] at h1
    exact hws x (List.mem_of_getElem? h1)
  induction n with
  | zero => intro ctx ss i f rest h; simp [exec] at h
  | succ n ih =>
    intro ctx ss i f rest h hr
    have hts : (ws ++ [e]).drop i ≠ [] := by
      intro hz
      have := exec_suffix _ _ _ _ _ _ h
      rw [hz, List.suffix_nil] at this
      exact hr this
    cases ss with
    | nil =>
      simp only [exec, Res.ok.injEq] at h
      exact ⟨[], i, rfl, h.2.symm, by rw [← h.1]; rfl, .nil⟩
    | cons s ss =>
      cases s with
      | sync st =>
        simp only [exec] at h
        simp only [execM]
        split at h
        · rename_i hs; rw [if_pos hs]; exact ih _ _ _ _ _ h hr
        · cases h
      | matchTok st k =>
        cases hd : (ws ++ [e]).drop i with
        | nil => exact absurd hd hts
        | cons x xs =>
          rw [hd] at h
          obtain ⟨c1, c2, c3, c4, -⟩ := curTok_of_drop hd
          simp only [exec] at h
          simp only [execM, c1]
          split at h
          · rename_i hk
            obtain ⟨f', h', rfl⟩ := Res.prepend_ok h
            have hx : x.type ≠ .EOF := hnext hd (by
              intro hz
              have := exec_suffix _ _ _ _ _ _ h'
              rw [hz, List.suffix_nil] at this
              exact hr this)
            rw [← c3] at h'
            obtain ⟨F, j, e1, e2, e3, e4⟩ := ih _ _ _ _ _ h' hr
            refine ⟨.leaf x i :: F, j, ?_, e2, by rw [CTree.plainL, e3]; rfl, .leaf c2 hx e4⟩
            rw [if_pos hk, consumed, if_neg hx, e1]; rfl
          · cases h
      | matchSet st t =>
        cases hd : (ws ++ [e]).drop i with
        | nil => exact absurd hd hts
        | cons x xs =>
          rw [hd] at h
          obtain ⟨c1, c2, c3, c4, -⟩ := curTok_of_drop hd
          simp only [exec] at h
          simp only [execM, c1]
          split at h
          · rename_i hk
            obtain ⟨f', h', rfl⟩ := Res.prepend_ok h
            have hx : x.type ≠ .EOF := hnext hd (by
              intro hz
              have := exec_suffix _ _ _ _ _ _ h'
              rw [hz, List.suffix_nil] at this
              exact hr this)
            rw [← c3] at h'
            obtain ⟨F, j, e1, e2, e3, e4⟩ := ih _ _ _ _ _ h' hr
            refine ⟨.leaf x i :: F, j, ?_, e2, by rw [CTree.plainL, e3]; rfl, .leaf c2 hx e4⟩
            rw [if_pos hk, consumed, if_neg hx, e1]; rfl
          · cases h
      | call st r =>
        rw [exec] at h
        cases hc : exec P prog n (st :: ctx) (prog r) ((ws ++ [e]).drop i) with
        | error => rw [hc] at h; cases h
        | timeout => rw [hc] at h; cases h
        | ok g mid =>
          rw [hc] at h
          obtain ⟨f', h', rfl⟩ := Res.prepend_ok h
          have hm : mid ≠ [] := by
            intro hz
            have := exec_suffix _ _ _ _ _ _ h'
            rw [hz, List.suffix_nil] at this
            exact hr this
          obtain ⟨G, k, d1, d2, d3, d4⟩ := ih _ _ _ _ _ hc hm
          subst d2
          obtain ⟨F, j, e1, e2, e3, e4⟩ := ih _ _ _ _ _ h' hr
          obtain ⟨x, xs, hx⟩ := List.exists_cons_of_ne_nil hts
          have hl := (curTok_of_drop hx).2.2.2.2
          refine ⟨.node r (st :: ctx) (some i) (ltPrev k) G :: F, j, ?_, e2, ?_, .node d4 e4⟩
          · rw [execM, d1]
            simp only [e1, hl]; rfl
          · rw [CTree.plainL, CTree.plain, d3, e3]; rfl
      | predict d bs =>
        simp only [exec] at h
        simp only [execM]
        split at h
        · cases h
        · rename_i a ha
          rw [ha]; exact ih _ _ _ _ _ h hr
      | switchLA cs =>
        simp only [exec] at h
        simp only [execM, laAt_of_drop rfl hts]
        split at h
        · cases h
        · rename_i a ha
          rw [ha]; exact ih _ _ _ _ _ h hr
      | ifLA t b =>
        simp only [exec] at h
        simp only [execM, laAt_of_drop rfl hts]
        exact ih _ _ _ _ _ h hr
      | whileLA b st t => simp only [exec] at h; simp only [execM]; exact ih _ _ _ _ _ h hr
      | whilePredict b st d => simp only [exec] at h; simp only [execM]; exact ih _ _ _ _ _ h hr
      | loopPredict b st d =>
        simp only [exec] at h
        simp only [execM]
        split at h
        · cases h
        · rename_i a ha
          rw [ha]
          simp only
          split at h
          · rename_i hs; rw [if_pos hs]; exact ih _ _ _ _ _ h hr
          · rename_i hs
            rw [if_neg hs]
            split at h
            · rename_i hs; rw [if_pos hs]; exact ih _ _ _ _ _ h hr
            · cases h

theorem ne_nil_of_exec {n : Nat} {ctx : List Nat} {ss : List Stmt} {ts : List Tok} {f : List PTree} {rest : List Tok}
    (h : exec P prog n ctx ss ts = .ok f rest) (hr : rest ≠ []) : ts ≠ [] := by
  intro hz
  have := exec_suffix _ _ _ _ _ _ h
  rw [hz, List.suffix_nil] at this
  exact hr this

/-- Matching `EOF` at the end. -/
theorem execM_eof (he : e.type = .EOF) {n i st : Nat} {ctx : List Nat} {f : List PTree}
    (h : exec P prog n ctx [.matchTok st (-1)] ((ws ++ [e]).drop i) = .ok f []) :
    i = ws.length ∧ f = [.leaf e] ∧ execM P prog (ws ++ [e]) n ctx [.matchTok st (-1)] i = .ok [.leaf e i] i := by
  cases n with
  | zero => simp [exec] at h
  | succ n =>
    cases hd : (ws ++ [e]).drop i with
    | nil => rw [hd] at h; simp [exec] at h
    | cons x xs =>
      rw [hd] at h
      obtain ⟨c1, c2, c3, c4, -⟩ := curTok_of_drop hd
      simp only [exec] at h
      split at h
      · rename_i hk
        obtain ⟨f', h', rfl⟩ := Res.prepend_ok h
        cases n with
        | zero => simp [exec] at h'
        | succ n =>
          simp only [exec, Res.ok.injEq] at h'
          obtain ⟨rfl, hxs⟩ := h'
          have hi : i = ws.length := by
            have : (ws ++ [e]).length ≤ i + 1 := by
              rw [hxs] at c3
              exact List.drop_eq_nil_iff.1 c3
            simp at this
            omega
          subst hi
          rw [List.getElem?_append_right (Nat.le_refl _)] at c2
          simp at c2
          subst c2
          refine ⟨rfl, rfl, ?_⟩
          simp only [execM, c1, hk, if_true, consumed, he]
          rfl
      · cases h

end

section
variable {P : Predictor} {ws : List Tok} {e : Tok}

/-- The run of `query()`. -/
theorem execM_query (he : e.type = .EOF) (hws : ∀ t ∈ ws, t.type ≠ .EOF) {n : Nat} {f : List PTree}
    (h : exec P code n [] (code .query) (ws ++ [e]) = .ok f []) :
    ∃ F, execM P code (ws ++ [e]) n [] (code .query) 0 = .ok (F ++ [.leaf e ws.length]) ws.length ∧
      CTree.plainL F ++ [.leaf e] = f ∧ Marked (ws ++ [e]) [] 0 F ws.length := by
  have h : exec P code n [] [.call 46 .main_query, .sync 49, .ifLA (.eq 18) [.matchTok 47 18, .call 48 .within_part],
      .matchTok 51 (-1)] ((ws ++ [e]).drop 0) = .ok f [] := h
  rw [show code .query = [.call 46 .main_query, .sync 49, .ifLA (.eq 18) [.matchTok 47 18, .call 48 .within_part],
      .matchTok 51 (-1)] from rfl]
  have noEof : ∀ {n : Nat} {f : List PTree}, exec P code n [] [.matchTok 51 (-1)] [] = .ok f [] → False := by
    intro n f h
    cases n <;> simp [exec] at h
  cases n with
  | zero => simp [exec] at h
  | succ n =>
  rw [exec] at h
  rw [execM]
  try dsimp only at h
  try dsimp only
  cases hc : exec P code n [46] (code .main_query) ((ws ++ [e]).drop 0) with
  | error => rw [hc] at h; cases h
  | timeout => rw [hc] at h; cases h
  | ok g mid =>
  rw [hc] at h
  obtain ⟨f1, h1, rfl⟩ := Res.prepend_ok h
  have hmid : mid ≠ [] := by
    rintro rfl
    cases n with
    | zero => simp [exec] at h1
    | succ n =>
      cases n with
      | zero =>
        simp only [exec] at h1
        split at h1 <;> cases h1
      | succ n =>
        simp only [exec] at h1
        split at h1
        · exact noEof (by simpa [la, LaTest.eval] using h1)
        · cases h1
  obtain ⟨G, k, d1, rfl, d3, d4⟩ := execM_sim hws _ _ _ _ _ _ hc hmid
  rw [d1]
  try dsimp only
  cases n with
  | zero => simp [exec] at h1
  | succ n =>
  rw [exec] at h1
  rw [execM]
  try dsimp only at h1
  try dsimp only
  split at h1
  case isFalse => cases h1
  rename_i hs
  rw [if_pos hs]
  have hl0 : ltNext (ws ++ [e]) 0 = some 0 := by
    simp [ltNext]
  rw [hl0]
  cases n with
  | zero => simp [exec] at h1
  | succ n =>
  rw [exec] at h1
  rw [execM]
  try dsimp only at h1
  try dsimp only
  rw [laAt_of_drop rfl hmid]
  split at h1
  · -- within
    rename_i ht
    rw [if_pos ht]
    cases n with
    | zero => simp [exec] at h1
    | succ n =>
    cases hd : (ws ++ [e]).drop k with
    | nil => exact absurd hd hmid
    | cons x xs =>
    rw [hd] at h1
    obtain ⟨c1, c2, c3, c4, -⟩ := curTok_of_drop hd
    dsimp only [List.cons_append, List.nil_append] at h1 ⊢
    rw [exec] at h1
    rw [execM]
    try dsimp only at h1
    try dsimp only
    split at h1
    case isFalse => cases h1
    rename_i hx
    rw [c1]
    try dsimp only
    rw [if_pos hx]
    have hxe : x.type ≠ .EOF := by
      intro hz
      rw [hz] at hx
      exact absurd hx (by decide)
    obtain ⟨f2, h2, rfl⟩ := Res.prepend_ok h1
    rw [← c3] at h2
    rw [consumed, if_neg hxe]
    cases n with
    | zero => simp [exec] at h2
    | succ n =>
    rw [exec] at h2
    rw [execM]
    try dsimp only at h2
    try dsimp only
    cases hc2 : exec P code n [48] (code .within_part) ((ws ++ [e]).drop (k + 1)) with
    | error => rw [hc2] at h2; cases h2
    | timeout => rw [hc2] at h2; cases h2
    | ok g2 mid2 =>
    rw [hc2] at h2
    obtain ⟨f3, h3, rfl⟩ := Res.prepend_ok h2
    have hmid2 : mid2 ≠ [] := by
      rintro rfl
      exact noEof h3
    obtain ⟨G2, k2, b1, rfl, b3, b4⟩ := execM_sim hws _ _ _ _ _ _ hc2 hmid2
    rw [b1]
    try dsimp only
    obtain ⟨rfl, rfl, h4⟩ := execM_eof he h3
    have hne := ne_nil_of_exec hc2 hmid2
    obtain ⟨y, ys, hy⟩ := List.exists_cons_of_ne_nil hne
    rw [h4, (curTok_of_drop hy).2.2.2.2]
    refine ⟨[.node .main_query [46] (some 0) (ltPrev k) G, .leaf x k,
      .node .within_part [48] (some (k + 1)) (ltPrev ws.length) G2], rfl, ?_, ?_⟩
    · simp [CTree.plainL, CTree.plain, d3, b3]
    · exact .node d4 (.leaf c2 hxe (.node b4 .nil))
  · rename_i ht
    rw [if_neg ht]
    dsimp only [List.nil_append] at h1 ⊢
    obtain ⟨rfl, rfl, h4⟩ := execM_eof he h1
    rw [h4]
    refine ⟨[.node .main_query [46] (some 0) (ltPrev ws.length) G], rfl, ?_, ?_⟩
    · simp [CTree.plainL, CTree.plain, d3]
    · exact .node d4 .nil

end

/-! ### What is stored in the tree -/

section
variable {toks : List Tok}

/-- Tokens `i .. j - 1` with their indices. -/
def stretch (toks : List Tok) (i j : Nat) : List (Tok × Nat) := (toks.zipIdx.take j).drop i

theorem stretch_cons {i j : Nat} {x : Tok} (h : toks[i]? = some x) (hij : i < j) :
    stretch toks i j = (x, i) :: stretch toks (i + 1) j := by
  unfold stretch
  obtain ⟨hi, hx⟩ := List.getElem?_eq_some_iff.1 h
  rw [List.drop_eq_getElem_cons (by simp; omega)]
  simp [hx]

theorem stretch_append {i k j : Nat} (h1 : i ≤ k) (h2 : k ≤ j) : stretch toks i k ++ stretch toks k j = stretch toks i j := by
  unfold stretch
  have e : toks.zipIdx.take j = toks.zipIdx.take k ++ (toks.zipIdx.take j).drop k := by
    have : toks.zipIdx.take k = (toks.zipIdx.take j).take k := by rw [List.take_take, Nat.min_eq_left h2]
    rw [this, List.take_append_drop]
  conv => rhs; rw [e]
  by_cases hk : k ≤ toks.zipIdx.length
  · rw [List.drop_append_of_le_length (by rw [List.length_take]; omega)]
  · rw [List.drop_eq_nil_of_le (as := toks.zipIdx.take j) (i := k) (by rw [List.length_take]; omega)]
    simp

theorem Marked.bounds {ctx : List Nat} {i j : Nat} {F : List CTree} (h : Marked toks ctx i F j) : i ≤ j := by
  induction h with
  | nil => exact Nat.le_refl _
  | leaf _ _ _ ih => omega
  | node _ _ ih1 ih2 => omega

theorem Marked.marks {ctx : List Nat} {i j : Nat} {F : List CTree} (h : Marked toks ctx i F j) :
    CTree.marksL F = stretch toks i j ∧ ∀ p ∈ CTree.marksL F, p.1.type ≠ .EOF := by
  induction h with
  | nil =>
    refine ⟨?_, by simp [CTree.marksL]⟩
    rw [CTree.marksL, stretch, List.drop_eq_nil_of_le (by rw [List.length_take]; omega)]
  | leaf h1 h2 h3 ih =>
    have := h3.bounds
    refine ⟨by rw [CTree.marksL, CTree.marks, ih.1, stretch_cons h1 (by omega)]; rfl, ?_⟩
    intro p hp
    rw [CTree.marksL, CTree.marks] at hp
    rcases List.mem_append.1 hp with hp | hp
    · simp only [List.mem_singleton] at hp; subst hp; exact h2
    · exact ih.2 p hp
  | node h1 h2 ih1 ih2 =>
    refine ⟨by rw [CTree.marksL, CTree.marks, ih1.1, ih2.1, stretch_append h1.bounds h2.bounds], ?_⟩
    intro p hp
    rw [CTree.marksL, CTree.marks] at hp
    rcases List.mem_append.1 hp with hp | hp
    · exact ih1.2 p hp
    · exact ih2.2 p hp

theorem Marked.sub {ctx : List Nat} {i j : Nat} {F : List CTree} (h : Marked toks ctx i F j) {r : Rule} {ch : List Nat}
    {a b : Option Nat} {ks : List CTree} (hm : CTree.node r ch a b ks ∈ CTree.nodesL F) :
    ∃ i' j', a = some i' ∧ b = ltPrev j' ∧ Marked toks ch i' ks j' ∧ i ≤ i' ∧ j' ≤ j ∧ ∃ st up, ch = st :: up := by
  induction h with
  | nil => simp [CTree.nodesL] at hm
  | leaf h1 h2 h3 ih =>
    simp only [CTree.nodesL, CTree.nodes, List.cons_append, List.nil_append, List.mem_cons, reduceCtorEq, false_or] at hm
    obtain ⟨i', j', e1, e2, e3, e4, e5, e6⟩ := ih hm
    exact ⟨i', j', e1, e2, e3, by omega, e5, e6⟩
  | node h1 h2 ih1 ih2 =>
    have b1 := h1.bounds
    have b2 := h2.bounds
    simp only [CTree.nodesL, CTree.nodes, List.cons_append, List.mem_cons, List.mem_append, CTree.node.injEq] at hm
    rcases hm with ⟨-, rfl, rfl, rfl, rfl⟩ | hm | hm
    · exact ⟨_, _, rfl, rfl, h1, by omega, by omega, _, _, rfl⟩
    · obtain ⟨i', j', e1, e2, e3, e4, e5, e6⟩ := ih1 hm
      exact ⟨i', j', e1, e2, e3, by omega, by omega, e6⟩
    · obtain ⟨i', j', e1, e2, e3, e4, e5, e6⟩ := ih2 hm
      exact ⟨i', j', e1, e2, e3, by omega, by omega, e6⟩

theorem Marked.chain {ctx : List Nat} {i j : Nat} {F : List CTree} (h : Marked toks ctx i F j) {r : Rule} {ch : List Nat}
    {a b : Option Nat} {ks : List CTree} (hm : CTree.node r ch a b ks ∈ F) : ∃ st, ch = st :: ctx := by
  induction h with
  | nil => simp at hm
  | leaf h1 h2 h3 ih => simp only [List.mem_cons, reduceCtorEq, false_or] at hm; exact ih hm
  | node h1 h2 ih1 ih2 =>
    rcases List.mem_cons.1 hm with hm | hm
    · cases hm; exact ⟨_, rfl⟩
    · exact ih2 hm

theorem Marked.length {ctx : List Nat} {i j : Nat} {F : List CTree} (h : Marked toks ctx i F j) :
    i + (CTree.marksL F).length = j := by
  induction h with
  | nil => simp [CTree.marksL]
  | leaf _ _ _ ih => simp only [CTree.marksL, CTree.marks, List.length_append, List.length_singleton]; omega
  | node _ _ ih1 ih2 => simp only [CTree.marksL, CTree.marks, List.length_append]; omega

/-- First and last index. -/
theorem Marked.ends {ctx : List Nat} {i j : Nat} {F : List CTree} (h : Marked toks ctx i F j) :
    (∀ p, (CTree.marksL F).head? = some p → p.2 = i) ∧ (∀ p, (CTree.marksL F).getLast? = some p → p.2 + 1 = j) := by
  induction h with
  | nil => simp [CTree.marksL]
  | leaf h1 h2 h3 ih =>
    refine ⟨by simp [CTree.marksL, CTree.marks], fun p hp => ?_⟩
    rename_i i j x F
    simp only [CTree.marksL, CTree.marks, List.singleton_append] at hp
    cases hF : CTree.marksL F with
    | nil =>
      have hl := h3.length
      rw [hF] at hp hl
      simp only [List.getLast?_singleton, Option.some.injEq] at hp
      rw [← hp]
      simpa using hl
    | cons y ys =>
      rw [hF, List.getLast?_cons_cons] at hp
      exact ih.2 p (by rw [hF]; exact hp)
  | node h1 h2 ih1 ih2 =>
    rename_i ctx st i k j r ks F
    simp only [CTree.marksL, CTree.marks]
    constructor
    · intro p hp
      cases hk : CTree.marksL ks with
      | nil =>
        have hl := h1.length
        rw [hk] at hp hl
        rw [ih2.1 p hp, ← hl]; rfl
      | cons y ys =>
        rw [hk] at hp
        exact ih1.1 p (by rw [hk]; exact hp)
    · intro p hp
      cases hF : CTree.marksL F with
      | nil =>
        have hl := h2.length
        rw [hF] at hp hl
        rw [List.append_nil] at hp
        rw [ih1.2 p hp, ← hl]; rfl
      | cons y ys =>
        refine ih2.2 p ?_
        rw [hF, List.getLast?_append, List.getLast?_eq_some_getLast (List.cons_ne_nil y ys), Option.some_or] at hp
        rw [hF, List.getLast?_eq_some_getLast (List.cons_ne_nil y ys)]; exact hp

/-- No context is empty. -/
def Inhabited' (F : List CTree) : Prop := ∀ r ch a b ks, CTree.node r ch a b ks ∈ CTree.nodesL F → CTree.marksL ks ≠ []

theorem Inhabited'.tail {c : CTree} {F : List CTree} (h : Inhabited' (c :: F)) : Inhabited' F := fun r ch a b ks hm =>
  h r ch a b ks (by rw [CTree.nodesL]; exact List.mem_append_right _ hm)

theorem Marked.tiles {ctx : List Nat} {i j : Nat} {F : List CTree} (h : Marked toks ctx i F j) (hn : Inhabited' F) :
    Tiles i (F.map CTree.sourceInterval) j := by
  induction h with
  | nil => rfl
  | leaf h1 h2 h3 ih => exact ⟨rfl, Int.le_refl _, ih hn.tail⟩
  | node h1 h2 ih1 ih2 =>
    rename_i ctx st i k j r ks F
    have hks := hn r (st :: ctx) (some i) (ltPrev k) ks (by rw [CTree.nodesL, CTree.nodes]; simp)
    have hl := h1.length
    have : (CTree.marksL ks).length ≠ 0 := by simpa using hks
    cases k with
    | zero => omega
    | succ k => exact ⟨rfl, by omega, ih2 hn.tail⟩

end

end Fcsql
