/-
The rule functions of FCSParser.py implement the network of FCSParser.py: a check, its soundness, and its result.
-/
import Verif.Proofs.GenHalt
import Verif.Proofs.Atn

set_option autoImplicit false
set_option linter.unusedSimpArgs false

namespace Fcsql

namespace Atn

/-- `t` is reached from `s` by single epsilon transitions. -/
def reach (A : Atn) : Nat → Nat → Nat → Bool
  | 0, s, t => s = t
  | n + 1, s, t => s = t ||
    match A.out s with
    | [.eps s'] => A.reach n s' t
    | _ => false

/-- All code was used. -/
def closed : Option (Nat × List Stmt) → Option Nat
  | some (e, []) => some e
  | _ => none

/-- A state all the given ones reach. -/
def common (A : Atn) (es : List (Option Nat)) : Option Nat :=
  (es.filterMap id).find? fun e => es.all fun
    | some x => A.reach 9 x e
    | none => false

/-- Where the network segment of `g` that begins at `s` ends, if the code begins with an implementation of it; and the
code after it. -/
def implEnd (A : Atn) : Nat → G → List Stmt → Nat → List Int → Option (Nat × List Stmt)
  | 0, _, _, _, _ => none
  | n + 1, g, .sync st :: rest, s, F => if A.reach 9 s st then A.implEnd n g rest st F else none
  | _ + 1, .eps, code, s, _ => some (s, code)
  | _ + 1, .tok t, .matchTok st k :: rest, s, _ =>
    if A.reach 9 s st then
      match A.out st with
      | [.atom k' e] => if k = t.num ∧ k' = t.num then some (e, rest) else none
      | _ => none
    else none
  | _ + 1, .rule r, .call st r' :: rest, s, F =>
    if A.reach 9 s st then
      match A.out st with
      | [.rule b i e] =>
        if r' = r ∧ b = A.start r ∧ i = r.num ∧ F.all (fun k => (followOf r).contains k) then some (e, rest) else none
      | _ => none
    else none
  | n + 1, .seq a b, .whileLA body l t :: rest, s, F =>
    match A.out l with
    | [.eps s', .eps x] =>
      if A.reach 9 s s' ∧ b = .star a ∧ a.nullable = false ∧ a.first.all (fun k => t.eval k) ∧
          F.all (fun k => !t.eval k) then
        match closed (A.implEnd n a body s' (a.first ++ F)) with
        | some e => if A.reach 9 e l then some (x, rest) else none
        | none => none
      else none
    | _ => none
  | n + 1, .seq a b, .whilePredict body l d :: rest, s, F =>
    match A.out l with
    | [.eps s', .eps x] =>
      if A.reach 9 s s' ∧ b = .star a ∧ a.nullable = false ∧ A.decisions[d]? = some l then
        match closed (A.implEnd n a body s' (a.first ++ F)) with
        | some e => if A.reach 9 e l then some (x, rest) else none
        | none => none
      else none
    | _ => none
  | n + 1, .seq a b, code, s, F =>
    match A.implEnd n a code s (b.first ++ if b.nullable then F else []) with
    | some (m, rest) => A.implEnd n b rest m F
    | none => none
  | _ + 1, .alt a b, .matchSet st t :: rest, s, _ =>
    if A.reach 9 s st then
      match A.out st with
      | [.set l e] =>
        match toks (.alt a b) with
        | some ks =>
          if allTypes.all (fun t => (l.any fun p => p.1 ≤ t.num && t.num ≤ p.2) == ks.contains t) ∧
            allTypes.all (fun k => t.eval k.num == ks.contains k) then some (e, rest) else none
        | none => none
      | _ => none
    else none
  | n + 1, .alt a b, .predict d bs :: rest, s, F =>
    match A.decisions[d]? with
    | none => none
    | some st =>
      match epsTargets (A.out st) with
      | none => none
      | some ss =>
        let gs := unalt ss.length (.alt a b)
        if A.reach 9 s st ∧ gs.length = ss.length then
          match A.common ((List.range ss.length).map fun i =>
              match gs[i]?, ss[i]? with
              | some g, some s => closed (A.implEnd n g (branch bs (i + 1)) s F)
              | _, _ => none) with
          | some e => some (e, rest)
          | none => none
        else none
  | n + 1, .alt a b, .switchLA cs :: rest, s, F =>
    match epsTargets (A.out (A.skip 9 s)) with
    | none => none
    | some ss =>
      let gs := unalt ss.length (.alt a b)
      if gs.length = ss.length ∧ gs.length = cs.length ∧ (List.range ss.length).all (fun i =>
          match gs[i]?, cs[i]? with
          | some g, some c => !g.nullable && c.1.all (fun k => ((cs.take i).all fun c' => !c'.1.contains k)) &&
              g.first.all fun k => c.1.contains k
          | _, _ => false) then
        match A.common ((List.range ss.length).map fun i =>
            match gs[i]?, ss[i]?, cs[i]? with
            | some g, some s, some c => closed (A.implEnd n g c.2 s F)
            | _, _, _ => none) with
        | some e => some (e, rest)
        | none => none
      else none
  | n + 1, .alt a .eps, .ifLA t body :: rest, s, F =>
    match A.out (A.skip 9 s) with
    | [.eps s1, .eps s2] =>
      if a.nullable = false ∧ a.first.all (fun k => t.eval k) ∧ F.all (fun k => !t.eval k) then
        match A.common [closed (A.implEnd n a body s1 F), some s2] with
        | some e => some (e, rest)
        | none => none
      else none
    | _ => none
  | _, _, _, _, _ => none

/-- The check for all rules. -/
def codeOk (A : Atn) (prog : Rule → List Stmt) : Bool :=
  [Rule.query, .main_query, .query_disjunction, .query_sequence, .query_group, .query_simple,
    .quantifier, .query_implicit, .query_segment, .within_part, .within_part_simple, .expression, .expression_or,
    .expression_and, .expression_group, .expression_not, .expression_basic, .attribute_, .qualifier, .identifier,
    .regexp, .regexp_pattern, .regexp_flag].all fun r =>
      match closed (A.implEnd 60 (body r) (prog r) (A.start r) (followOf r)) with
      | some e => A.isStop (A.skip 9 e)
      | none => false

end Atn

/-! ### Soundness of the check -/

section
variable {A : Atn}

theorem reach_pre {g : G} {c : List Stmt} {e : Nat} {F : List Int} (n : Nat) {s t : Nat} (hr : A.reach n s t = true)
    (h : Impl A g c t e F) : Impl A g c s e F := by
  induction n generalizing s with
  | zero => simp [Atn.reach] at hr; subst hr; exact h
  | succ n ih =>
    simp only [Atn.reach, Bool.or_eq_true, decide_eq_true_eq] at hr
    rcases hr with rfl | hr
    · exact h
    · split at hr
      · rename_i s' ho; exact .pre ho (ih hr)
      · cases hr

theorem reach_post {g : G} {c : List Stmt} {s : Nat} {F : List Int} (n : Nat) {e t : Nat} (hr : A.reach n e t = true)
    (h : Impl A g c s e F) : Impl A g c s t F := by
  induction n generalizing e with
  | zero => simp [Atn.reach] at hr; subst hr; exact h
  | succ n ih =>
    simp only [Atn.reach, Bool.or_eq_true, decide_eq_true_eq] at hr
    rcases hr with rfl | hr
    · exact h
    · split at hr
      · rename_i s' ho; exact ih hr (.post h ho)
      · cases hr

theorem skip_pre' {g : G} {c : List Stmt} {e : Nat} {F : List Int} (n : Nat) {s : Nat}
    (h : Impl A g c (A.skip n s) e F) : Impl A g c s e F := by
  induction n generalizing s with
  | zero => exact h
  | succ n ih =>
    unfold Atn.skip at h
    split at h
    · rename_i t ht; exact .pre ht (ih h)
    · exact h

theorem skip_post' {g : G} {c : List Stmt} {s : Nat} {F : List Int} (n : Nat) {e : Nat}
    (h : Impl A g c s e F) : Impl A g c s (A.skip n e) F := by
  induction n generalizing e with
  | zero => exact h
  | succ n ih =>
    unfold Atn.skip
    split
    · rename_i t ht; exact ih (.post h ht)
    · exact h

theorem closed_some {x : Option (Nat × List Stmt)} {e : Nat} (h : Atn.closed x = some e) : x = some (e, []) := by
  unfold Atn.closed at h
  split at h
  · cases h; rfl
  · cases h

theorem common_some {es : List (Option Nat)} {e : Nat} (h : A.common es = some e) :
    ∀ x ∈ es, ∃ y, x = some y ∧ A.reach 9 y e = true := by
  intro x hx
  have := List.find?_some h
  have := List.all_eq_true.1 this x hx
  split at this
  · rename_i y; exact ⟨y, rfl, this⟩
  · cases this

theorem common_range {n : Nat} {f : Nat → Option Nat} {e : Nat} (h : A.common ((List.range n).map f) = some e) :
    ∀ i, i < n → ∃ y, f i = some y ∧ A.reach 9 y e = true := by
  intro i hi
  obtain ⟨y, h1, h2⟩ := common_some h (f i) (List.mem_map.2 ⟨i, List.mem_range.2 hi, rfl⟩)
  exact ⟨y, h1, h2⟩

theorem intervals_iff {l : List (Int × Int)} {ks : List TokType}
    (hall : Atn.allTypes.all (fun t => (l.any fun p => p.1 ≤ t.num && t.num ≤ p.2) == ks.contains t) = true)
    (t : TokType) : InIntervals t.num l ↔ t ∈ ks := by
  have := List.all_eq_true.1 hall t (Atn.mem_allTypes t)
  simp only [beq_iff_eq] at this
  constructor
  · rintro ⟨p, hp, h1, h2⟩
    have h3 : (l.any fun p => decide (p.1 ≤ t.num) && decide (t.num ≤ p.2)) = true :=
      List.any_eq_true.2 ⟨p, hp, by simp [h1, h2]⟩
    rw [h3] at this
    simpa using this.symm
  · intro ht
    have h3 : (l.any fun p => decide (p.1 ≤ t.num) && decide (t.num ≤ p.2)) = true := by
      rw [this]; simpa using ht
    obtain ⟨p, hp, hx⟩ := List.any_eq_true.1 h3
    simp at hx
    exact ⟨p, hp, hx⟩

theorem switchCase_at {cs : List (List Int × List Stmt)} {k : Int} {i : Nat} (hi : i < cs.length) (hk : k ∈ cs[i].1)
    (hb : (cs.take i).all (fun c' => !c'.1.contains k) = true) : switchCase k cs = some cs[i].2 := by
  induction cs generalizing i with
  | nil => simp at hi
  | cons p cs ih =>
    obtain ⟨ks, b⟩ := p
    cases i with
    | zero => simp only [List.getElem_cons_zero] at hk ⊢; simp [switchCase, hk]
    | succ i =>
      simp only [List.take_succ_cons, List.all_cons, Bool.and_eq_true, Bool.not_eq_true'] at hb
      simp only [List.getElem_cons_succ] at hk ⊢
      have hnk : k ∉ ks := by simpa using hb.1
      rw [switchCase, if_neg hnk]
      exact ih (by simpa using hi) hk hb.2

theorem implEnd_sound (n : Nat) : ∀ {g : G} {code rest : List Stmt} {s e : Nat} {F : List Int},
    A.implEnd n g code s F = some (e, rest) → ∃ c, code = c ++ rest ∧ Impl A g c s e F := by
  induction n with
  | zero => intro g code rest s e F h; simp [Atn.implEnd] at h
  | succ n ih =>
    intro g code rest s e F h
    have ihc : ∀ {g : G} {code : List Stmt} {s e : Nat} {F : List Int},
        Atn.closed (A.implEnd n g code s F) = some e → Impl A g code s e F := by
      intro g code s e F h
      obtain ⟨c, h1, h2⟩ := ih (closed_some h)
      rw [List.append_nil] at h1; subst h1; exact h2
    unfold Atn.implEnd at h
    split at h
    · cases h
    · rename_i s F _ _ _ _ _ n' st rest' hn
      cases hn
      split at h
      · rename_i hr
        obtain ⟨c, rfl, hi⟩ := ih h
        exact ⟨.sync st :: c, rfl, reach_pre 9 hr (.sync hi)⟩
      · cases h
    · cases h
      exact ⟨[], rfl, .eps⟩
    · rename_i s F _ _ _ _ _ n' t st k rest' hn
      cases hn
      split at h
      · rename_i hr
        split at h
        · rename_i k' e' ho
          split at h
          · rename_i hk
            obtain ⟨rfl, rfl⟩ := hk
            cases h
            exact ⟨[_], rfl, reach_pre 9 hr (.tok ho)⟩
          · cases h
        · cases h
      · cases h
    · rename_i s F _ _ _ _ _ n' r st r' rest' hn
      cases hn
      split at h
      · rename_i hr
        split at h
        · rename_i b i e' ho
          split at h
          · rename_i hk
            obtain ⟨rfl, rfl, rfl, hF⟩ := hk
            cases h
            refine ⟨[_], rfl, reach_pre 9 hr (.rule ho ?_)⟩
            intro k hk
            simpa using List.all_eq_true.1 hF k hk
          · cases h
        · cases h
      · cases h
    · rename_i s F _ _ _ _ _ n' a b bd l t rest' hn
      cases hn
      split at h
      · rename_i s' x ho
        split at h
        · rename_i hk
          obtain ⟨hr, rfl, hnl, hf, hF⟩ := hk
          split at h
          · rename_i e' he
            split at h
            · rename_i hr'
              cases h
              refine ⟨[_], rfl, reach_pre 9 hr (.whileLA ho (reach_post 9 hr' (ihc he)) hnl ?_ ?_)⟩
              · exact fun k hk => List.all_eq_true.1 hf k hk
              · intro k hk; simpa using List.all_eq_true.1 hF k hk
            · cases h
          · cases h
        · cases h
      · cases h
    · rename_i s F _ _ _ _ _ n' a b bd l d rest' hn
      cases hn
      split at h
      · rename_i s' x ho
        split at h
        · rename_i hk
          obtain ⟨hr, rfl, hnl, hd⟩ := hk
          split at h
          · rename_i e' he
            split at h
            · rename_i hr'
              cases h
              exact ⟨[_], rfl, reach_pre 9 hr (.whilePredict hd ho (reach_post 9 hr' (ihc he)) hnl)⟩
            · cases h
          · cases h
        · cases h
      · cases h
    · rename_i code s F _ _ _ _ _ n' a b hn _ _ _
      cases hn
      split at h
      · rename_i m rest' hm
        obtain ⟨c, rfl, hi⟩ := ih hm
        obtain ⟨c', rfl, hi'⟩ := ih h
        exact ⟨c ++ c', by simp, .seq hi hi'⟩
      · cases h
    · rename_i s F _ _ _ _ _ n' a b st t rest' hn
      cases hn
      split at h
      · rename_i hr
        split at h
        · rename_i l e' ho
          split at h
          · rename_i ks hks
            split at h
            · rename_i hk
              cases h
              obtain ⟨h1, h2⟩ := Atn.toks_eq hks
              rw [← h1]
              refine ⟨[_], rfl, reach_pre 9 hr (.set ho ⟨h2, ?_⟩ (intervals_iff hk.1) ?_)⟩
              · match ks, h1, h2 with
                | [], _, h2 => exact absurd rfl h2
                | [_], h1, _ => cases h1
                | _ :: _ :: _, _, _ => simp
              · intro k
                have := List.all_eq_true.1 hk.2 k (Atn.mem_allTypes k)
                simp only [beq_iff_eq] at this
                rw [this]; simp
            · cases h
          · cases h
        · cases h
      · cases h
    · rename_i s F _ _ _ _ _ n' a b d bs rest' hn
      cases hn
      split at h
      · cases h
      · rename_i st hd
        split at h
        · cases h
        · rename_i ss hss
          simp only at h
          split at h
          · rename_i hk
            obtain ⟨hr, hlen⟩ := hk
            split at h
            · rename_i e' he
              cases h
              obtain ⟨h1, h2⟩ := Atn.alts_unalt ss.length (.alt a b)
              rw [← h1]
              refine ⟨[_], rfl, reach_pre 9 hr (.predict hd (Atn.epsTargets_eq hss) hlen h2 ?_)⟩
              intro i hi hi'
              obtain ⟨y, hy, hr'⟩ := common_range he i hi'
              rw [List.getElem?_eq_getElem hi, List.getElem?_eq_getElem hi'] at hy
              exact reach_post 9 hr' (ihc hy)
            · cases h
          · cases h
    · rename_i s F _ _ _ _ _ n' a b cs rest' hn
      cases hn
      split at h
      · cases h
      · rename_i ss hss
        simp only at h
        split at h
        · rename_i hk
          obtain ⟨hlen, hlen', hall⟩ := hk
          split at h
          · rename_i e' he
            cases h
            obtain ⟨h1, h2⟩ := Atn.alts_unalt ss.length (.alt a b)
            conv => rhs; intro c; rw [← h1]
            refine ⟨[_], rfl, skip_pre' 9 (.switch (Atn.epsTargets_eq hss) hlen hlen' h2 ?_ ?_)⟩
            · intro i hi hi' hi''
              obtain ⟨y, hy, hr'⟩ := common_range he i hi'
              rw [List.getElem?_eq_getElem hi, List.getElem?_eq_getElem hi', List.getElem?_eq_getElem hi''] at hy
              exact reach_post 9 hr' (ihc hy)
            · intro i hi hi'
              have := List.all_eq_true.1 hall i (List.mem_range.2 (by omega))
              rw [List.getElem?_eq_getElem hi, List.getElem?_eq_getElem hi'] at this
              simp only [Bool.and_eq_true, Bool.not_eq_true'] at this
              obtain ⟨⟨g1, g2⟩, g3⟩ := this
              refine ⟨g1, fun k hk => ?_⟩
              have hmem : k ∈ cs[i].1 := by simpa using List.all_eq_true.1 g3 k hk
              exact switchCase_at hi' hmem (List.all_eq_true.1 g2 k hmem)
          · cases h
        · cases h
    · rename_i s F _ _ _ _ _ n' a t bd rest' hn
      cases hn
      split at h
      · rename_i s1 s2 ho
        split at h
        · rename_i hk
          obtain ⟨hnl, hf, hF⟩ := hk
          split at h
          · rename_i e' he
            cases h
            obtain ⟨y, hy, hr⟩ := common_some he _ (List.mem_cons_self ..)
            obtain ⟨y', hy', hr'⟩ := common_some he (some s2) (by simp)
            cases hy'
            refine ⟨[_], rfl, skip_pre' 9 (.ifLA ho (reach_post 9 hr (ihc hy)) (reach_post 9 hr' .eps) hnl ?_ ?_)⟩
            · exact fun k hk => List.all_eq_true.1 hf k hk
            · intro k hk; simpa using List.all_eq_true.1 hF k hk
          · cases h
        · cases h
      · cases h
    · cases h

theorem codeOk_sound (hA : Implements A) {prog : Rule → List Stmt} (h : A.codeOk prog = true) : CodeOk A prog := by
  refine ⟨hA, fun r => ?_⟩
  have := List.all_eq_true.1 h r (by cases r <;> decide)
  revert this
  split
  · rename_i e he
    intro hs
    obtain ⟨c, h1, h2⟩ := implEnd_sound _ (closed_some he)
    rw [List.append_nil] at h1
    subst h1
    exact ⟨_, hs, skip_post' 9 h2⟩
  · intro h; cases h

end

/-- The generated functions implement the grammar and the network. -/
theorem code_ok : CodeOk parserAtn code := codeOk_sound parserAtn_implements (by decide +kernel)

end Fcsql
