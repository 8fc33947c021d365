/-
Segments of the lexer's network that implement a regular expression.
-/
import Verif.Spec.LexNet
import Verif.Proofs.Atn
import Verif.Proofs.Lexer

set_option autoImplicit false
set_option linter.unusedSimpArgs false

namespace Fcsql

/-- `LSeg A r s e`: the part of the network from `s` to `e` is the expression `r`. -/
inductive LSeg (A : Atn) : Rx → Nat → Nat → Prop
  | pre {r : Rx} {s s' e : Nat} : A.out s = [.eps s'] → LSeg A r s' e → LSeg A r s e
  | post {r : Rx} {s m e : Nat} : LSeg A r s m → A.out m = [.eps e] → LSeg A r s e
  | eps {s : Nat} : LSeg A .eps s s
  | atom {k : Int} {rs : List (Nat × Nat)} {s e : Nat} : A.out s = [.atom k e] →
      (∀ c : Nat, (c : Int) = k ↔ inRanges c rs = true) → LSeg A (.cls rs) s e
  | set {l : List (Int × Int)} {rs : List (Nat × Nat)} {s e : Nat} : A.out s = [.set l e] →
      (∀ c : Nat, InIntervals c l ↔ inRanges c rs = true) → LSeg A (.cls rs) s e
  | notSet {l : List (Int × Int)} {rs : List (Nat × Nat)} {s e : Nat} : A.out s = [.notSet l e] →
      (∀ c : Nat, InIntervals c l ↔ inRanges c rs = true) → LSeg A (.neg rs) s e
  | sub {r : Rx} {s b i x e : Nat} : A.out s = [.rule b i e] → LSeg A r b x → A.isStop x = true → LSeg A r s e
  | seq {a b : Rx} {s m e : Nat} : LSeg A a s m → LSeg A b m e → LSeg A (.seq a b) s e
  | alt {gs : List Rx} {ss : List Nat} {s e : Nat} : A.out s = ss.map .eps → gs.length = ss.length → gs ≠ [] →
      (∀ (i : Nat) (h : i < gs.length) (h' : i < ss.length), LSeg A gs[i] ss[i] e) → LSeg A (Rx.alts gs) s e
  | star {a : Rx} {s b x : Nat} : A.out s = [.eps b, .eps x] → LSeg A a b s → LSeg A (.star a) s x

theorem Rx.alts_cons {a b : Rx} {gs : List Rx} : Rx.alts (a :: b :: gs) = .alt a (Rx.alts (b :: gs)) := rfl

theorem Matches_alts {gs : List Rx} (h0 : gs ≠ []) {w : PyStr} :
    Matches (Rx.alts gs) w ↔ ∃ (i : Nat) (h : i < gs.length), Matches gs[i] w := by
  induction gs with
  | nil => exact absurd rfl h0
  | cons a gs ih =>
    cases gs with
    | nil =>
      simp only [Rx.alts, List.length_singleton]
      constructor
      · intro h; exact ⟨0, by omega, h⟩
      · rintro ⟨i, hi, h⟩
        obtain rfl : i = 0 := by omega
        exact h
    | cons b gs =>
      have ih := ih (by simp)
      rw [Rx.alts_cons]
      constructor
      · intro h
        cases h with
        | altL h => exact ⟨0, by simp, h⟩
        | altR h =>
          obtain ⟨i, hi, h⟩ := ih.1 h
          exact ⟨i + 1, by simpa using hi, by simpa using h⟩
      · rintro ⟨i, hi, h⟩
        cases i with
        | zero => exact .altL h
        | succ i => exact .altR (ih.2 ⟨i, by simpa using hi, by simpa using h⟩)

section
variable {A : Atn}

theorem LSeg.walk {r : Rx} {s e : Nat} (h : LSeg A r s e) : ∀ {u v : PyStr} {acts : List Nat}, Matches r u →
    LexWalk A e v acts → LexWalk A s (u ++ v) acts := by
  induction h with
  | pre ho _ ih => intro u v acts hm hw; exact .eps (by rw [ho]; simp) (ih hm hw)
  | post _ ho ih => intro u v acts hm hw; exact ih hm (.eps (by rw [ho]; simp) hw)
  | eps => intro u v acts hm hw; cases hm; exact hw
  | @atom k rs s e ho hk =>
    intro u v acts hm hw
    cases hm with
    | @cls _ c hc =>
      obtain rfl := (hk c).2 hc
      exact .atom (by rw [ho]; simp) hw
  | set ho hk =>
    intro u v acts hm hw
    cases hm with | cls hc => exact .set (by rw [ho]; simp) ((hk _).2 hc) hw
  | @notSet l rs s e ho hk =>
    intro u v acts hm hw
    cases hm with
    | neg h1 h2 => exact .notSet (l := l) (by rw [ho]; simp) (by omega) (fun h => by rw [(hk _).1 h] at h2; cases h2) hw
  | @sub r s b i x e ho _ hx ih =>
    intro u v acts hm hw
    have := ih hm (.stop hx)
    rw [List.append_nil] at this
    exact .rule (i := i) (acts := []) (by rw [ho]; simp) this hw
  | seq _ _ ih ih' =>
    intro u v acts hm hw
    cases hm with | seq h1 h2 => rw [List.append_assoc]; exact ih h1 (ih' h2 hw)
  | alt ho hl h0 _ ih =>
    intro u v acts hm hw
    obtain ⟨i, hi, hd⟩ := (Matches_alts h0).1 hm
    exact .eps (by rw [ho]; exact List.mem_map_of_mem (List.getElem_mem (by omega))) (ih i hi (by omega) hd hw)
  | @star a s b x ho _ ih =>
    intro u v acts hm hw
    generalize hg : Rx.star a = g at hm
    induction hm with
    | starNil => cases hg; exact .eps (by rw [ho]; simp) hw
    | starCons h1 h2 ih1 ih2 =>
      cases hg
      rw [List.append_assoc]
      exact .eps (by rw [ho]; simp) (ih h1 (ih2 rfl))
    | _ => cases hg

/-- Paths with their length. -/
inductive LexWalkN (A : Atn) : Nat → Nat → PyStr → List Nat → Prop
  | stop {s : Nat} : A.isStop s = true → LexWalkN A 0 s [] []
  | eps {n s t : Nat} {w : PyStr} {acts : List Nat} :
      .eps t ∈ A.out s → LexWalkN A n t w acts → LexWalkN A (n + 1) s w acts
  | atom {n s t c : Nat} {w : PyStr} {acts : List Nat} :
      .atom (c : Int) t ∈ A.out s → LexWalkN A n t w acts → LexWalkN A (n + 1) s (c :: w) acts
  | set {n s t c : Nat} {l : List (Int × Int)} {w : PyStr} {acts : List Nat} :
      .set l t ∈ A.out s → InIntervals c l → LexWalkN A n t w acts → LexWalkN A (n + 1) s (c :: w) acts
  | notSet {n s t c : Nat} {l : List (Int × Int)} {w : PyStr} {acts : List Nat} :
      .notSet l t ∈ A.out s → c ≤ 0x10FFFF → ¬ InIntervals c l → LexWalkN A n t w acts →
      LexWalkN A (n + 1) s (c :: w) acts
  | rule {n m s start i t : Nat} {u w : PyStr} {acts acts' : List Nat} :
      .rule start i t ∈ A.out s → LexWalkN A n start u acts → LexWalkN A m t w acts' →
      LexWalkN A (n + m + 1) s (u ++ w) (acts ++ acts')
  | action {n s a t : Nat} {w : PyStr} {acts : List Nat} :
      .action a t ∈ A.out s → LexWalkN A n t w acts → LexWalkN A (n + 1) s w (a :: acts)

theorem LexWalk.toN {s : Nat} {w : PyStr} {acts : List Nat} (h : LexWalk A s w acts) : ∃ n, LexWalkN A n s w acts := by
  induction h with
  | stop h => exact ⟨0, .stop h⟩
  | eps h _ ih => obtain ⟨n, ih⟩ := ih; exact ⟨_, .eps h ih⟩
  | atom h _ ih => obtain ⟨n, ih⟩ := ih; exact ⟨_, .atom h ih⟩
  | set h h' _ ih => obtain ⟨n, ih⟩ := ih; exact ⟨_, .set h h' ih⟩
  | notSet h h' h'' _ ih => obtain ⟨n, ih⟩ := ih; exact ⟨_, .notSet h h' h'' ih⟩
  | rule h _ _ ih ih' => obtain ⟨n, ih⟩ := ih; obtain ⟨m, ih'⟩ := ih'; exact ⟨_, .rule h ih ih'⟩
  | action h _ ih => obtain ⟨n, ih⟩ := ih; exact ⟨_, .action h ih⟩

theorem LexWalkN.toWalk {n s : Nat} {w : PyStr} {acts : List Nat} (h : LexWalkN A n s w acts) : LexWalk A s w acts := by
  induction h with
  | stop h => exact .stop h
  | eps h _ ih => exact .eps h ih
  | atom h _ ih => exact .atom h ih
  | set h h' _ ih => exact .set h h' ih
  | notSet h h' h'' _ ih => exact .notSet h h' h'' ih
  | rule h _ _ ih ih' => exact .rule h ih ih'
  | action h _ ih => exact .action h ih

theorem LSeg.split (hA : A.StopsEnd) {r : Rx} {s e : Nat} (h : LSeg A r s e) :
    ∀ {m : Nat} {w : PyStr} {acts : List Nat}, LexWalkN A m s w acts →
      ∃ u v k, w = u ++ v ∧ Matches r u ∧ k ≤ m ∧ LexWalkN A k e v acts := by
  induction h with
  | pre ho _ ih =>
    intro m w acts hw
    cases hw with
    | stop hs => rw [hA _ hs] at ho; cases ho
    | eps h h' =>
      rw [ho] at h; simp at h; subst h
      obtain ⟨u, v, k, h1, h2, h3, h4⟩ := ih h'
      exact ⟨u, v, k, h1, h2, by omega, h4⟩
    | _ h => rw [ho] at h; simp at h
  | post _ ho ih =>
    intro m w acts hw
    obtain ⟨u, v, k, h1, h2, h3, h4⟩ := ih hw
    cases h4 with
    | stop hs => rw [hA _ hs] at ho; cases ho
    | eps h h' =>
      rw [ho] at h; simp at h; subst h
      exact ⟨u, v, _, h1, h2, by omega, h'⟩
    | _ h => rw [ho] at h; simp at h
  | eps =>
    intro m w acts hw
    exact ⟨[], w, m, rfl, .eps, Nat.le_refl _, hw⟩
  | atom ho hk =>
    intro m w acts hw
    cases hw with
    | stop hs => rw [hA _ hs] at ho; cases ho
    | @atom _ _ _ c w acts h h' =>
      rw [ho] at h; simp at h
      obtain ⟨h, rfl⟩ := h
      exact ⟨[c], w, _, rfl, .cls ((hk c).1 h), by omega, h'⟩
    | _ h => rw [ho] at h; simp at h
  | set ho hk =>
    intro m w acts hw
    cases hw with
    | stop hs => rw [hA _ hs] at ho; cases ho
    | @set _ _ _ c l w acts h hi h' =>
      rw [ho] at h; simp at h
      obtain ⟨rfl, rfl⟩ := h
      exact ⟨[c], w, _, rfl, .cls ((hk c).1 hi), by omega, h'⟩
    | _ h => rw [ho] at h; simp at h
  | notSet ho hk =>
    intro m w acts hw
    cases hw with
    | stop hs => rw [hA _ hs] at ho; cases ho
    | @notSet _ _ _ c l w acts h hc hi h' =>
      rw [ho] at h; simp at h
      obtain ⟨rfl, rfl⟩ := h
      refine ⟨[c], w, _, rfl, .neg (by omega) ?_, by omega, h'⟩
      cases hr : inRanges c _ with
      | false => rfl
      | true => exact absurd ((hk c).2 hr) hi
    | _ h => rw [ho] at h; simp at h
  | @sub r s b i x e ho _ hx ih =>
    intro m w acts hw
    cases hw with
    | stop hs => rw [hA _ hs] at ho; cases ho
    | @rule n m _ _ _ _ u w acts acts' h h' h'' =>
      rw [ho] at h; simp at h
      obtain ⟨rfl, rfl, rfl⟩ := h
      obtain ⟨u', v', k, h1, h2, h3, h4⟩ := ih h'
      have hz : v' = [] ∧ acts = [] := by
        have ho' := hA _ hx
        cases h4 with
        | stop => exact ⟨rfl, rfl⟩
        | _ h => rw [ho'] at h; simp at h
      obtain ⟨rfl, rfl⟩ := hz
      rw [List.append_nil] at h1
      subst h1
      exact ⟨u, w, _, rfl, h2, by omega, h''⟩
    | _ h => rw [ho] at h; simp at h
  | seq _ _ ih ih' =>
    intro m w acts hw
    obtain ⟨u, v, k, h1, h2, h3, h4⟩ := ih hw
    obtain ⟨u', v', k', h1', h2', h3', h4'⟩ := ih' h4
    exact ⟨u ++ u', v', k', by rw [h1, h1']; simp, .seq h2 h2', by omega, h4'⟩
  | @alt gs ss s e ho hl h0 _ ih =>
    intro m w acts hw
    cases hw with
    | stop hs =>
      rw [hA _ hs] at ho
      have : ss = [] := by cases ss with | nil => rfl | cons => simp at ho
      subst this
      exact absurd (List.length_eq_zero_iff.1 hl) h0
    | eps h h' =>
      rw [ho] at h
      obtain ⟨t, ht, heq⟩ := List.mem_map.1 h
      cases heq
      obtain ⟨i, hi, ht⟩ := List.mem_iff_getElem.1 ht
      subst ht
      obtain ⟨u, v, k, h1, h2, h3, h4⟩ := ih i (by omega) hi h'
      exact ⟨u, v, k, h1, (Matches_alts h0).2 ⟨i, by omega, h2⟩, by omega, h4⟩
    | _ h => rw [ho] at h; simp at h
  | @star a s b x ho _ ih =>
    intro m
    induction m using Nat.strongRecOn with
    | _ m ihm =>
      intro w acts hw
      cases hw with
      | stop hs => rw [hA _ hs] at ho; cases ho
      | eps h h' =>
        rw [ho] at h
        simp at h
        rcases h with rfl | rfl
        · obtain ⟨u, v, k, h1, h2, h3, h4⟩ := ih h'
          obtain ⟨u', v', k', h1', h2', h3', h4'⟩ := ihm k (by omega) h4
          exact ⟨u ++ u', v', k', by rw [h1, h1']; simp, .starCons h2 h2', by omega, h4'⟩
        · exact ⟨[], w, _, rfl, .starNil, by omega, h'⟩
      | _ h => rw [ho] at h; simp at h

/-- The end of a rule: nothing is consumed, only actions are passed. -/
inductive LTail (A : Atn) : Nat → List Nat → Prop
  | stop {s : Nat} : A.isStop s = true → LTail A s []
  | eps {s t : Nat} {acts : List Nat} : A.out s = [.eps t] → LTail A t acts → LTail A s acts
  | action {s a t : Nat} {acts : List Nat} : A.out s = [.action a t] → LTail A t acts → LTail A s (a :: acts)

theorem LTail.iff (hA : A.StopsEnd) {s : Nat} {acts0 : List Nat} (h : LTail A s acts0) (w : PyStr) (acts : List Nat) :
    LexWalk A s w acts ↔ w = [] ∧ acts = acts0 := by
  induction h generalizing acts with
  | stop hs =>
    have ho := hA _ hs
    constructor
    · intro h
      cases h with
      | stop => exact ⟨rfl, rfl⟩
      | _ h => rw [ho] at h; simp at h
    · rintro ⟨rfl, rfl⟩; exact .stop hs
  | eps ho _ ih =>
    rw [← ih]
    constructor
    · intro h
      cases h with
      | stop hs => rw [hA _ hs] at ho; cases ho
      | eps h h' => rw [ho] at h; simp at h; subst h; exact h'
      | _ h => rw [ho] at h; simp at h
    · exact fun h => .eps (by rw [ho]; simp) h
  | @action s a t acts' ho _ ih =>
    constructor
    · intro h
      cases h with
      | stop hs => rw [hA _ hs] at ho; cases ho
      | action h h' =>
        rw [ho] at h; simp at h; obtain ⟨rfl, rfl⟩ := h
        obtain ⟨rfl, rfl⟩ := (ih _).1 h'
        exact ⟨rfl, rfl⟩
      | _ h => rw [ho] at h; simp at h
    · rintro ⟨rfl, rfl⟩
      exact .action (by rw [ho]; simp) ((ih _).2 ⟨rfl, rfl⟩)

/-- Paths of a rule: matches of its expression. -/
theorem LSeg.iff (hA : A.StopsEnd) {r : Rx} {s e : Nat} (h : LSeg A r s e) {acts0 : List Nat} (ht : LTail A e acts0)
    (w : PyStr) (acts : List Nat) : LexWalk A s w acts ↔ Matches r w ∧ acts = acts0 := by
  constructor
  · intro hw
    obtain ⟨n, hw⟩ := hw.toN
    obtain ⟨u, v, k, h1, h2, h3, h4⟩ := h.split hA hw
    obtain ⟨rfl, rfl⟩ := (ht.iff hA _ _).1 h4.toWalk
    rw [List.append_nil] at h1
    exact ⟨by rw [h1]; exact h2, rfl⟩
  · rintro ⟨hm, rfl⟩
    have := h.walk hm ((ht.iff hA _ _).2 ⟨rfl, rfl⟩)
    rwa [List.append_nil] at this

end

/-! ### The check -/

namespace Atn

/-- The intervals hold the same code points as the ranges. -/
def sameRanges (l : List (Int × Int)) (rs : List (Nat × Nat)) : Bool :=
  (l.all fun p => 0 ≤ p.1 && (List.range' p.1.toNat (p.2.toNat + 1 - p.1.toNat)).all fun c => inRanges c rs) &&
  (rs.all fun p => (List.range' p.1 (p.2 + 1 - p.1)).all fun c => l.any fun q => q.1 ≤ (c : Int) && (c : Int) ≤ q.2)

/-- The alternatives of `r`, as `n` expressions. -/
def unaltRx : Nat → Rx → List Rx
  | n + 2, .alt a b => a :: unaltRx (n + 1) b
  | _, r => [r]

/-- Where the segment of `r` that starts at `s` ends, if it is one. -/
def rxEnd (A : Atn) : Nat → Rx → Nat → Option Nat
  | 0, _, _ => none
  | n + 1, r, s =>
    match (match A.out (A.skip 9 s) with
      | [.rule b _ e] =>
        match A.rxEnd n r b with
        | some x => if A.isStop x then some e else none
        | none => none
      | _ => none) with
    | some e => some (A.skip 9 e)
    | none =>
      match r with
      | .void => none
      | .eps => some (A.skip 9 s)
      | .cls rs =>
        match A.out (A.skip 9 s) with
        | [.atom k e] => if sameRanges [(k, k)] rs then some (A.skip 9 e) else none
        | [.set l e] => if sameRanges l rs then some (A.skip 9 e) else none
        | _ => none
      | .neg rs =>
        match A.out (A.skip 9 s) with
        | [.notSet l e] => if sameRanges l rs then some (A.skip 9 e) else none
        | _ => none
      | .seq a b =>
        match A.rxEnd n a s with
        | some m => A.rxEnd n b m
        | none => none
      | .star a =>
        match A.out (A.skip 9 s) with
        | [.eps b, .eps x] => if A.rxEnd n a b = some (A.skip 9 s) then some (A.skip 9 x) else none
        | _ => none
      | .alt a b =>
        match epsTargets (A.out (A.skip 9 s)) with
        | none => none
        | some ss =>
          if (unaltRx ss.length (.alt a b)).length = ss.length then
            match (unaltRx ss.length (.alt a b)).zip ss with
            | [] => none
            | p :: rest =>
              match A.rxEnd n p.1 p.2 with
              | none => none
              | some e => if rest.all fun p => A.rxEnd n p.1 p.2 = some e then some e else none
          else none

/-- The actions at the end of a rule. -/
def tailActs (A : Atn) : Nat → Nat → Option (List Nat)
  | 0, _ => none
  | n + 1, s =>
    if A.isStop s then some []
    else
      match A.out s with
      | [.eps t] => A.tailActs n t
      | [.action a t] => (A.tailActs n t).map (a :: ·)
      | _ => none

/-- The check for all alternatives: each is the rule of the lexer, with its token type, and the given actions. -/
def lexOk (A : Atn) : List (TokType × Rx) → List Trans → Bool
  | [], [] => true
  | (t, r) :: rs, .eps s :: ts =>
    (match A.rxEnd 20 r s with
      | some e => A.tailActs 9 e == some (if t = .Space then [0] else [])
      | none => false) && A.tokenType s == some t.num.toNat && A.lexOk rs ts
  | _, _ => false

end Atn

/-! ### Soundness of the check -/

section
variable {A : Atn}

theorem inRanges_iff {c : Nat} {rs : List (Nat × Nat)} :
    inRanges c rs = true ↔ ∃ p ∈ rs, p.1 ≤ c ∧ c ≤ p.2 := by
  induction rs with
  | nil => simp [inRanges]
  | cons p rs ih =>
    obtain ⟨a, b⟩ := p
    simp only [inRanges, Bool.or_eq_true, Bool.and_eq_true, decide_eq_true_eq, ih, List.mem_cons]
    constructor
    · rintro (h | ⟨p, hp, h⟩)
      · exact ⟨_, .inl rfl, h⟩
      · exact ⟨p, .inr hp, h⟩
    · rintro ⟨p, rfl | hp, h⟩
      · exact .inl h
      · exact .inr ⟨p, hp, h⟩

theorem sameRanges_sound {l : List (Int × Int)} {rs : List (Nat × Nat)} (h : Atn.sameRanges l rs = true) (c : Nat) :
    InIntervals c l ↔ inRanges c rs = true := by
  unfold Atn.sameRanges at h
  rw [Bool.and_eq_true] at h
  constructor
  · rintro ⟨p, hp, h1, h2⟩
    have := List.all_eq_true.1 h.1 p hp
    rw [Bool.and_eq_true, decide_eq_true_eq] at this
    exact List.all_eq_true.1 this.2 c (List.mem_range'_1.2 ⟨by omega, by omega⟩)
  · intro hr
    obtain ⟨p, hp, h1, h2⟩ := inRanges_iff.1 hr
    have := List.all_eq_true.1 h.2 p hp
    have := List.all_eq_true.1 this c (List.mem_range'_1.2 ⟨by omega, by omega⟩)
    obtain ⟨q, hq, hx⟩ := List.any_eq_true.1 this
    simp at hx
    exact ⟨q, hq, hx⟩

theorem lskip_pre {r : Rx} {e : Nat} (n : Nat) {s : Nat} (h : LSeg A r (A.skip n s) e) : LSeg A r s e := by
  induction n generalizing s with
  | zero => exact h
  | succ n ih =>
    unfold Atn.skip at h
    split at h
    · rename_i t ht; exact .pre ht (ih h)
    · exact h

theorem lskip_post {r : Rx} {s : Nat} (n : Nat) {e : Nat} (h : LSeg A r s e) : LSeg A r s (A.skip n e) := by
  induction n generalizing e with
  | zero => exact h
  | succ n ih =>
    unfold Atn.skip
    split
    · rename_i t ht; exact ih (.post h ht)
    · exact h

theorem alts_unaltRx (n : Nat) (g : Rx) : Rx.alts (Atn.unaltRx n g) = g ∧ Atn.unaltRx n g ≠ [] := by
  induction n generalizing g with
  | zero => unfold Atn.unaltRx; exact ⟨rfl, by simp⟩
  | succ n ih =>
    cases n with
    | zero => cases g <;> exact ⟨rfl, by simp [Atn.unaltRx]⟩
    | succ n =>
      cases g with
      | alt a b =>
        obtain ⟨h1, h2⟩ := ih b
        refine ⟨?_, by simp [Atn.unaltRx]⟩
        rw [Atn.unaltRx]
        cases hu : Atn.unaltRx (n + 1) b with
        | nil => exact absurd hu h2
        | cons x xs => rw [Rx.alts_cons, ← hu, h1]
      | _ => exact ⟨rfl, by simp [Atn.unaltRx]⟩

theorem rxEnd_sound (n : Nat) {r : Rx} {s e : Nat} (h : A.rxEnd n r s = some e) : LSeg A r s e := by
  induction n generalizing r s e with
  | zero => simp [Atn.rxEnd] at h
  | succ n ih =>
    unfold Atn.rxEnd at h
    split at h
    · rename_i e' he
      cases h
      split at he
      · rename_i b i e'' ho
        split at he
        · rename_i x hx
          split at he
          · rename_i hs
            cases he
            exact lskip_pre 9 (lskip_post 9 (.sub ho (ih hx) hs))
          · cases he
        · cases he
      · cases he
    · split at h
      · cases h
      · cases h; exact lskip_post 9 .eps
      · rename_i rs
        split at h
        · rename_i k e' ho
          split at h
          · rename_i hk
            cases h
            refine lskip_pre 9 (lskip_post 9 (.atom ho fun c => ?_))
            rw [← sameRanges_sound hk c]
            constructor
            · intro h; exact ⟨(k, k), by simp, by simp only; omega, by simp only; omega⟩
            · rintro ⟨p, hp, h1, h2⟩
              simp at hp
              subst hp
              simp only at h1 h2
              omega
          · cases h
        · rename_i l e' ho
          split at h
          · rename_i hk
            cases h
            exact lskip_pre 9 (lskip_post 9 (.set ho (sameRanges_sound hk)))
          · cases h
        · cases h
      · rename_i rs
        split at h
        · rename_i l e' ho
          split at h
          · rename_i hk
            cases h
            exact lskip_pre 9 (lskip_post 9 (.notSet ho (sameRanges_sound hk)))
          · cases h
        · cases h
      · rename_i a b
        split at h
        · rename_i m hm
          exact .seq (ih hm) (ih h)
        · cases h
      · rename_i a
        split at h
        · rename_i b x ho
          split at h
          · rename_i hk
            cases h
            exact lskip_pre 9 (lskip_post 9 (.star ho (ih hk)))
          · cases h
        · cases h
      · rename_i a b _
        split at h
        · cases h
        · rename_i ss hss
          split at h
          · rename_i hlen
            split at h
            · cases h
            · rename_i p rest hz
              split at h
              · cases h
              · rename_i e' he
                split at h
                · rename_i hall
                  cases h
                  have ho := Atn.epsTargets_eq hss
                  obtain ⟨h1, h2⟩ := alts_unaltRx ss.length (.alt a b)
                  rw [← h1]
                  refine lskip_pre 9 (.alt ho hlen h2 ?_)
                  intro i hi hi'
                  apply ih
                  have hmem : ((Atn.unaltRx ss.length (.alt a b))[i], ss[i]) ∈
                      (Atn.unaltRx ss.length (.alt a b)).zip ss := by
                    rw [List.mem_iff_getElem]
                    exact ⟨i, by simp; omega, by simp⟩
                  rw [hz] at hmem
                  rcases List.mem_cons.1 hmem with hm | hm
                  · subst hm; exact he
                  · simpa using List.all_eq_true.1 hall _ hm
                · cases h
          · cases h

theorem tailActs_sound (n : Nat) {s : Nat} {acts : List Nat} (h : A.tailActs n s = some acts) : LTail A s acts := by
  induction n generalizing s acts with
  | zero => simp [Atn.tailActs] at h
  | succ n ih =>
    unfold Atn.tailActs at h
    split at h
    · rename_i hs; cases h; exact .stop hs
    · split at h
      · rename_i t ho; exact .eps ho (ih h)
      · rename_i a t ho
        cases hx : A.tailActs n t with
        | none => rw [hx] at h; cases h
        | some as => rw [hx] at h; cases h; exact .action ho (ih hx)
      · cases h

/-- What the check says: the `i`-th alternative is the `i`-th rule. -/
theorem lexOk_sound (hA : A.StopsEnd) {rs : List (TokType × Rx)} {ts : List Trans} (h : A.lexOk rs ts = true) :
    rs.length = ts.length ∧ ∀ (i : Nat) (hi : i < rs.length), ∃ s, ts[i]? = some (.eps s) ∧
      A.tokenType s = some rs[i].1.num.toNat ∧
      ∀ w acts, LexWalk A s w acts ↔ Matches rs[i].2 w ∧ acts = if rs[i].1 = .Space then [0] else [] := by
  induction rs generalizing ts with
  | nil =>
    cases ts with
    | nil => exact ⟨rfl, fun i hi => by simp at hi⟩
    | cons t ts => simp [Atn.lexOk] at h
  | cons p rs ih =>
    obtain ⟨t, r⟩ := p
    cases ts with
    | nil => simp [Atn.lexOk] at h
    | cons x ts =>
      cases x with
      | eps s =>
        simp only [Atn.lexOk, Bool.and_eq_true, beq_iff_eq] at h
        obtain ⟨⟨h1, h2⟩, h3⟩ := h
        obtain ⟨hl, hr⟩ := ih h3
        refine ⟨by simp [hl], fun i hi => ?_⟩
        cases i with
        | zero =>
          refine ⟨s, rfl, h2, ?_⟩
          split at h1
          · rename_i e he
            exact fun w acts => (rxEnd_sound _ he).iff hA (tailActs_sound _ (by simpa using h1)) w acts
          · cases h1
        | succ i =>
          obtain ⟨s', a, b, c⟩ := hr i (by simpa using hi)
          exact ⟨s', by simpa using a, by simpa using b, by simpa using c⟩
      | _ => simp [Atn.lexOk] at h

end

theorem lexerAtn_stops : lexerAtn.StopsEnd := Atn.stopsEnd_iff (by decide +kernel)

theorem lexerAtn_modes : lexerAtn.modes = [0] := rfl

theorem lexerAtn_rules : lexRules.length = (lexerAtn.out 0).length ∧
    ∀ (i : Nat) (hi : i < lexRules.length), ∃ s, (lexerAtn.out 0)[i]? = some (.eps s) ∧
      lexerAtn.tokenType s = some lexRules[i].1.num.toNat ∧
      ∀ w acts, LexWalk lexerAtn s w acts ↔
        Matches lexRules[i].2 w ∧ acts = if lexRules[i].1 = .Space then [0] else [] :=
  lexOk_sound lexerAtn_stops (by decide +kernel)

end Fcsql
