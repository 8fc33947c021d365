/-
The runtime's lexer simulator: its sets of configurations hold what the network's paths reach.
-/
import Verif.Model.LexerSim
import Verif.Proofs.LexNetSplits

set_option autoImplicit false
set_option linter.unusedSimpArgs false

namespace Fcsql

/-- Steps of a configuration that consume nothing. -/
inductive LEps (A : Atn) : LConf → LConf → Prop
  | step {c c' : LConf} {t : Trans} : A.isStop c.state = false → t ∈ A.out c.state → Atn.lexEpsTarget false c t = some c' →
      LEps A c c'
  | pop {c : LConf} {r : Nat} {ctx : List Nat} : A.isStop c.state = true → c.ctx = r :: ctx →
      LEps A c { c with state := r, ctx := ctx }

/-- Steps of a configuration that consume a symbol. -/
def LChar (A : Atn) (k : Int) (c c' : LConf) : Prop :=
  ∃ t ∈ A.out c.state, ∃ s, Atn.charTarget k t = some s ∧ c' = { c with state := s }

/-- A configuration comes to another one by consuming a text. -/
inductive LRun (A : Atn) : LConf → PyStr → LConf → Prop
  | refl {c : LConf} : LRun A c [] c
  | eps {c c' x : LConf} {w : PyStr} : LEps A c c' → LRun A c' w x → LRun A c w x
  | char {c c' x : LConf} {k : Nat} {w : PyStr} : LChar A k c c' → LRun A c' w x → LRun A c (k :: w) x

/-- The configurations that are kept in a set. -/
def LKeep (A : Atn) (c : LConf) : Prop :=
  (A.isStop c.state = true ∧ c.ctx = []) ∨ (A.isStop c.state = false ∧ A.epsilonOnly c.state = false)

section
variable {A : Atn}

theorem mem_addTo {c x : LConf} {cs : List LConf} : x ∈ c.addTo cs ↔ x ∈ cs ∨ x = c := by
  unfold LConf.addTo
  split
  · rename_i h
    rw [List.contains_iff_mem] at h
    constructor
    · exact .inl
    · rintro (h' | rfl) <;> assumption
  · simp

theorem LRun.trans {c x y : LConf} {u v : PyStr} (h : LRun A c u x) (h' : LRun A x v y) : LRun A c (u ++ v) y := by
  induction h with
  | refl => exact h'
  | eps h _ ih => exact .eps h (ih h')
  | char h _ ih => exact .char h (ih h')

theorem LRun.snoc {c x : LConf} {u : PyStr} {k : Nat} :
    LRun A c (u ++ [k]) x ↔ ∃ y z, LRun A c u y ∧ LChar A k y z ∧ LRun A z [] x := by
  constructor
  · intro h
    generalize hw : u ++ [k] = w at h
    induction h generalizing u with
    | refl => simp at hw
    | eps h _ ih =>
      obtain ⟨y, z, h1, h2, h3⟩ := ih hw
      exact ⟨y, z, .eps h h1, h2, h3⟩
    | @char c c' x k' w h h' ih =>
      cases u with
      | nil =>
        simp at hw
        obtain ⟨rfl, rfl⟩ := hw
        exact ⟨c, c', .refl, h, h'⟩
      | cons a u =>
        simp at hw
        obtain ⟨rfl, hw⟩ := hw
        obtain ⟨y, z, h1, h2, h3⟩ := ih hw
        exact ⟨y, z, .char h h1, h2, h3⟩
  · rintro ⟨y, z, h1, h2, h3⟩
    exact h1.trans (.char h2 h3)

theorem charTarget_noEps {k : Int} {t : Trans} {s : Nat} (h : Atn.charTarget k t = some s) : Atn.isEps t = false := by
  cases t <;> simp [Atn.charTarget] at h <;> rfl

/-- Where a symbol can be consumed, the configuration is kept. -/
theorem LChar.keep (hA : A.StopsEnd) {k : Int} {c c' : LConf} (h : LChar A k c c') : LKeep A c := by
  obtain ⟨t, ht, s, hs, -⟩ := h
  refine .inr ⟨?_, ?_⟩
  · cases hc : A.isStop c.state with
    | false => rfl
    | true => rw [hA _ hc] at ht; cases ht
  · unfold Atn.epsilonOnly
    cases hc : (!(A.out c.state).isEmpty && (A.out c.state).all Atn.isEps) with
    | false => rfl
    | true =>
      rw [Bool.and_eq_true] at hc
      have := List.all_eq_true.1 hc.2 t ht
      rw [charTarget_noEps hs] at this
      cases this

/-- On the way to a kept configuration, one is kept after every part of the text. -/
theorem LRun.mid (hA : A.StopsEnd) {c x : LConf} {u v : PyStr} (h : LRun A c (u ++ v) x) (hx : LKeep A x) :
    ∃ y, LRun A c u y ∧ LKeep A y := by
  cases v with
  | nil => rw [List.append_nil] at h; exact ⟨x, h, hx⟩
  | cons k v =>
    have : u ++ k :: v = (u ++ [k]) ++ v := by simp
    rw [this] at h
    generalize hw : (u ++ [k]) ++ v = w at h
    clear this
    induction h generalizing u with
    | refl => simp at hw
    | eps h _ ih =>
      obtain ⟨y, h1, h2⟩ := ih hx hw
      exact ⟨y, .eps h h1, h2⟩
    | @char c c' x k' w h h' ih =>
      cases u with
      | nil => exact ⟨c, .refl, h.keep hA⟩
      | cons a u =>
        simp at hw
        obtain ⟨rfl, hw⟩ := hw
        obtain ⟨y, h1, h2⟩ := ih hx (by simpa using hw)
        exact ⟨y, .char h h1, h2⟩

/-- `foldlM` in `Option`, when every step that succeeds adds what `P` says. -/
theorem mem_foldlM {α β : Type} {f : List β → α → Option (List β)} {P : α → β → Prop} (l : List α)
    (hf : ∀ a ∈ l, ∀ cs cs', f cs a = some cs' → ∀ x, x ∈ cs' ↔ x ∈ cs ∨ P a x)
    {cs cs' : List β} (h : l.foldlM f cs = some cs') (x : β) : x ∈ cs' ↔ x ∈ cs ∨ ∃ a ∈ l, P a x := by
  induction l generalizing cs with
  | nil => simp at h; subst h; simp
  | cons a l ih =>
    rw [List.foldlM_cons] at h
    cases h1 : f cs a with
    | none => rw [h1] at h; cases h
    | some cs1 =>
      rw [h1] at h
      have h2 := hf a (by simp) cs cs1 h1
      have h3 := ih (fun b hb => hf b (by simp [hb])) h
      rw [h3, h2]
      simp only [List.mem_cons, exists_eq_or_imp, or_assoc]

/-- `closure` adds the kept configurations that are reached without consuming anything. -/
theorem mem_lexClosure (n : Nat) : ∀ {c : LConf} {cs cs' : List LConf}, A.lexClosure false n c cs = some cs' →
    ∀ x, x ∈ cs' ↔ x ∈ cs ∨ (LRun A c [] x ∧ LKeep A x) := by
  induction n with
  | zero => intro c cs cs' h; cases h
  | succ n ih =>
    intro c cs cs' h x
    unfold Atn.lexClosure at h
    split at h
    · rename_i hs
      cases hc : c.ctx with
      | nil =>
        rw [hc] at h
        simp only [Option.some.injEq] at h
        subst h
        rw [mem_addTo]
        refine or_congr Iff.rfl ⟨?_, ?_⟩
        · rintro rfl; exact ⟨.refl, .inl ⟨hs, hc⟩⟩
        · rintro ⟨hr, hk⟩
          cases hr with
          | refl => rfl
          | eps he _ =>
            cases he with
            | step h1 => rw [hs] at h1; cases h1
            | pop _ h2 => rw [hc] at h2; cases h2
      | cons r ctx =>
        rw [hc] at h
        simp only at h
        rw [ih h x]
        refine or_congr Iff.rfl ⟨?_, ?_⟩
        · rintro ⟨h1, h2⟩; exact ⟨.eps (.pop hs hc) h1, h2⟩
        · rintro ⟨h1, h2⟩
          cases h1 with
          | refl =>
            rcases h2 with ⟨_, h2⟩ | ⟨h2, _⟩
            · rw [hc] at h2; cases h2
            · rw [hs] at h2; cases h2
          | eps he h1 =>
            cases he with
            | step h3 => rw [hs] at h3; cases h3
            | pop _ h3 => rw [hc] at h3; cases h3; exact ⟨h1, h2⟩
    · rename_i hs
      have hs' : A.isStop c.state = false := by cases h' : A.isStop c.state <;> simp_all
      have := mem_foldlM (P := fun t x => ∃ c', Atn.lexEpsTarget false c t = some c' ∧ LRun A c' [] x ∧ LKeep A x)
        (A.out c.state) (fun t ht cs cs' hf x => by
          split at hf
          · rename_i hn; cases hf; simp [hn]
          · rename_i c' hn
            rw [ih hf x]
            simp [hn]) h x
      rw [this]
      constructor
      · rintro (h1 | ⟨t, ht, c', h1, h2, h3⟩)
        · split at h1
          · exact .inl h1
          · rename_i he
            rcases mem_addTo.1 h1 with h1 | rfl
            · exact .inl h1
            · exact .inr ⟨.refl, .inr ⟨hs', by simpa using he⟩⟩
        · exact .inr ⟨.eps (.step hs' ht h1) h2, h3⟩
      · rintro (h1 | ⟨h1, h2⟩)
        · left
          split
          · exact h1
          · exact mem_addTo.2 (.inl h1)
        · cases h1 with
          | refl =>
            left
            rcases h2 with ⟨h2, _⟩ | ⟨_, h2⟩
            · rw [hs'] at h2; cases h2
            · rw [h2]; exact mem_addTo.2 (.inr rfl)
          | eps he h1 =>
            cases he with
            | step _ ht h3 => exact .inr ⟨_, ht, _, h3, h1, h2⟩
            | pop h3 => rw [hs'] at h3; cases h3

/-! ### Order of the alternatives -/

/-- The configurations are ordered by alternative, none above `a`. -/
def Upto (a : Nat) (cs : List LConf) : Prop := cs.Pairwise (fun c d => c.alt ≤ d.alt) ∧ ∀ c ∈ cs, c.alt ≤ a

theorem Upto.mono {a b : Nat} {cs : List LConf} (h : Upto a cs) (hab : a ≤ b) : Upto b cs :=
  ⟨h.1, fun c hc => Nat.le_trans (h.2 c hc) hab⟩

theorem Upto.addTo {c : LConf} {cs : List LConf} (h : Upto c.alt cs) : Upto c.alt (c.addTo cs) := by
  unfold LConf.addTo
  split
  · exact h
  · refine ⟨List.pairwise_append.2 ⟨h.1, by simp, ?_⟩, ?_⟩
    · intro x hx y hy
      simp at hy; subst hy
      exact h.2 x hx
    · intro x hx
      simp at hx
      rcases hx with hx | rfl
      · exact h.2 x hx
      · exact Nat.le_refl _

theorem foldlM_inv {α β : Type} {f : β → α → Option β} {P : β → Prop} (l : List α)
    (hf : ∀ a ∈ l, ∀ b b', f b a = some b' → P b → P b') {b b' : β} (h : l.foldlM f b = some b') (hb : P b) : P b' := by
  induction l generalizing b with
  | nil => simp at h; subst h; exact hb
  | cons a l ih =>
    rw [List.foldlM_cons] at h
    cases h1 : f b a with
    | none => rw [h1] at h; cases h
    | some b1 =>
      rw [h1] at h
      exact ih (fun b hb => hf b (by simp [hb])) h (hf a (by simp) _ _ h1 hb)

theorem lexEpsTarget_alt {eof : Bool} {c c' : LConf} {t : Trans} (h : Atn.lexEpsTarget eof c t = some c') : c'.alt = c.alt := by
  unfold Atn.lexEpsTarget at h
  split at h
  · cases h; rfl
  · split at h <;> cases h <;> rfl
  · cases h; rfl
  · split at h
    · rw [Option.map_eq_some_iff] at h
      obtain ⟨_, _, rfl⟩ := h
      rfl
    · cases h

theorem upto_lexClosure {eof : Bool} (n : Nat) : ∀ {c : LConf} {cs cs' : List LConf}, A.lexClosure eof n c cs = some cs' →
    Upto c.alt cs → Upto c.alt cs' := by
  induction n with
  | zero => intro c cs cs' h; cases h
  | succ n ih =>
    intro c cs cs' h hu
    unfold Atn.lexClosure at h
    split at h
    · split at h
      · cases h; exact hu.addTo
      · have := ih h
        exact this hu
    · refine foldlM_inv (P := Upto c.alt) _ ?_ h ?_
      · intro t _ b b' hb hub
        split at hb
        · cases hb; exact hub
        · rename_i c' hc'
          have ha := lexEpsTarget_alt hc'
          rw [← ha] at hub ⊢
          exact ih hb hub
      · split
        · exact hu
        · exact hu.addTo

theorem upto_lexReach {n : Nat} {k : Int} {cs cs' : List LConf} {a : Nat} (h : A.lexReach n cs k = some cs') (hu : Upto a cs) :
    Upto a cs' := by
  unfold Atn.lexReach at h
  -- the configurations are gone through in order
  have : ∀ (l : List LConf) (r r' : List LConf) (b : Nat), l.Pairwise (fun c d => c.alt ≤ d.alt) → (∀ c ∈ l, b ≤ c.alt ∧ c.alt ≤ a) → b ≤ a →
      l.foldlM (fun reach c => (A.out c.state).foldlM (fun reach t =>
        match Atn.charTarget k t with
        | none => some reach
        | some t' => A.lexClosure (k == -1) n { c with state := t' } reach) reach) r = some r' → Upto b r → Upto a r' := by
    intro l
    induction l with
    | nil => intro r r' b _ _ hba h hu; simp at h; subst h; exact hu.mono hba
    | cons c l ih =>
      intro r r' b hp hb hba h hu
      rw [List.foldlM_cons] at h
      obtain ⟨hp1, hp2⟩ := List.pairwise_cons.1 hp
      have hc := hb c (by simp)
      rw [Option.bind_eq_bind, Option.bind_eq_some_iff] at h
      obtain ⟨r1, h1, h2⟩ := h
      refine ih r1 r' c.alt hp2 (fun d hd => ⟨hp1 d hd, (hb d (by simp [hd])).2⟩) hc.2 h2 ?_
      refine foldlM_inv (P := Upto c.alt) _ ?_ h1 (hu.mono hc.1)
      intro t _ x x' hx hux
      split at hx
      · cases hx; exact hux
      · have := upto_lexClosure n hx
        exact this hux
  exact this cs [] cs' 0 hu.1 (fun c hc => ⟨Nat.zero_le _, hu.2 c hc⟩) (Nat.zero_le _) h ⟨.nil, by simp⟩

theorem upto_lexStart {n p : Nat} {cs : List LConf} (h : A.lexStart n p = some cs) : ∃ a, Upto a cs := by
  unfold Atn.lexStart at h
  have : ∀ (l : List Trans) (i : Nat) (r r' : List LConf),
      (l.zipIdx i).foldlM (fun cs ti => A.lexClosure false n { state := Atn.target ti.1, alt := ti.2 + 1, ctx := [], acts := [] } cs) r = some r' →
      Upto i r → Upto (i + l.length) r' := by
    intro l
    induction l with
    | nil => intro i r r' h hu; simp at h; subst h; exact hu
    | cons t l ih =>
      intro i r r' h hu
      rw [List.zipIdx_cons, List.foldlM_cons, Option.bind_eq_bind, Option.bind_eq_some_iff] at h
      obtain ⟨r1, h1, h2⟩ := h
      have := ih (i + 1) r1 r' h2 (upto_lexClosure n (c := { state := Atn.target t, alt := i + 1, ctx := [], acts := [] }) h1 (hu.mono (Nat.le_succ _)))
      refine this.mono ?_
      simp only [List.length_cons]
      omega
  exact ⟨_, this _ 0 [] cs h ⟨.nil, by simp⟩⟩

/-! ### Sets and paths -/

/-- The configuration alternative `i` starts with. -/
def lconf0 (i s : Nat) : LConf := { state := s, alt := i + 1, ctx := [], acts := [] }

/-- The configurations that are kept after the text `u`. -/
def LAfter (A : Atn) (u : PyStr) (x : LConf) : Prop := ∃ i s, A.LexAlt i s ∧ LRun A (lconf0 i s) u x ∧ LKeep A x

theorem mem_lexStart {n m : Nat} {cs : List LConf} (hm : A.modes = [m]) (he : ∀ t ∈ A.out m, ∃ s, t = .eps s)
    (h : A.lexStart n m = some cs) (x : LConf) : x ∈ cs ↔ LAfter A [] x := by
  unfold Atn.lexStart at h
  rw [mem_foldlM (P := fun (ti : Trans × Nat) x => LRun A (lconf0 ti.2 (Atn.target ti.1)) [] x ∧ LKeep A x) _
    (fun ti _ cs cs' hf x => mem_lexClosure n hf x) h x]
  simp only [List.not_mem_nil, false_or, Prod.exists]
  constructor
  · rintro ⟨t, i, hti, h1, h2⟩
    rw [List.mem_zipIdx_iff_getElem?] at hti
    obtain ⟨s, rfl⟩ := he t (List.mem_of_getElem? hti)
    exact ⟨i, s, ⟨m, hm, hti⟩, h1, h2⟩
  · rintro ⟨i, s, ⟨m', hm', hs⟩, h1, h2⟩
    rw [hm] at hm'
    cases hm'
    exact ⟨.eps s, i, List.mem_zipIdx_iff_getElem?.2 hs, h1, h2⟩

theorem mem_lexReach {n k : Nat} {cs cs' : List LConf} (h : A.lexReach n cs (k : Int) = some cs') (x : LConf) :
    x ∈ cs' ↔ ∃ y ∈ cs, ∃ z, LChar A k y z ∧ LRun A z [] x ∧ LKeep A x := by
  unfold Atn.lexReach at h
  have hk : (((k : Int)) == -1) = false := by
    rw [beq_eq_false_iff_ne]; omega
  rw [hk] at h
  rw [mem_foldlM (P := fun (y : LConf) x => ∃ t ∈ A.out y.state, ∃ s, Atn.charTarget k t = some s ∧ LRun A { y with state := s } [] x ∧ LKeep A x) _
    (fun y _ cs cs' hf x => mem_foldlM (P := fun t x => ∃ s, Atn.charTarget k t = some s ∧ LRun A { y with state := s } [] x ∧ LKeep A x) _
      (fun t _ cs cs' hf x => by
        split at hf
        · rename_i hn; cases hf; simp [hn]
        · rename_i s hn
          rw [mem_lexClosure n hf x]
          simp [hn]) hf x) h x]
  simp only [List.not_mem_nil, false_or]
  constructor
  · rintro ⟨y, hy, t, ht, s, h1, h2, h3⟩
    exact ⟨y, hy, _, ⟨t, ht, s, h1, rfl⟩, h2, h3⟩
  · rintro ⟨y, hy, z, ⟨t, ht, s, h1, rfl⟩, h2, h3⟩
    exact ⟨y, hy, t, ht, s, h1, h2, h3⟩

/-- One symbol further. -/
theorem LAfter.snoc (hA : A.StopsEnd) {u : PyStr} {k : Nat} {x : LConf} :
    LAfter A (u ++ [k]) x ↔ ∃ y, LAfter A u y ∧ ∃ z, LChar A k y z ∧ LRun A z [] x ∧ LKeep A x := by
  constructor
  · rintro ⟨i, s, h1, h2, h3⟩
    obtain ⟨y, z, h4, h5, h6⟩ := LRun.snoc.1 h2
    exact ⟨y, ⟨i, s, h1, h4, h5.keep hA⟩, z, h5, h6, h3⟩
  · rintro ⟨y, ⟨i, s, h1, h2, _⟩, z, h5, h6, h3⟩
    exact ⟨i, s, h1, LRun.snoc.2 ⟨y, z, h2, h5, h6⟩, h3⟩

theorem charTarget_iff {k : Nat} {t : Trans} {s : Nat} : Atn.charTarget k t = some s ↔
    t = .atom (k : Int) s ∨ (∃ l, t = .set l s ∧ InIntervals k l) ∨ (∃ l, t = .notSet l s ∧ k ≤ 0x10FFFF ∧ ¬ InIntervals k l) := by
  have hi : ∀ (l : List (Int × Int)), (l.any fun p => decide (p.1 ≤ (k : Int)) && decide ((k : Int) ≤ p.2)) = true ↔ InIntervals k l := by
    intro l
    rw [List.any_eq_true]
    simp [InIntervals]
  cases t with
  | atom l t =>
    simp only [Atn.charTarget]
    split
    · rename_i h; subst h; simp
    · rename_i h; simp [h]
  | set l t =>
    simp only [Atn.charTarget]
    split
    · rename_i h
      rw [hi] at h
      simp only [Option.some.injEq, reduceCtorEq, false_or, Trans.set.injEq, false_and, exists_false, or_false]
      constructor
      · rintro rfl; exact ⟨l, ⟨rfl, rfl⟩, h⟩
      · rintro ⟨_, ⟨_, h⟩, _⟩; exact h
    · rename_i h
      rw [hi] at h
      simp only [reduceCtorEq, false_or, Trans.set.injEq, false_iff, false_and, exists_false, or_false]
      rintro ⟨l', ⟨rfl, _⟩, h'⟩
      exact h h'
  | notSet l t =>
    simp only [Atn.charTarget]
    split
    · rename_i h
      simp only [Bool.and_eq_true, decide_eq_true_eq, Bool.not_eq_true'] at h
      have h1 : k ≤ 0x10FFFF := by have := h.1.2; unfold maxChar at this; omega
      have h2 : ¬ InIntervals k l := by rw [← hi, h.2]; simp
      simp only [Option.some.injEq, reduceCtorEq, false_or, Trans.notSet.injEq, false_and, exists_false, or_false]
      constructor
      · rintro rfl; exact ⟨l, ⟨rfl, rfl⟩, h1, h2⟩
      · rintro ⟨_, ⟨_, h⟩, _⟩; exact h
    · rename_i h
      simp only [reduceCtorEq, false_or, Trans.notSet.injEq, false_iff, false_and, exists_false]
      rintro ⟨l', ⟨rfl, _⟩, h1, h2⟩
      apply h
      rw [← hi, Bool.not_eq_true] at h2
      simp only [h2, Bool.and_eq_true, decide_eq_true_eq, Bool.not_false, and_true]
      unfold maxChar
      omega
  | _ => simp [Atn.charTarget]

/-- Paths through a stack of states. -/
inductive StackWalk (A : Atn) : List Nat → PyStr → Prop
  | nil : StackWalk A [] []
  | cons {s : Nat} {l : List Nat} {u v : PyStr} {acts : List Nat} :
      LexWalk A s u acts → StackWalk A l v → StackWalk A (s :: l) (u ++ v)

theorem LRun.stack {c x : LConf} {w : PyStr} (h : LRun A c w x) (hs : A.isStop x.state = true) (hx : x.ctx = []) :
    StackWalk A (c.state :: c.ctx) w := by
  induction h with
  | refl => rw [hx]; exact .cons (u := []) (.stop hs) .nil
  | @eps c c' x w he _ ih =>
    have ih := ih hs hx
    cases he with
    | @step _ t h1 ht h2 =>
      cases t with
      | eps t =>
        simp [Atn.lexEpsTarget] at h2; subst h2
        cases ih with | cons h3 h4 => exact .cons (.eps ht h3) h4
      | action a t =>
        have hc : c'.state = t ∧ c'.ctx = c.ctx := by
          simp only [Atn.lexEpsTarget] at h2
          split at h2 <;> (cases h2; exact ⟨rfl, rfl⟩)
        rw [hc.1, hc.2] at ih
        cases ih with | cons h3 h4 => exact .cons (.action ht h3) h4
      | rule b i e =>
        simp [Atn.lexEpsTarget] at h2; subst h2
        cases ih with
        | cons h3 h4 =>
          cases h4 with
          | cons h5 h6 =>
            rw [← List.append_assoc]
            exact .cons (.rule ht h3 h5) h6
      | _ => simp [Atn.lexEpsTarget] at h2
    | @pop r ctx h1 h2 =>
      rw [h2]
      exact .cons (u := []) (.stop h1) ih
  | @char c c' x k w h _ ih =>
    have ih := ih hs hx
    obtain ⟨t, ht, s, h1, rfl⟩ := h
    cases ih with
    | @cons _ _ u v acts h3 h4 =>
      refine .cons (u := k :: u) (acts := acts) ?_ h4
      rcases charTarget_iff.1 h1 with rfl | ⟨l, rfl, h2⟩ | ⟨l, rfl, h2, h5⟩
      · exact .atom ht h3
      · exact .set ht h2 h3
      · exact .notSet ht h2 h5 h3

theorem notStop_of_mem (hA : A.StopsEnd) {s : Nat} {t : Trans} (h : t ∈ A.out s) : A.isStop s = false := by
  cases hc : A.isStop s with
  | false => rfl
  | true => rw [hA _ hc] at h; cases h

theorem LexWalk.run (hA : A.StopsEnd) {s : Nat} {w : PyStr} {acts : List Nat} (h : LexWalk A s w acts) :
    ∀ (alt : Nat) (ctx a0 : List Nat), ∃ x a, A.isStop x = true ∧
      LRun A { state := s, alt := alt, ctx := ctx, acts := a0 } w { state := x, alt := alt, ctx := ctx, acts := a } := by
  induction h with
  | @stop s h => intro alt ctx a0; exact ⟨s, a0, h, .refl⟩
  | eps h _ ih =>
    intro alt ctx a0
    obtain ⟨x, a, h1, h2⟩ := ih alt ctx a0
    exact ⟨x, a, h1, .eps (.step (notStop_of_mem hA h) h rfl) h2⟩
  | @atom s t c w acts h _ ih =>
    intro alt ctx a0
    obtain ⟨x, a, h1, h2⟩ := ih alt ctx a0
    exact ⟨x, a, h1, .char ⟨_, h, _, charTarget_iff.2 (.inl rfl), rfl⟩ h2⟩
  | @set s t c l w acts h h' _ ih =>
    intro alt ctx a0
    obtain ⟨x, a, h1, h2⟩ := ih alt ctx a0
    exact ⟨x, a, h1, .char ⟨_, h, _, charTarget_iff.2 (.inr (.inl ⟨l, rfl, h'⟩)), rfl⟩ h2⟩
  | @notSet s t c l w acts h h' h'' _ ih =>
    intro alt ctx a0
    obtain ⟨x, a, h1, h2⟩ := ih alt ctx a0
    exact ⟨x, a, h1, .char ⟨_, h, _, charTarget_iff.2 (.inr (.inr ⟨l, rfl, h', h''⟩)), rfl⟩ h2⟩
  | @rule s b i e u w acts acts' h _ _ ih ih' =>
    intro alt ctx a0
    obtain ⟨x, a, h1, h2⟩ := ih alt (e :: ctx) a0
    obtain ⟨y, a', h3, h4⟩ := ih' alt ctx a
    refine ⟨y, a', h3, .eps (.step (notStop_of_mem hA h) h rfl) (h2.trans (.eps (.pop h1 rfl) h4))⟩
  | @action s a t w acts h _ ih =>
    intro alt ctx a0
    obtain ⟨x, a', h1, h2⟩ := ih alt ctx (if ctx.isEmpty then a0 ++ [a] else a0)
    refine ⟨x, a', h1, .eps (.step (notStop_of_mem hA h) h ?_) h2⟩
    simp only [Atn.lexEpsTarget]
    split <;> rfl

theorem StackWalk.run (hA : A.StopsEnd) {l : List Nat} {w : PyStr} (h : StackWalk A l w) :
    ∀ (s : Nat) (ctx : List Nat), l = s :: ctx → ∀ (alt : Nat) (a0 : List Nat), ∃ x a, A.isStop x = true ∧
      LRun A { state := s, alt := alt, ctx := ctx, acts := a0 } w { state := x, alt := alt, ctx := [], acts := a } := by
  induction h with
  | nil => intro s ctx h; cases h
  | @cons s l u v acts h1 h2 ih =>
    intro s' ctx he alt a0
    cases he
    obtain ⟨x, a, h3, h4⟩ := h1.run hA alt l a0
    cases l with
    | nil =>
      cases h2
      rw [List.append_nil]
      exact ⟨x, a, h3, h4⟩
    | cons r l =>
      obtain ⟨y, a', h5, h6⟩ := ih r l rfl alt a
      exact ⟨y, a', h5, h4.trans (.eps (.pop h3 rfl) h6)⟩

theorem LRun.alt {c x : LConf} {w : PyStr} (h : LRun A c w x) : x.alt = c.alt := by
  induction h with
  | refl => rfl
  | eps he _ ih =>
    rw [ih]
    cases he with
    | step _ _ h => exact lexEpsTarget_alt h
    | pop => rfl
  | char hc _ ih => rw [ih]; obtain ⟨_, _, _, _, rfl⟩ := hc; rfl

/-- A stop configuration of alternative `i` is kept after exactly the texts the alternative accepts. -/
theorem accepts_after (hA : A.StopsEnd) {i : Nat} {w : PyStr} :
    A.LexAccepts i w ↔ ∃ x, LAfter A w x ∧ A.isStop x.state = true ∧ x.alt = i + 1 := by
  constructor
  · rintro ⟨s, acts, h1, h2⟩
    obtain ⟨x, a, h3, h4⟩ := h2.run hA (i + 1) [] []
    exact ⟨_, ⟨i, s, h1, h4, .inl ⟨h3, rfl⟩⟩, h3, rfl⟩
  · rintro ⟨x, ⟨j, s, h1, h2, h3⟩, h4, h5⟩
    have := h2.alt
    rw [h5] at this
    have hj : j = i := by simp only [lconf0] at this; omega
    subst hj
    have hx : x.ctx = [] := by
      rcases h3 with h3 | h3
      · exact h3.2
      · rw [h4] at h3; cases h3.1
    have := h2.stack h4 hx
    simp only [lconf0] at this
    cases this with
    | cons h6 h7 =>
      cases h7
      rw [List.append_nil]
      exact ⟨s, _, h1, h6⟩

end

end Fcsql
