/-
How often children of a kind occur in derivation trees; the events of a walk.
-/
import Verif.Spec.Contexts

set_option autoImplicit false
set_option linter.unusedSimpArgs false

namespace Fcsql

/-! ### Counting -/

/-- At least this many children satisfying `p` in what `g` derives. -/
def G.lo (p : Sym → Bool) : G → Nat
  | .eps => 0
  | .tok t => if p (.tok t) then 1 else 0
  | .rule r => if p (.rule r) then 1 else 0
  | .seq a b => a.lo p + b.lo p
  | .alt a b => min (a.lo p) (b.lo p)
  | .star _ => 0

/-- At most this many (`none`: unbounded). -/
def G.hi (p : Sym → Bool) : G → Option Nat
  | .eps => some 0
  | .tok t => some (if p (.tok t) then 1 else 0)
  | .rule r => some (if p (.rule r) then 1 else 0)
  | .seq a b => match a.hi p, b.hi p with
    | some x, some y => some (x + y)
    | _, _ => none
  | .alt a b => match a.hi p, b.hi p with
    | some x, some y => some (max x y)
    | _, _ => none
  | .star a => if a.hi p = some 0 then some 0 else none

/-- How many children satisfy `p`. -/
def countSym (p : Sym → Bool) (ks : List PTree) : Nat := ks.countP fun c => p c.sym

theorem fits_lo (p : Sym → Bool) {g : G} {f : List PTree} (h : Fits g f) : g.lo p ≤ countSym p f := by
  induction h with
  | eps => exact Nat.zero_le _
  | tok h => subst h; simp [G.lo, countSym, PTree.sym, List.countP_cons]
  | rule h _ => simp [G.lo, countSym, PTree.sym, List.countP_cons]
  | seq _ _ h1 h2 => simp only [G.lo, countSym, List.countP_append] at *; omega
  | altL _ h => simp only [G.lo] at *; omega
  | altR _ h => simp only [G.lo] at *; omega
  | starNil => exact Nat.zero_le _
  | starCons => exact Nat.zero_le _

theorem fits_hi (p : Sym → Bool) {g : G} {f : List PTree} (h : Fits g f) : ∀ n, g.hi p = some n → countSym p f ≤ n := by
  induction h with
  | eps => intro n _; exact Nat.zero_le _
  | tok h => subst h; intro n hn; simp [G.hi, countSym, PTree.sym, List.countP_cons] at *; omega
  | rule h _ => intro n hn; simp [G.hi, countSym, PTree.sym, List.countP_cons] at *; omega
  | @seq a b f f' _ _ h1 h2 =>
    intro n hn
    simp only [G.hi] at hn
    split at hn
    · rename_i x y hx hy
      have e1 := h1 x hx
      have e2 := h2 y hy
      simp only [Option.some.injEq] at hn
      simp only [countSym, List.countP_append] at *
      omega
    · cases hn
  | altL _ h =>
    intro n hn
    simp only [G.hi] at hn
    split at hn
    · rename_i x y hx hy
      have := h x hx
      simp only [Option.some.injEq] at hn
      omega
    · cases hn
  | altR _ h =>
    intro n hn
    simp only [G.hi] at hn
    split at hn
    · rename_i x y hx hy
      have := h y hy
      simp only [Option.some.injEq] at hn
      omega
    · cases hn
  | starNil => intro n _; exact Nat.zero_le _
  | starCons _ _ h1 h2 =>
    intro n hn
    have h3 := h2 n hn
    simp only [G.hi] at hn
    split at hn
    · rename_i h0
      have e1 := h1 0 h0
      simp only [countSym, List.countP_append] at *
      omega
    · cases hn

/-- The children of every rule node of a derivation tree are as the rule says. -/
theorem fits_nodes {g : G} {f : List PTree} (h : Fits g f) :
    ∀ r ks, PTree.node r ks ∈ PTree.nodesL f → Fits (body r) ks := by
  have happ : ∀ a b : List PTree, PTree.nodesL (a ++ b) = PTree.nodesL a ++ PTree.nodesL b := by
    intro a b
    induction a with
    | nil => rfl
    | cons c a ih => rw [List.cons_append, PTree.nodesL, PTree.nodesL, ih, List.append_assoc]
  induction h with
  | eps => intro r ks h; simp [PTree.nodesL] at h
  | tok _ => intro r ks h; simp [PTree.nodesL, PTree.nodes] at h
  | rule hf ih =>
    intro r ks h
    simp only [PTree.nodesL, PTree.nodes, List.append_nil, List.mem_cons] at h
    rcases h with h | h
    · cases h; exact hf
    · exact ih r ks h
  | seq _ _ h1 h2 =>
    intro r ks h
    rw [happ, List.mem_append] at h
    exact h.elim (h1 r ks) (h2 r ks)
  | altL _ ih => exact ih
  | altR _ ih => exact ih
  | starNil => intro r ks h; simp [PTree.nodesL] at h
  | starCons _ _ h1 h2 =>
    intro r ks h
    rw [happ, List.mem_append] at h
    exact h.elim (h1 r ks) (h2 r ks)

theorem fits_node_of_tree {r0 : Rule} {t : PTree} (h : Fits (.rule r0) [t]) {r : Rule} {ks : List PTree}
    (hm : PTree.node r ks ∈ t.nodes) : Fits (body r) ks :=
  fits_nodes h r ks (by simpa [PTree.nodesL] using hm)

theorem selects_iff (s : Sym) (c : PTree) : s.selects c = true ↔ c.sym = s := by
  cases s <;> cases c <;> simp [Sym.selects, PTree.sym]

theorem filter_selects (s : Sym) (ks : List PTree) : (ks.filter s.selects).length = countSym (fun x => x = s) ks := by
  rw [countSym, List.countP_eq_length_filter]
  congr 1
  apply List.filter_congr
  intro c _
  by_cases h : s.selects c = true
  · rw [h]; have := (selects_iff s c).1 h; simp [this]
  · have h' : ¬ c.sym = s := fun e => h ((selects_iff s c).2 e)
    simp [h', Bool.not_eq_true _ ▸ h]

/-- The accessor loop with an index is indexing into the list of selected children. -/
theorem nthSelected_eq (s : Sym) (ks : List PTree) : ∀ i : Int,
    nthSelected s i ks = if 0 ≤ i then (ks.filter s.selects)[i.toNat]? else none := by
  induction ks with
  | nil => intro i; simp [nthSelected]
  | cons c cs ih =>
    intro i
    rw [nthSelected]
    by_cases h : s.selects c = true
    · rw [if_pos h, List.filter_cons_of_pos h]
      by_cases h0 : i = 0
      · subst h0; simp
      · rw [if_neg h0, ih]
        by_cases h1 : 0 ≤ i
        · have e : i.toNat = (i - 1).toNat + 1 := by omega
          rw [if_pos (by omega), if_pos h1, e, List.getElem?_cons_succ]
        · rw [if_neg (by omega), if_neg h1]
    · rw [if_neg h, List.filter_cons_of_neg h, ih]

/-! ### Walking -/

theorem callAll_append {σ ε : Type} (l : Listener σ ε) (a b : List Event) (s : σ) :
    callAll l (a ++ b) s = match callAll l a s with
      | (.ok _, s) => callAll l b s
      | (.error x, s) => (.error x, s) := by
  induction a generalizing s with
  | nil => rfl
  | cons e a ih =>
    simp only [List.cons_append, callAll]
    rcases e.call l s with ⟨r, s'⟩
    cases r with
    | error x => rfl
    | ok _ => exact ih s'

theorem callAll_single {σ ε : Type} (l : Listener σ ε) (e : Event) (s : σ) : callAll l [e] s = e.call l s := by
  simp only [callAll]
  rcases e.call l s with ⟨r, s'⟩
  cases r <;> rfl

theorem walk_events {σ ε : Type} (l : Listener σ ε)
    (hcls : ∀ r, (ctxClass r).enter = py!"enter" ++ capitalized r.text ∧ (ctxClass r).exit = py!"exit" ++ capitalized r.text)
    (t : PTree) : ∀ s, walkTree ctxClass l t s = callAll l t.events s := by
  apply PTree.rec (motive_1 := fun t => ∀ s, walkTree ctxClass l t s = callAll l t.events s)
    (motive_2 := fun ts => ∀ s, walkTrees ctxClass l ts s = callAll l (PTree.eventsL ts) s)
  · intro x s
    rw [walkTree, PTree.events, callAll_single]; rfl
  · intro r ks ih s
    have h1 : ∀ s, l.hook (ctxClass r).enter (.node r ks) s = Event.call l (.enter r ks) s := by
      intro s; rw [(hcls r).1]; rfl
    have h2 : ∀ s, l.hook (ctxClass r).exit (.node r ks) s = Event.call l (.exit r ks) s := by
      intro s; rw [(hcls r).2]; rfl
    have h0 : ∀ s, l.enterEveryRule (.node r ks) s = Event.call l (.enterEvery r ks) s := fun s => rfl
    have h3 : ∀ s, l.exitEveryRule (.node r ks) s = Event.call l (.exitEvery r ks) s := fun s => rfl
    rw [walkTree, PTree.events]
    simp only [LAct.andThen, callAll, h0, h1, h2, h3, ih]
    rcases Event.call l (.enterEvery r ks) s with ⟨x, s1⟩
    cases x with
    | error e => rfl
    | ok _ =>
      simp only
      rcases Event.call l (.enter r ks) s1 with ⟨x, s2⟩
      cases x with
      | error e => rfl
      | ok _ =>
        simp only
        rw [callAll_append]
        rcases callAll l (PTree.eventsL ks) s2 with ⟨x, s3⟩
        cases x with
        | error e => rfl
        | ok _ =>
          simp only [callAll]
          rcases Event.call l (.exit r ks) s3 with ⟨x, s4⟩
          cases x with
          | error e => rfl
          | ok _ =>
            simp only
            rcases Event.call l (.exitEvery r ks) s4 with ⟨x, s5⟩
            cases x <;> rfl
  · intro s; rfl
  · intro c cs ih1 ih2 s
    rw [walkTrees, PTree.eventsL, callAll_append]
    simp only [LAct.andThen, ih1]
    rcases callAll l c.events s with ⟨x, s1⟩
    cases x with
    | error e => rfl
    | ok _ => exact ih2 s1

end Fcsql
