/-
When the modelled prediction gives up, some alternative can read everything before the token it complains about; and an
alternative it chooses can go on with the next token, or end the rule.
-/
import Verif.Proofs.AdaptivePredict
import Verif.Spec.FirstError

set_option autoImplicit false
set_option linter.unusedSimpArgs false

namespace Fcsql

section
variable {A : Atn} {T : NetTab}

/-! ### Merging and `reachesIntoOuterContext` -/

theorem foldl_max_le (l : List AConfig) : ∀ m : Nat, m ≤ l.foldl (fun m d => max m d.outer) m ∧ ∀ d ∈ l, d.outer ≤ l.foldl (fun m d => max m d.outer) m := by
  induction l with
  | nil => intro m; simp
  | cons c l ih =>
    intro m
    simp only [List.foldl_cons]
    have := ih (max m c.outer)
    refine ⟨by omega, fun d hd => ?_⟩
    rcases List.mem_cons.1 hd with rfl | hd
    · omega
    · exact this.2 d hd

theorem foldl_max_mem (l : List AConfig) : ∀ m : Nat, l.foldl (fun m d => max m d.outer) m = m ∨ ∃ d ∈ l, d.outer = l.foldl (fun m d => max m d.outer) m := by
  induction l with
  | nil => intro m; simp
  | cons c l ih =>
    intro m
    simp only [List.foldl_cons]
    rcases ih (max m c.outer) with h | ⟨d, hd, h⟩
    · rw [h]
      rcases Nat.le_total m c.outer with h' | h'
      · exact .inr ⟨c, by simp, by omega⟩
      · exact .inl (by omega)
    · exact .inr ⟨d, by simp [hd], h⟩

theorem mem_add_le (full : Bool) (S : AConfigSet) (c d : AConfig) (h : d ∈ AConfigSet.add full S c) :
    ((∃ o, o ≤ d.outer ∧ { d with outer := o } ∈ S) ∨ ∃ o, c.outer ≤ o ∧ d = { c with outer := o }) ∧
      (d.outer = c.outer ∧ d.alt = c.alt ∨ ∃ e ∈ S, e.outer = d.outer ∧ e.alt = d.alt) := by
  simp only [AConfigSet.add] at h
  obtain ⟨hle1, hle2⟩ := foldl_max_le (S.filter (AConfigSet.sameKey c)) c.outer
  have hmem := foldl_max_mem (S.filter (AConfigSet.sameKey c)) c.outer
  generalize List.foldl _ _ _ = o at h hle1 hle2 hmem
  have hkey : ∀ e, AConfigSet.sameKey c e = true → e.alt = c.alt := by
    intro e he
    simp only [AConfigSet.sameKey, Bool.and_eq_true, beq_iff_eq] at he
    exact he.2
  have ho : o = c.outer ∨ ∃ e ∈ S, e.outer = o ∧ e.alt = c.alt := by
    rcases hmem with h | ⟨e, he, h⟩
    · exact .inl h
    · exact .inr ⟨e, (List.mem_filter.1 he).1, h, hkey e (List.mem_filter.1 he).2⟩
  have hS' : d ∈ S.map (fun d => if AConfigSet.sameKey c d then { d with outer := o } else d) →
      (∃ o, o ≤ d.outer ∧ { d with outer := o } ∈ S) ∧ (d.outer = c.outer ∧ d.alt = c.alt ∨ ∃ e ∈ S, e.outer = d.outer ∧ e.alt = d.alt) := by
    intro hd
    obtain ⟨e, he, rfl⟩ := List.mem_map.1 hd
    split
    · rename_i hk
      refine ⟨⟨e.outer, hle2 e (List.mem_filter.2 ⟨he, hk⟩), he⟩, ?_⟩
      rcases ho with ho | ⟨e', he', h1, h2⟩
      · exact .inl ⟨ho, hkey e hk⟩
      · exact .inr ⟨e', he', h1, h2.trans (hkey e hk).symm⟩
    · exact ⟨⟨e.outer, Nat.le_refl _, he⟩, .inr ⟨e, he, rfl, rfl⟩⟩
  split at h
  · exact ⟨.inl (hS' h).1, (hS' h).2⟩
  · rcases List.mem_append.1 h with h | h
    · have := hS' (List.mem_filter.1 h).1
      exact ⟨.inl this.1, this.2⟩
    · cases List.mem_singleton.1 h
      refine ⟨.inr ⟨o, hle1, rfl⟩, ?_⟩
      rcases ho with ho | ⟨e', he', h1, h2⟩
      · exact .inl ⟨ho, rfl⟩
      · exact .inr ⟨e', he', h1, h2⟩

theorem mem_foldl_add_le (full : Bool) (l : List AConfig) : ∀ (S : AConfigSet) (d : AConfig), d ∈ l.foldl (AConfigSet.add full) S →
    (∃ o, o ≤ d.outer ∧ ({ d with outer := o } ∈ S ∨ { d with outer := o } ∈ l)) ∧
      ((∃ e ∈ S, e.outer = d.outer ∧ e.alt = d.alt) ∨ ∃ e ∈ l, e.outer = d.outer ∧ e.alt = d.alt) := by
  induction l with
  | nil => exact fun S d h => ⟨⟨d.outer, Nat.le_refl _, .inl h⟩, .inl ⟨d, h, rfl, rfl⟩⟩
  | cons c l ih =>
    intro S d h
    obtain ⟨⟨o, ho, h1⟩, h2⟩ := ih _ d h
    constructor
    · rcases h1 with h1 | h1
      · rcases (mem_add_le full S c _ h1).1 with ⟨o', ho', h3⟩ | ⟨o', ho', h3⟩
        · exact ⟨o', Nat.le_trans ho' ho, .inl h3⟩
        · have e : { d with outer := c.outer } = c := by
            obtain ⟨_, _, _, _⟩ := c
            obtain ⟨_, _, _, _⟩ := d
            simp only [AConfig.mk.injEq] at h3 ⊢
            exact ⟨h3.1, h3.2.1, h3.2.2.1, trivial⟩
          have ho2 : o = o' := congrArg AConfig.outer h3
          exact ⟨c.outer, by omega, .inr (by rw [e]; simp)⟩
      · exact ⟨o, ho, .inr (by simp [h1])⟩
    · rcases h2 with ⟨e, he, h2, h2'⟩ | ⟨e, he, h2, h2'⟩
      · rcases (mem_add_le full S c _ he).2 with ⟨h3, h3'⟩ | ⟨e', he', h3, h3'⟩
        · exact .inr ⟨c, by simp, h3.symm.trans h2, h3'.symm.trans h2'⟩
        · exact .inl ⟨e', he', h3.trans h2, h3'.trans h2'⟩
      · exact .inr ⟨e, by simp [he], h2, h2'⟩

theorem mem_ofList_le (full : Bool) (l : List AConfig) (d : AConfig) (h : d ∈ AConfigSet.ofList full l) :
    (∃ o, o ≤ d.outer ∧ { d with outer := o } ∈ l) ∧ ∃ e ∈ l, e.outer = d.outer ∧ e.alt = d.alt := by
  obtain ⟨⟨o, h1, h2⟩, h3⟩ := mem_foldl_add_le full l [] d h
  refine ⟨⟨o, h1, h2.resolve_left (by simp)⟩, h3.resolve_left (by simp)⟩

/-! ### Configurations from which an end can be reached -/

def NearCfg (near : List Nat) (c : AConfig) : Prop := nearOf near c.state < 1000 ∧ ∀ r ∈ c.stack, nearOf near r < 1000

theorem followLinks_rule {s t : Nat} (h : t ∈ A.followLinks s) : ∃ st start i, .rule start i t ∈ A.out st := by
  unfold Atn.followLinks at h
  rw [List.mem_flatMap] at h
  obtain ⟨st, hst, ht⟩ := h
  rw [List.mem_filterMap] at ht
  obtain ⟨e, he, het⟩ := ht
  obtain ⟨n, hn, rfl⟩ := List.getElem_of_mem hst
  have hm : e ∈ A.out n := by simp [Atn.out, List.getElem?_eq_getElem hn, he]
  cases e with
  | rule start i f =>
    simp only at het
    split at het
    · cases het; exact ⟨n, start, i, hm⟩
    · cases het
  | _ => cases het

variable {near : List Nat}

theorem closure_near (hT : T.ok A = true) (hN : nearOk A near = true) (hl : near.length = A.states.length) (full eof : Bool) :
    ∀ (n : Nat) (busy : List Nat) (c f : AConfig), f ∈ A.closure full eof n busy c → NearCfg near c → NearCfg near f := by
  intro n
  induction n with
  | zero => intro busy c f h; cases h
  | succ n ih =>
    intro busy c f h hc
    simp only [Atn.closure] at h
    split at h
    · split at h
      · rename_i r stk hstk
        refine ih _ _ _ h ⟨hc.2 r (by rw [hstk]; simp), fun r' h' => hc.2 r' (by rw [hstk]; simp [h'])⟩
      · split at h
        · cases List.mem_singleton.1 h; exact hc
        · rcases List.mem_append.1 h with h | h
          · split at h
            · cases List.mem_singleton.1 h; exact hc
            · cases h
          · obtain ⟨t, ht, h⟩ := List.mem_flatMap.1 h
            split at h
            · cases h
            · obtain ⟨st, start, i, he⟩ := followLinks_rule ht
              have := targets_near hN hl he
              simp only [targetsNear, Bool.and_eq_true, decide_eq_true_eq] at this
              exact ih _ _ _ h ⟨this.2, hc.2⟩
    · rcases List.mem_append.1 h with h | h
      · split at h
        · cases h
        · cases List.mem_singleton.1 h; exact hc
      · obtain ⟨t, ht, h⟩ := List.mem_flatMap.1 h
        split at h
        · rename_i c' hc'
          have htn := targets_near hN hl ht
          have hother : ∀ t' : Nat, nearOf near t' < 1000 → c' = { c with state := t' } → NearCfg near f := by
            rintro t' ht' rfl
            exact ih _ _ _ h ⟨ht', hc.2⟩
          cases t with
          | eps t => cases hc'; exact hother t (by simpa [targetsNear] using htn) rfl
          | rule start i f' =>
            cases hc'
            simp only [targetsNear, Bool.and_eq_true, decide_eq_true_eq] at htn
            refine ih _ _ _ h ⟨htn.1, fun r hr => ?_⟩
            rcases List.mem_cons.1 hr with rfl | hr
            · exact htn.2
            · exact hc.2 r hr
          | action a b => exact (edge_action hT ht).elim
          | notSet a b => exact (edge_notSet hT ht).elim
          | atom a b =>
            simp only [Atn.epsilonTarget] at hc'
            split at hc'
            · obtain ⟨t', h1, h2⟩ := Option.map_eq_some_iff.1 hc'
              simp only [Atn.matchesTok] at h1
              split at h1
              · cases h1; exact hother _ (by simpa [targetsNear] using htn) h2.symm
              · cases h1
            · cases hc'
          | set a b =>
            simp only [Atn.epsilonTarget] at hc'
            split at hc'
            · obtain ⟨t', h1, h2⟩ := Option.map_eq_some_iff.1 hc'
              simp only [Atn.matchesTok] at h1
              split at h1
              · cases h1; exact hother _ (by simpa [targetsNear] using htn) h2.symm
              · cases h1
            · cases hc'
        · cases h

def NearSet (near : List Nat) (S : AConfigSet) : Prop := ∀ c ∈ S, NearCfg near c

theorem NearSet.ofList (full : Bool) {l : List AConfig} (h : NearSet near l) : NearSet near (AConfigSet.ofList full l) := by
  intro c hc
  obtain ⟨o, ho⟩ := mem_ofList full l c hc
  have := h _ ho; exact this

theorem NearSet.close (hT : T.ok A = true) (hN : nearOk A near = true) (hl : near.length = A.states.length) (full eof : Bool) {l : List AConfig}
    (h : NearSet near l) : NearSet near (AConfigSet.ofList full (l.flatMap (A.closureOf full eof))) := by
  refine NearSet.ofList full fun c hc => ?_
  obtain ⟨c0, h0, hc⟩ := List.mem_flatMap.1 hc
  exact closure_near hT hN hl full eof _ _ _ _ hc (h _ h0)

theorem NearSet.consumed (hT : T.ok A = true) (hN : nearOk A near = true) (hl : near.length = A.states.length) (full : Bool) {S : AConfigSet}
    (h : NearSet near S) (k : Int) : NearSet near (A.consumed full S k) := by
  refine NearSet.ofList full fun c hc => ?_
  obtain ⟨c0, h0, hc⟩ := List.mem_flatMap.1 hc
  obtain ⟨t, hto, ht⟩ := List.mem_filterMap.1 hc
  obtain ⟨t', htm, rfl⟩ := Option.map_eq_some_iff.1 ht
  have hn := h _ (List.mem_filter.1 h0).1
  refine ⟨?_, hn.2⟩
  have := targets_near hN hl hto
  rcases (matches_target hT hto htm).2.2.2.2 with ⟨l, rfl, -⟩ | rfl <;> simpa [targetsNear] using this

theorem NearSet.reach (hT : T.ok A = true) (hN : nearOk A near = true) (hl : near.length = A.states.length) (full : Bool) {S : AConfigSet}
    (h : NearSet near S) (k : Int) : NearSet near (A.reachSet full S k) := by
  have h1 := h.consumed hT hN hl full k
  simp only [Atn.reachSet]
  split
  · exact h1
  · have h2 := h1.close hT hN hl full (decide (k = -1))
    generalize AConfigSet.ofList full ((A.consumed full S k).flatMap (A.closureOf full (decide (k = -1)))) = R at h2
    have h3 : NearSet near (if k = -1 then R.filter fun c => A.isStop c.state else R) := by
      split
      · exact fun c hc => h2 c (List.mem_filter.1 hc).1
      · exact h2
    generalize (if k = -1 then R.filter fun c => A.isStop c.state else R) = R' at h3
    split
    · intro c hc
      obtain ⟨o, hc | hc⟩ := mem_foldl_add full _ _ _ hc
      · have := h3 _ hc; exact this
      · have := h _ (List.mem_filter.1 hc).1; exact this
    · exact h3

theorem returnStates_near (hN : nearOk A near = true) (hl : near.length = A.states.length) (ctx : List Nat) : ∀ r ∈ A.returnStates ctx, nearOf near r < 1000 := by
  intro r hr
  obtain ⟨st, -, h⟩ := List.mem_filterMap.1 hr
  split at h
  · rename_i ho
    cases h
    have := targets_near hN hl (List.mem_of_getElem? (i := 0) (by rw [ho]; rfl))
    simp only [targetsNear, Bool.and_eq_true, decide_eq_true_eq] at this
    exact this.2
  · cases h

theorem start_near (hT : T.ok A = true) (hN : nearOk A near = true) (hl : near.length = A.states.length) (full : Bool) (d : Nat) {stk : List Nat}
    (hk : ∀ r ∈ stk, nearOf near r < 1000) : NearSet near (A.startConfigs full d stk) := by
  simp only [Atn.startConfigs]
  split
  · intro c hc; cases hc
  · rename_i s hd
    refine NearSet.close hT hN hl full false fun c hc => ?_
    obtain ⟨k, t, h1, rfl⟩ := (mem_altConfigs _ _ _).1 hc
    have := targets_near hN hl (List.mem_of_getElem? h1)
    exact ⟨by simpa [targetsNear] using this, hk⟩

/-! ### With context: giving up -/

theorem llLoop_none (hT : T.ok A = true) (hN : nearOk A near = true) (hl : near.length = A.states.length) {s : Nat} {stk : List Nat} :
    ∀ (look u : List Tok) (S : AConfigSet), EndsEof look → Sound A T s stk S u → NearSet near S → S ≠ [] → A.llLoop S look = none →
      ∃ j vs, AltRun A s stk j (u ++ look.take (A.llStop S look) ++ vs) := by
  intro look
  induction look with
  | nil => rintro u S ⟨us, e, h, -⟩; cases us <;> cases h
  | cons x xs ih =>
    intro u S hE hS hnear hne h
    have hx := endsEof_cons hE
    simp only [Atn.llLoop, Atn.llStop] at h ⊢
    split
    · obtain ⟨c, hc⟩ := List.exists_mem_of_ne_nil _ hne
      obtain ⟨h1, h2⟩ := hnear c hc
      obtain ⟨vs, hv⟩ := near_run hN c.stack c.state h1 h2
      exact ⟨c.alt, vs, by simpa using (hS c hc).2.2.2 vs hv⟩
    · rename_i hre
      rw [if_neg hre] at h
      split at h
      · cases h
      · rename_i hu
        split at h
        · cases h
        · rename_i hres
          have hre' : A.reachSet true S x.type.num ≠ [] := by simpa using hre
          rcases hx with ⟨hx, rfl⟩ | ⟨hx, hE'⟩
          · obtain ⟨m, hm'⟩ := eof_resolves (fun c hc => ⟨(reach_sound_eof hT hS hx c hc).1, (reach_sound_eof hT hS hx c hc).2.1⟩) hre'
            rw [hres] at hm'; cases hm'
          · have := ih (u ++ [x]) _ hE' (reach_sound hT hS hx hu) (hnear.reach hT hN hl true _) hre' h
            simpa using this

/-! ### Without context: giving up -/

theorem closure_outer (full eof : Bool) : ∀ (n : Nat) (busy : List Nat) (c f : AConfig), f ∈ A.closure full eof n busy c →
    c.outer ≤ f.outer ∧ (full = true → f.outer = c.outer) := by
  intro n
  induction n with
  | zero => intro busy c f h; cases h
  | succ n ih =>
    intro busy c f h
    simp only [Atn.closure] at h
    split at h
    · split at h
      · have := ih _ _ _ h; exact this
      · split at h
        · cases List.mem_singleton.1 h; exact ⟨Nat.le_refl _, fun _ => rfl⟩
        · rename_i hf
          rcases List.mem_append.1 h with h | h
          · split at h
            · cases List.mem_singleton.1 h; exact ⟨Nat.le_refl _, fun _ => rfl⟩
            · cases h
          · obtain ⟨t, ht, h⟩ := List.mem_flatMap.1 h
            split at h
            · cases h
            · have := (ih _ _ _ h).1
              simp only at this
              exact ⟨by omega, fun hf' => absurd hf' hf⟩
    · rcases List.mem_append.1 h with h | h
      · split at h
        · cases h
        · cases List.mem_singleton.1 h; exact ⟨Nat.le_refl _, fun _ => rfl⟩
      · obtain ⟨t, ht, h⟩ := List.mem_flatMap.1 h
        split at h
        · rename_i c' hc'
          have ho : c'.outer = c.outer := by
            cases t with
            | eps t => cases hc'; rfl
            | action a b => cases hc'; rfl
            | rule a b e => cases hc'; rfl
            | atom a b =>
              simp only [Atn.epsilonTarget] at hc'
              split at hc'
              · obtain ⟨t', -, rfl⟩ := Option.map_eq_some_iff.1 hc'; rfl
              · cases hc'
            | set a b =>
              simp only [Atn.epsilonTarget] at hc'
              split at hc'
              · obtain ⟨t', -, rfl⟩ := Option.map_eq_some_iff.1 hc'; rfl
              · cases hc'
            | notSet a b =>
              simp only [Atn.epsilonTarget] at hc'
              split at hc'
              · obtain ⟨t', -, rfl⟩ := Option.map_eq_some_iff.1 hc'; rfl
              · cases hc'
          have := ih _ _ _ h
          rw [ho] at this
          exact this
        · cases h

/-- Without context, as long as the rule of the decision was not left, what is found is true in every context; if it was, the
rule can be left without a token. -/
theorem closure_soundL (hT : T.ok A = true) : ∀ (n : Nat) (busy : List Nat) (c f : AConfig), f ∈ A.closure false false n busy c →
    (f.outer = c.outer → ∀ stk ts, Run A f.state (f.stack ++ stk) ts → Run A c.state (c.stack ++ stk) ts) ∧
      (f.outer ≠ c.outer → Run A c.state c.stack []) := by
  intro n
  induction n with
  | zero => intro busy c f h; cases h
  | succ n ih =>
    intro busy c f h
    simp only [Atn.closure] at h
    split at h
    · rename_i hst
      split at h
      · rename_i r stk hstk
        obtain ⟨h1, h2⟩ := ih _ _ _ h
        rw [hstk]
        exact ⟨fun ho stk' ts hts => .ret hst (h1 ho stk' ts hts), fun ho => .ret hst (h2 ho)⟩
      · rename_i hstk
        rw [if_neg (by simp)] at h
        rcases List.mem_append.1 h with h | h
        · split at h
          · cases List.mem_singleton.1 h; exact ⟨fun _ _ _ h => h, fun ho => absurd rfl ho⟩
          · cases h
        · obtain ⟨t, ht, h⟩ := List.mem_flatMap.1 h
          split at h
          · cases h
          · have := (closure_outer false false _ _ _ _ h).1
            simp only at this
            refine ⟨fun ho => by omega, fun _ => ?_⟩
            rw [hstk]
            exact .done hst
    · rcases List.mem_append.1 h with h | h
      · split at h
        · cases h
        · cases List.mem_singleton.1 h; exact ⟨fun _ _ _ h => h, fun ho => absurd rfl ho⟩
      · obtain ⟨t, ht, h⟩ := List.mem_flatMap.1 h
        split at h
        · rename_i c' hc'
          cases t with
          | eps t =>
            cases hc'
            obtain ⟨h1, h2⟩ := ih _ _ _ h
            exact ⟨fun ho stk ts hts => .eps ht (h1 ho stk ts hts), fun ho => .eps ht (h2 ho)⟩
          | rule start i f' =>
            cases hc'
            obtain ⟨h1, h2⟩ := ih _ _ _ h
            exact ⟨fun ho stk ts hts => .call ht (h1 ho stk ts hts), fun ho => .call ht (h2 ho)⟩
          | action a b => exact (edge_action hT ht).elim
          | atom a b => simp [Atn.epsilonTarget] at hc'
          | set a b => simp [Atn.epsilonTarget] at hc'
          | notSet a b => simp [Atn.epsilonTarget] at hc'
        · cases h

/-- What a set computed without context after the tokens `u` says of the rule of the decision is true in every context. -/
def SoundL (A : Atn) (s : Nat) (S : AConfigSet) (u : List Tok) : Prop :=
  ∀ c ∈ S, c.outer = 0 → ∀ stk vs, Run A c.state (c.stack ++ stk) vs → AltRun A s stk c.alt (u ++ vs)

theorem start_soundL (hT : T.ok A = true) {d s : Nat} (hd : A.decisions[d]? = some s) : SoundL A s (A.startConfigs false d []) [] := by
  simp only [Atn.startConfigs, hd]
  intro c hc h0 stk vs hvs
  obtain ⟨o, ho, hm⟩ := (mem_ofList_le false _ _ hc).1
  obtain ⟨c0, hc0, hcl⟩ := List.mem_flatMap.1 hm
  obtain ⟨k, t, h1, rfl⟩ := (mem_altConfigs _ _ _).1 hc0
  have halt : c.alt = 1 + k := closure_alt _ _ _ _ _ _ hcl
  refine ⟨t, by omega, ?_, (closure_soundL hT _ _ _ _ hcl).1 (by simp only; omega) stk vs hvs⟩
  rw [halt, Nat.add_sub_cancel_left]
  exact h1

theorem consumed_soundL (hT : T.ok A = true) {s : Nat} {S : AConfigSet} {u : List Tok} (h : SoundL A s S u) (x : Tok) :
    SoundL A s (A.consumed false S x.type.num) (u ++ [x]) := by
  intro c hc h0 stk vs hvs
  obtain ⟨o, ho, hm⟩ := (mem_ofList_le false _ _ hc).1
  obtain ⟨c0, hc0, hcl⟩ := List.mem_flatMap.1 hm
  obtain ⟨e, he, hm⟩ := List.mem_filterMap.1 hcl
  obtain ⟨t, ht, heq⟩ := Option.map_eq_some_iff.1 hm
  obtain ⟨m1, m2, m3, m4, m5⟩ := matches_target hT he ht
  simp only [AConfig.mk.injEq] at heq
  obtain ⟨rfl, e2, e3, e4⟩ := heq
  have := h c0 (List.mem_filter.1 hc0).1 (by omega)
  rw [← e3] at hvs
  rw [List.append_assoc, ← e2]
  refine this stk _ ?_
  rcases m5 with ⟨l, rfl, hl⟩ | rfl
  · exact .set he hl hvs
  · exact .atom he hvs

theorem reach_soundL (hT : T.ok A = true) {s : Nat} {S : AConfigSet} {u : List Tok} (h : SoundL A s S u) {x : Tok}
    (hx : x.type.num ≠ -1) : SoundL A s (A.reachSet false S x.type.num) (u ++ [x]) := by
  have hcon := consumed_soundL hT h x
  have hsk : (S.filter fun c => A.isStop c.state && (false || decide (x.type.num = -1))) = [] := by
    rw [List.filter_eq_nil_iff]; intro c _; simp [hx]
  simp only [Atn.reachSet, hsk]
  split
  · exact hcon
  · intro c hc h0 stk vs hvs
    simp only [List.foldl_nil, hx, if_false, decide_false, ite_self] at hc
    obtain ⟨o, ho, hm⟩ := (mem_ofList_le false _ _ hc).1
    obtain ⟨c0, hc0, hcl⟩ := List.mem_flatMap.1 hm
    have hle := (closure_outer false false _ _ _ _ hcl).1
    simp only at hle
    have halt := closure_alt _ _ _ _ _ _ hcl
    change c.alt = c0.alt at halt
    rw [halt]
    exact hcon c0 hc0 (by omega) stk vs ((closure_soundL hT _ _ _ _ hcl).1 (by simp only; omega) stk vs hvs)

theorem finishedAlt_none {S : AConfigSet} (h : A.finishedAlt S = none) : ∀ c ∈ S, c.outer = 0 := by
  simp only [Atn.finishedAlt] at h
  split at h
  · rename_i hnil
    intro c hc
    rw [List.map_eq_nil_iff, List.filter_eq_nil_iff] at hnil
    have := hnil c hc
    simp only [Bool.or_eq_true, decide_eq_true_eq, not_or] at this
    omega
  · cases h

theorem walk_none (hT : T.ok A = true) (hN : nearOk A near = true) (hl : near.length = A.states.length) {d s : Nat} {ctx : List Nat} {ts : List Tok}
    (hfull : A.simulator.fullContext d ctx ts = none →
      ∃ j vs, AltRun A s (A.returnStates ctx) j (ts.take (A.llStop (A.startConfigs true d (A.returnStates ctx)) ts) ++ vs)) :
    ∀ (look u : List Tok) (S : AConfigSet), ts = u ++ look → look = [] ∨ EndsEof look → (look ≠ [] → SoundL A s S u) → NearSet near S → S ≠ [] →
      A.simulator.walk d ctx ts look S = none →
      ∃ j vs, AltRun A s (A.returnStates ctx) j (ts.take (A.sllStop d ctx ts look S u.length) ++ vs) := by
  intro look
  induction look with
  | nil => intro u S _ _ _ _ _ h; exact hfull h
  | cons x xs ih =>
    intro u S hts hE hS hnear hne h
    have hS := hS (by simp)
    rw [Simulator.walk] at h
    change (match A.sllVerdict (A.reachSet false S x.type.num) with | .alt i => _ | .fail => _ | .full => _ | .more => _) = _ at h
    rw [Atn.sllStop]
    cases hv : A.sllVerdict (A.reachSet false S x.type.num) with
    | alt k => rw [hv] at h; cases h
    | fail =>
      rw [hv] at h
      obtain ⟨c, hc⟩ := List.exists_mem_of_ne_nil _ hne
      obtain ⟨h1, h2⟩ := hnear c hc
      obtain ⟨vs, hvs⟩ := near_run hN (c.stack ++ A.returnStates ctx) c.state h1 (fun r hr => by
        rcases List.mem_append.1 hr with hr | hr
        · exact h2 r hr
        · exact returnStates_near hN hl ctx r hr)
      refine ⟨c.alt, vs, ?_⟩
      have := hS c hc (finishedAlt_none h c hc) _ vs hvs
      rw [hts]
      simpa using this
    | full => rw [hv] at h; exact hfull h
    | more =>
      rw [hv] at h
      have hne' : A.reachSet false S x.type.num ≠ [] := by
        intro h'
        rw [h'] at hv
        simp [Atn.sllVerdict] at hv
      have := ih (u ++ [x]) _ (by rw [hts]; simp) ((endsEof_cons (hE.resolve_left (by simp))).elim (fun h => .inl h.2) (fun h => .inr h.2))
        (fun hxs => by
          rcases endsEof_cons (hE.resolve_left (by simp)) with h' | h'
          · exact absurd h'.2 hxs
          · exact reach_soundL hT hS h'.1) (hnear.reach hT hN hl false _) hne' h
      simpa using this

theorem altRun_viable (hT : T.ok A = true) {d s : Nat} {ctx : List Nat} (hd : A.decisions[d]? = some s) (hc : Calls A (A.ruleOf s) ctx) {j : Nat} {w : List Tok}
    (h : AltRun A s (A.returnStates ctx) j w) : ViableAlt A d ctx w j := by
  obtain ⟨t, h1, h2, h3⟩ := h
  exact ⟨s, t, hd, h1, h2, acceptsR_accepts (run_acceptsR hT h3) ctx rfl (calls_follow hc)⟩

/-- When prediction fails, some alternative can read what is before the offending token. -/
theorem predict_none (hT : T.ok A = true) (hr0 : ∀ s, s < A.states.length → A.ruleOf s ≠ -1) (hN : nearOk A near = true) (hl : near.length = A.states.length)
    {d s : Nat} {ctx : List Nat} {ts : List Tok} (hd : A.decisions[d]? = some s) (hc : Calls A (A.ruleOf s) ctx) (hE : EndsEof ts)
    (hre : ∃ j, Reaches A d ctx [] j) (h : A.simulator.predictor.predict d ctx ts = none) : ∃ j, Reaches A d ctx (ts.take (A.offending d ctx ts)) j := by
  obtain ⟨j, ws, hv⟩ := hre
  rw [List.nil_append] at hv
  have hne : ∀ {full : Bool} {stk : List Nat}, Stands full stk (A.returnStates ctx) → A.startConfigs full d stk ≠ [] := by
    intro full stk hs h'
    obtain ⟨c, hc', -⟩ := start_finds hT hr0 full hd hc hs hv
    rw [h'] at hc'; cases hc'
  obtain ⟨j, vs, hj⟩ := walk_none hT hN hl (d := d) (s := s) (ctx := ctx) (ts := ts) (fun hf => by
      have := llLoop_none hT hN hl ts [] _ hE (start_sound hT hd hc) (start_near hT hN hl true d (returnStates_near hN hl ctx)) (hne (Stands.refl _ _)) hf
      simpa using this) ts [] _ rfl (.inr hE) (fun _ => start_soundL hT hd) (start_near hT hN hl false d (by simp))
      (hne ⟨List.nil_prefix, fun h => (by cases h)⟩) h
  exact ⟨j, vs, altRun_viable hT hd hc hj⟩

/-! ### Alternatives that are chosen -/

theorem AltsIn.of_reach {p : Nat → Prop} (full : Bool) {S : AConfigSet} (k : Int)
    (h1 : ∀ c ∈ S, ∀ e ∈ A.out c.state, ∀ t, A.matchesTok k e = some t → p c.alt) (h2 : ∀ c ∈ S, A.isStop c.state = true → p c.alt) :
    AltsIn p (A.reachSet full S k) := by
  have h1 : AltsIn p (A.consumed full S k) := by
    refine AltsIn.ofList full fun c hc => ?_
    obtain ⟨c0, h0, hc⟩ := List.mem_flatMap.1 hc
    obtain ⟨t, hto, ht⟩ := List.mem_filterMap.1 hc
    obtain ⟨t', htm, rfl⟩ := Option.map_eq_some_iff.1 ht
    exact h1 c0 (List.mem_filter.1 h0).1 t hto t' htm
  simp only [Atn.reachSet]
  split
  · exact h1
  · have h2' := h1.close (A := A) full (decide (k = -1))
    generalize AConfigSet.ofList full ((A.consumed full S k).flatMap (A.closureOf full (decide (k = -1)))) = R at h2'
    have h3 : AltsIn p (if k = -1 then R.filter fun c => A.isStop c.state else R) := by
      split
      · exact fun c hc => h2' c (List.mem_filter.1 hc).1
      · exact h2'
    generalize (if k = -1 then R.filter fun c => A.isStop c.state else R) = R' at h3
    split
    · intro c hc
      obtain ⟨o, ho | ho⟩ := mem_foldl_add full _ _ _ hc
      · have := h3 _ ho; exact this
      · obtain ⟨ho, hst⟩ := List.mem_filter.1 ho
        have := h2 _ ho (by simp only [Bool.and_eq_true] at hst; exact hst.1)
        exact this
    · exact h3

theorem verdict_in {p : Nat → Prop} {S : AConfigSet} (h : AltsIn p S) {k : Nat} (hv : A.sllVerdict S = .alt k) : p k := by
  simp only [Atn.sllVerdict] at hv
  split at hv
  · cases hv
  · split at hv
    · rename_i hu
      cases hv
      obtain ⟨c, hc, rfl⟩ := (uniqueAlt_some hu).2
      exact h c hc
    · split at hv <;> cases hv

theorem resolves_in {p : Nat → Prop} {S : AConfigSet} (h : AltsIn p S) {k : Nat} (hv : AConfigSet.resolves S.conflictingAltSubsets = some k) : p k := by
  obtain ⟨⟨l, hl, hm⟩, -⟩ := resolves_mem hv
  have hne : l ≠ [] := by
    obtain ⟨c0, hc0, he⟩ := List.mem_map.1 hl
    have : c0.alt ∈ l := by
      rw [← he]
      exact List.mem_map.2 ⟨c0, List.mem_filter.2 ⟨hc0, by simp [AConfigSet.sameStacks]⟩, rfl⟩
    rintro rfl; cases this
  have hm' := minAlt_mem l hne
  rw [hm] at hm'
  obtain ⟨d, hd, rfl⟩ := subset_of hl _ hm'
  exact h d hd

theorem closure_stop (full eof : Bool) : ∀ (n : Nat) (busy : List Nat) (c f : AConfig), f ∈ A.closure full eof n busy c → A.isStop f.state = true → f.stack = [] := by
  intro n
  induction n with
  | zero => intro busy c f h; cases h
  | succ n ih =>
    intro busy c f h hs
    simp only [Atn.closure] at h
    split at h
    · split at h
      · exact ih _ _ _ h hs
      · rename_i hstk
        split at h
        · cases List.mem_singleton.1 h; exact hstk
        · rcases List.mem_append.1 h with h | h
          · split at h
            · cases List.mem_singleton.1 h; exact hstk
            · cases h
          · obtain ⟨t, ht, h⟩ := List.mem_flatMap.1 h
            split at h
            · cases h
            · exact ih _ _ _ h hs
    · rename_i hst
      rcases List.mem_append.1 h with h | h
      · split at h
        · cases h
        · cases List.mem_singleton.1 h; exact absurd hs hst
      · obtain ⟨t, ht, h⟩ := List.mem_flatMap.1 h
        split at h
        · exact ih _ _ _ h hs
        · cases h

/-- With context: what is found is found in the rule of the decision, or the rule can be left without a token. -/
theorem closure_fullrel (hT : T.ok A = true) {stk0 : List Nat} : ∀ (n : Nat) (busy : List Nat) (c f : AConfig) (rel : List Nat), f ∈ A.closure true false n busy c →
    c.stack = rel ++ stk0 → (∃ rel', f.stack = rel' ++ stk0 ∧ ∀ ts, Run A f.state rel' ts → Run A c.state rel ts) ∨ Run A c.state rel [] := by
  intro n
  induction n with
  | zero => intro busy c f rel h; cases h
  | succ n ih =>
    intro busy c f rel h hrel
    simp only [Atn.closure] at h
    split at h
    · rename_i hst
      cases rel with
      | nil => exact .inr (.done hst)
      | cons r rel =>
        rw [hrel] at h
        simp only [List.cons_append] at h
        rcases ih _ _ _ rel h rfl with ⟨rel', h1, h2⟩ | h1
        · exact .inl ⟨rel', h1, fun ts hts => .ret hst (h2 ts hts)⟩
        · exact .inr (.ret hst h1)
    · rcases List.mem_append.1 h with h | h
      · split at h
        · cases h
        · cases List.mem_singleton.1 h; exact .inl ⟨rel, hrel, fun _ h => h⟩
      · obtain ⟨t, ht, h⟩ := List.mem_flatMap.1 h
        split at h
        · rename_i c' hc'
          cases t with
          | eps t =>
            cases hc'
            rcases ih _ _ _ rel h hrel with ⟨rel', h1, h2⟩ | h1
            · exact .inl ⟨rel', h1, fun ts hts => .eps ht (h2 ts hts)⟩
            · exact .inr (.eps ht h1)
          | rule start i f' =>
            cases hc'
            rcases ih _ _ _ (f' :: rel) h (by simp [hrel]) with ⟨rel', h1, h2⟩ | h1
            · exact .inl ⟨rel', h1, fun ts hts => .call ht (h2 ts hts)⟩
            · exact .inr (.call ht h1)
          | action a b => exact (edge_action hT ht).elim
          | atom a b => simp [Atn.epsilonTarget] at hc'
          | set a b => simp [Atn.epsilonTarget] at hc'
          | notSet a b => simp [Atn.epsilonTarget] at hc'
        · cases h

theorem run_walk (hT : T.ok A = true) {s : Nat} {ts : List Tok} (h : Run A s [] ts) : ∃ f, Walk A s ts f := by
  cases run_acceptsR hT h with
  | done h => exact ⟨_, h⟩

/-- Alternative `i` can go on with a token of type `k`, or end the rule. -/
def GoesOn (A : Atn) (s : Nat) (k : Int) (i : Nat) : Prop := ∃ t, 1 ≤ i ∧ (A.out s)[i - 1]? = some (.eps t) ∧ Expected A t k

theorem start_origin {full : Bool} {d s : Nat} {stk : List Nat} (_ : A.decisions[d]? = some s) {c : AConfig} {l : List AConfig}
    (hl : l = (Atn.altConfigs stk 1 (A.out s)).flatMap (A.closureOf full false)) (hc : c ∈ l) :
    ∃ t, 1 ≤ c.alt ∧ (A.out s)[c.alt - 1]? = some (.eps t) ∧ ∃ n, c ∈ A.closure full false n [] ⟨t, c.alt, stk, 0⟩ := by
  subst hl
  obtain ⟨c0, hc0, hcl⟩ := List.mem_flatMap.1 hc
  obtain ⟨k, t, h1, rfl⟩ := (mem_altConfigs _ _ _).1 hc0
  have halt : c.alt = 1 + k := closure_alt _ _ _ _ _ _ hcl
  refine ⟨t, by omega, by rw [halt, Nat.add_sub_cancel_left]; exact h1, A.pathBound ⟨t, 1 + k, stk, 0⟩, ?_⟩
  rw [halt]
  exact hcl

/-- What the closure of an alternative finds. -/
theorem closure_goes (hT : T.ok A = true) (hN : nearOk A near = true) (hl : near.length = A.states.length) {full : Bool} {n : Nat} {t alt : Nat} {stk : List Nat}
    (hk : full = false → stk = []) {c : AConfig} (hc : c ∈ A.closure full false n [] ⟨t, alt, stk, 0⟩) (hcn : NearCfg near c) {k : Int} :
    (A.isStop c.state = true → Expected A t k) ∧ (c.outer ≠ 0 → Expected A t k) ∧
      ∀ x : Tok, x.type.num = k → ∀ e ∈ A.out c.state, ∀ t', A.matchesTok k e = some t' → Expected A t k := by
  have hempty : Run A t [] [] → Expected A t k := by
    intro h
    obtain ⟨f, hw⟩ := run_walk hT h
    exact ⟨[], f, hw, fun x xs h => (by cases h)⟩
  have hrel : (∃ rel, (∀ r ∈ rel, r ∈ c.stack) ∧ (c.stack = [] → rel = []) ∧ (∀ ts, Run A c.state rel ts → Run A t [] ts)) ∨ Run A t [] [] := by
    cases full with
    | true =>
      rcases closure_fullrel hT (stk0 := stk) _ _ _ _ [] hc rfl with ⟨rel, h1, h2⟩ | h
      · refine .inl ⟨rel, fun r hr => by rw [h1]; simp [hr], fun h => ?_, h2⟩
        rw [h] at h1
        exact (List.append_eq_nil_iff.1 h1.symm).1
      · exact .inr h
    | false =>
      obtain rfl := hk rfl
      by_cases ho : c.outer = 0
      · refine .inl ⟨c.stack, fun _ h => h, id, fun ts hts => ?_⟩
        have := (closure_soundL hT _ _ _ _ hc).1 ho [] ts (by simpa using hts)
        simpa using this
      · exact .inr ((closure_soundL hT _ _ _ _ hc).2 ho)
  refine ⟨fun hs => ?_, fun ho => ?_, fun x hx e he t' ht' => ?_⟩
  · rcases hrel with ⟨rel, h1, h2, h3⟩ | h
    · have := h2 (closure_stop _ _ _ _ _ _ hc hs)
      subst this
      exact hempty (h3 [] (.done hs))
    · exact hempty h
  · cases full with
    | true => exact absurd ((closure_outer true false _ _ _ _ hc).2 rfl) ho
    | false =>
      obtain rfl := hk rfl
      exact hempty ((closure_soundL hT _ _ _ _ hc).2 ho)
  · rcases hrel with ⟨rel, h1, h2, h3⟩ | h
    · have hm := matches_target hT he ht'
      have htn := targets_near hN hl he
      obtain ⟨vs, hv⟩ : ∃ vs, Run A c.state rel (x :: vs) := by
        rcases hm.2.2.2.2 with ⟨l, rfl, hin⟩ | rfl
        · obtain ⟨vs, hv⟩ := near_run hN rel t' (by simpa [targetsNear] using htn) fun r hr => hcn.2 r (h1 r hr)
          exact ⟨vs, .set he (hx ▸ hin) hv⟩
        · obtain ⟨vs, hv⟩ := near_run hN rel t' (by simpa [targetsNear] using htn) fun r hr => hcn.2 r (h1 r hr)
          exact ⟨vs, .atom (hx ▸ he) hv⟩
      obtain ⟨f, hw⟩ := run_walk hT (h3 _ hv)
      refine ⟨x :: vs, f, hw, fun y ys h => ?_⟩
      cases h
      exact hx
    · exact hempty h

theorem start_goes (hT : T.ok A = true) (hN : nearOk A near = true) (hl : near.length = A.states.length) {full : Bool} {d s : Nat} {stk : List Nat}
    (hd : A.decisions[d]? = some s) (hk : full = false → stk = []) (hkn : ∀ r ∈ stk, nearOf near r < 1000) (x : Tok) :
    AltsIn (GoesOn A s x.type.num) (A.reachSet full (A.startConfigs full d stk) x.type.num) ∧
      ∀ i, A.finishedAlt (A.startConfigs full d stk) = some i → GoesOn A s x.type.num i := by
  have hnear : NearSet near ((Atn.altConfigs stk 1 (A.out s)).flatMap (A.closureOf full false)) := by
    intro c hc
    obtain ⟨c0, h0, hc⟩ := List.mem_flatMap.1 hc
    obtain ⟨k, t, h1, rfl⟩ := (mem_altConfigs _ _ _).1 h0
    have := targets_near hN hl (List.mem_of_getElem? h1)
    exact closure_near hT hN hl full false _ _ _ _ hc ⟨by simpa [targetsNear] using this, hkn⟩
  have hstop : ∀ c ∈ A.startConfigs full d stk, A.isStop c.state = true → GoesOn A s x.type.num c.alt := by
    intro c hc hs
    simp only [Atn.startConfigs, hd] at hc
    obtain ⟨o, ho⟩ := mem_ofList full _ _ hc
    obtain ⟨t, h1, h2, n, h3⟩ := start_origin hd rfl ho
    exact ⟨t, h1, h2, (closure_goes hT hN hl hk h3 (hnear _ ho)).1 hs⟩
  constructor
  · refine AltsIn.of_reach full _ (fun c hc e he t' ht' => ?_) hstop
    simp only [Atn.startConfigs, hd] at hc
    obtain ⟨o, ho⟩ := mem_ofList full _ _ hc
    obtain ⟨t, h1, h2, n, h3⟩ := start_origin hd rfl ho
    exact ⟨t, h1, h2, (closure_goes hT hN hl hk h3 (hnear _ ho)).2.2 x rfl e he t' ht'⟩
  · intro i hi
    simp only [Atn.finishedAlt] at hi
    split at hi
    · cases hi
    · rename_i hne
      cases hi
      have hm := minAlt_mem _ hne
      obtain ⟨c, hc, hci⟩ := List.mem_map.1 hm
      rw [← hci]
      obtain ⟨hc, hcond⟩ := List.mem_filter.1 hc
      simp only [Bool.or_eq_true, decide_eq_true_eq, Bool.and_eq_true] at hcond
      rcases hcond with ho | ⟨hs, -⟩
      · simp only [Atn.startConfigs, hd] at hc
        obtain ⟨e, he, heo, hea⟩ := (mem_ofList_le full _ _ hc).2
        obtain ⟨t, h1, h2, n, h3⟩ := start_origin hd rfl he
        rw [← hea]
        exact ⟨t, h1, h2, (closure_goes hT hN hl hk h3 (hnear _ he)).2.1 (by omega)⟩
      · exact hstop c hc hs

theorem walk_in {p : Nat → Prop} {d : Nat} {ctx : List Nat} {ts : List Tok} {i : Nat} (hfull : A.simulator.fullContext d ctx ts = some i → p i) :
    ∀ (look : List Tok) (S : AConfigSet), AltsIn p S → A.simulator.walk d ctx ts look S = some i → p i := by
  intro look
  induction look with
  | nil => intro S _ h; exact hfull h
  | cons x xs ih =>
    intro S hS h
    rw [Simulator.walk] at h
    change (match A.sllVerdict (A.reachSet false S x.type.num) with | .alt i => _ | .fail => _ | .full => _ | .more => _) = _ at h
    have hr : AltsIn p (A.reachSet false S x.type.num) := AltsIn.reach false hS _
    cases hv : A.sllVerdict (A.reachSet false S x.type.num) with
    | alt k => rw [hv] at h; cases h; exact verdict_in hr hv
    | fail => rw [hv] at h; exact finishedAlt_in hS h
    | full => rw [hv] at h; exact hfull h
    | more => rw [hv] at h; exact ih _ hr h

/-- The alternative chosen can go on with the next token, or end the rule. -/
theorem predict_goes (hT : T.ok A = true) (hN : nearOk A near = true) (hl : near.length = A.states.length)
    {d s : Nat} {ctx : List Nat} {x : Tok} {xs : List Tok} {i : Nat} (hd : A.decisions[d]? = some s)
    (h : A.simulator.predictor.predict d ctx (x :: xs) = some i) : GoesOn A s x.type.num i := by
  obtain ⟨h1, h2⟩ := start_goes hT hN hl (full := false) hd (fun _ => rfl) (by simp) x
  obtain ⟨h3, h4⟩ := start_goes hT hN hl (full := true) (stk := A.returnStates ctx) hd (fun h => (by cases h)) (returnStates_near hN hl ctx) x
  have hfull : A.simulator.fullContext d ctx (x :: xs) = some i → GoesOn A s x.type.num i := by
    intro h
    change A.llLoop _ (x :: xs) = some i at h
    simp only [Atn.llLoop] at h
    split at h
    · exact h4 i h
    · split at h
      · rename_i j hu
        cases h
        obtain ⟨-, c, hc, rfl⟩ := uniqueAlt_some hu
        exact h3 c hc
      · split at h
        · rename_i j hu
          cases h
          exact resolves_in h3 hu
        · exact llLoop_in _ _ h3 i h
  change A.simulator.walk d ctx (x :: xs) (x :: xs) (A.startConfigs false d []) = some i at h
  rw [Simulator.walk] at h
  change (match A.sllVerdict (A.reachSet false (A.startConfigs false d []) x.type.num) with | .alt i => _ | .fail => _ | .full => _ | .more => _) = _ at h
  cases hv : A.sllVerdict (A.reachSet false (A.startConfigs false d []) x.type.num) with
  | alt k => rw [hv] at h; cases h; exact verdict_in h1 hv
  | fail => rw [hv] at h; exact h2 i h
  | full => rw [hv] at h; exact hfull h
  | more => rw [hv] at h; exact walk_in hfull _ _ h1 h

end

end Fcsql
