/-
The runtime's lexer simulator finds the longest match of the first rule, and fails where the text cannot go on.
-/
import Verif.Proofs.LexerSimTab

set_option autoImplicit false
set_option linter.unusedSimpArgs false

namespace Fcsql

/-- `cs` is the set of configurations after the text `u`. -/
structure IsSet (u : PyStr) (cs : List LConf) : Prop where
  mem : ∀ x, x ∈ cs ↔ LAfter lexerAtn u x
  upto : ∃ a, Upto a cs

theorem isSet_start {n : Nat} (hn : 28 ≤ n) : ∃ cs, lexerAtn.lexStart n 0 = some cs ∧ IsSet [] cs := by
  have h : (lexerAtn.lexStart n 0).isSome = true := by
    unfold Atn.lexStart
    refine foldlM_isSome _ ?_ _
    rintro ⟨t, i⟩ hti b
    rw [List.mem_zipIdx_iff_getElem?] at hti
    have := List.all_eq_true.1 lexStart_ok _ (List.mem_of_getElem? hti)
    cases t with
    | eps s => exact lexClosure_some hn (c := lconf0 i s) b (confOk_start (lexAlt_iff.2 hti))
    | _ => cases this
  obtain ⟨cs, h⟩ := Option.isSome_iff_exists.1 h
  refine ⟨cs, h, mem_lexStart lexerAtn_modes ?_ h, upto_lexStart h⟩
  intro t ht
  have := List.all_eq_true.1 lexStart_ok _ ht
  cases t with
  | eps s => exact ⟨s, rfl⟩
  | _ => cases this

theorem IsSet.step {n : Nat} (hn : 28 ≤ n) {u : PyStr} {cs : List LConf} (h : IsSet u cs) (k : Nat) :
    ∃ cs', lexerAtn.lexReach n cs (k : Int) = some cs' ∧ IsSet (u ++ [k]) cs' := by
  have hk : (((k : Int)) == -1) = false := by
    rw [beq_eq_false_iff_ne]; omega
  have hs : (lexerAtn.lexReach n cs (k : Int)).isSome = true := by
    unfold Atn.lexReach
    rw [hk]
    refine foldlM_isSome _ ?_ _
    intro c hc b
    refine foldlM_isSome _ ?_ _
    intro t ht b
    split
    · rfl
    · rename_i s hs
      obtain ⟨i, s0, _, _, h3⟩ := ((h.mem c).1 hc).ok
      exact lexClosure_some hn b (h3.char ⟨t, ht, s, hs, rfl⟩)
  obtain ⟨cs', h'⟩ := Option.isSome_iff_exists.1 hs
  obtain ⟨a, ha⟩ := h.upto
  refine ⟨cs', h', fun x => ?_, a, upto_lexReach h' ha⟩
  rw [mem_lexReach h' x, LAfter.snoc lexerAtn_stops]
  simp only [h.mem]

theorem charTarget_eof {s : Nat} {t : Trans} (h0 : s ≠ 0) (hs : s < 238) (ht : t ∈ lexerAtn.out s) : Atn.charTarget (-1) t = none := by
  have := lexTransOk_of h0 hs ht
  cases t with
  | atom k t =>
    simp only [lexTransOk, Bool.and_eq_true, decide_eq_true_eq] at this
    simp only [Atn.charTarget]
    rw [if_neg]
    have := this.2
    omega
  | set l t =>
    simp only [lexTransOk, Bool.and_eq_true, List.all_eq_true, decide_eq_true_eq] at this
    simp only [Atn.charTarget]
    rw [if_neg]
    simp only [List.any_eq_true, Bool.and_eq_true, decide_eq_true_eq, not_exists, not_and]
    intro p hp h1
    have := this.2 p hp
    omega
  | notSet l t =>
    simp only [Atn.charTarget]
    rw [if_neg]
    simp
  | _ => rfl

/-- Nothing is reached over the end of the text. -/
theorem IsSet.eof {n : Nat} {u : PyStr} {cs : List LConf} (h : IsSet u cs) : lexerAtn.lexReach n cs (-1) = some [] := by
  unfold Atn.lexReach
  have : ∀ l : List LConf, (∀ c ∈ l, c.state ≠ 0 ∧ c.state < 238) → l.foldlM (fun reach c =>
      (lexerAtn.out c.state).foldlM (fun reach t =>
        match Atn.charTarget (-1) t with
        | none => some reach
        | some t' => lexerAtn.lexClosure ((-1 : Int) == -1) n { c with state := t' } reach) reach) [] = some ([] : List LConf) := by
    intro l
    induction l with
    | nil => intro _; rfl
    | cons c l ih =>
      intro hl
      rw [List.foldlM_cons]
      have : ∀ ts : List Trans, (∀ t ∈ ts, Atn.charTarget (-1) t = none) → ts.foldlM (fun reach t =>
          match Atn.charTarget (-1) t with
          | none => some reach
          | some t' => lexerAtn.lexClosure ((-1 : Int) == -1) n { c with state := t' } reach) [] = some ([] : List LConf) := by
        intro ts
        induction ts with
        | nil => intro _; rfl
        | cons t ts ih' =>
          intro ht
          rw [List.foldlM_cons, ht t (by simp)]
          exact ih' fun t h => ht t (by simp [h])
      have hc := hl c (by simp)
      rw [this _ fun t ht => charTarget_eof hc.1 hc.2 ht]
      exact ih fun d hd => hl d (by simp [hd])
  refine this cs fun c hc => ?_
  obtain ⟨i, s0, _, _, h3⟩ := ((h.mem c).1 hc).ok
  exact ⟨h3.stack.1, h3.stack.2.1⟩

theorem IsSet.ne_nil {u : PyStr} {cs : List LConf} (h : IsSet u cs) : cs ≠ [] ↔ ∃ x, LAfter lexerAtn u x := by
  cases cs with
  | nil => simp [← h.mem]
  | cons c cs => simp only [ne_eq, reduceCtorEq, not_false_eq_true, true_iff]; exact ⟨c, (h.mem c).1 (by simp)⟩

/-- The configuration of the first alternative that accepts the text. -/
structure FirstAt (u : PyStr) (c : LConf) : Prop where
  alt : ∃ i s, lexerAtn.LexAlt i s ∧ lexerAtn.LexAccepts i u ∧ (∀ j, j < i → ¬ lexerAtn.LexAccepts j u) ∧
    lexerAtn.ruleOf c.state = lexerAtn.ruleOf s
  acts : c.acts = lexActsAt c.state
  stop : lexerAtn.isStop c.state = true
  range : c.state < 238

theorem IsSet.firstStop_some {u : PyStr} {cs : List LConf} {c : LConf} (h : IsSet u cs) (hc : lexerAtn.firstStop cs = some c) :
    FirstAt u c := by
  unfold Atn.firstStop at hc
  obtain ⟨hs, as, bs, he, has⟩ := List.find?_eq_some_iff_append.1 hc
  have hmem : c ∈ cs := by rw [he]; simp
  have hca := (h.mem c).1 hmem
  obtain ⟨i, s, h1, h2, h3⟩ := hca.ok
  have hctx : c.ctx = [] := by
    obtain ⟨_, _, _, _, hk⟩ := hca
    rcases hk with hk | hk
    · exact hk.2
    · rw [hs] at hk; cases hk.1
  refine ⟨⟨i, s, h1, (accepts_after lexerAtn_stops).2 ⟨c, hca, hs, h2⟩, ?_, ?_⟩, ?_, hs, h3.stack.2.1⟩
  · intro j hj hacc
    obtain ⟨x, hx1, hx2, hx3⟩ := (accepts_after lexerAtn_stops).1 hacc
    have hx := (h.mem x).2 hx1
    obtain ⟨a, hp, _⟩ := h.upto
    rw [he] at hx hp
    simp only [List.mem_append, List.mem_cons] at hx
    rcases hx with hx | rfl | hx
    · have := has x hx
      rw [hx2] at this
      cases this
    · omega
    · have := (List.pairwise_cons.1 (List.pairwise_append.1 hp).2.1).1 x hx
      omega
  · have := h3.rule
    rwa [hctx] at this
  · have := h3.acts
    rwa [hctx] at this

theorem IsSet.firstStop_none {u : PyStr} {cs : List LConf} (h : IsSet u cs) (hc : lexerAtn.firstStop cs = none) (j : Nat) :
    ¬ lexerAtn.LexAccepts j u := by
  intro hacc
  obtain ⟨x, hx1, hx2, hx3⟩ := (accepts_after lexerAtn_stops).1 hacc
  unfold Atn.firstStop at hc
  have := List.find?_eq_none.1 hc x ((h.mem x).2 hx1)
  exact this hx2

/-! ### Positions -/

/-- The position after a text. -/
def posAfter (p : LexPos) (w : PyStr) : LexPos :=
  { index := p.index + w.length, line := p.line + w.count 10, column := advanceColumn p.column w }

theorem posAfter_nil (p : LexPos) : posAfter p [] = p := by simp [posAfter, advanceColumn]

theorem posAfter_append (p : LexPos) (u v : PyStr) : posAfter p (u ++ v) = posAfter (posAfter p u) v := by
  simp [posAfter, advanceColumn, List.foldl_append, Nat.add_assoc]

theorem inputLA_some {q : PyStr} {i k : Nat} (h : q[i]? = some k) : inputLA q i = (k : Int) := by
  unfold inputLA; rw [h]

theorem inputLA_none {q : PyStr} {i : Nat} : inputLA q i = -1 ↔ q.length ≤ i := by
  unfold inputLA
  split
  · rename_i c h
    have := (List.getElem?_eq_some_iff.1 h).1
    constructor
    · intro h; omega
    · intro h; omega
  · rename_i h
    exact ⟨fun _ => List.getElem?_eq_none_iff.1 h, fun _ => rfl⟩

theorem consume_posAfter {q : PyStr} {p : LexPos} {u : PyStr} {k : Nat} (h : q[p.index + u.length]? = some k) :
    (posAfter p u).consume q = posAfter p (u ++ [k]) := by
  rw [posAfter_append]
  generalize hp : posAfter p u = p'
  have h' : q[p'.index]? = some k := by rw [← hp]; exact h
  unfold LexPos.consume
  rw [inputLA_some h']
  by_cases hk : k = 10
  · subst hk
    simp [posAfter, advanceColumn]
  · rw [if_neg (by omega)]
    simp [posAfter, advanceColumn, hk, List.count_cons]

/-! ### The loop -/

/-- `prev` is the longest match so far. -/
def BestAt (p : LexPos) (u : PyStr) : Option SimState → Prop
  | none => ∀ w, w <+: u → ∀ j, ¬ lexerAtn.LexAccepts j w
  | some st => ∃ w, w <+: u ∧ st.pos = posAfter p w ∧ FirstAt w st.conf ∧
      ∀ w', w' <+: u → w.length < w'.length → ∀ j, ¬ lexerAtn.LexAccepts j w'

theorem prefix_snoc {w u : PyStr} {k : Nat} (h : w <+: u ++ [k]) : w = u ++ [k] ∨ w <+: u := by
  by_cases hl : w.length ≤ u.length
  · exact .inr (List.prefix_of_prefix_length_le h (List.prefix_append _ _) hl)
  · refine .inl (h.eq_of_length ?_)
    have := h.length_le
    simp at this ⊢
    omega

theorem BestAt.step {p : LexPos} {u : PyStr} {k : Nat} {prev : Option SimState} {cs : List LConf} (h : BestAt p u prev)
    (hcs : IsSet (u ++ [k]) cs) : BestAt p (u ++ [k]) (capture lexerAtn (posAfter p (u ++ [k])) cs prev) := by
  unfold capture
  cases hf : lexerAtn.firstStop cs with
  | some c =>
    refine ⟨u ++ [k], List.prefix_rfl, rfl, hcs.firstStop_some hf, ?_⟩
    intro w' hw hl
    have := hw.length_le
    omega
  | none =>
    have hno := hcs.firstStop_none hf
    cases prev with
    | none =>
      intro w hw j
      rcases prefix_snoc hw with rfl | hw
      · exact hno j
      · exact h w hw j
    | some st =>
      obtain ⟨w, h1, h2, h3, h4⟩ := h
      refine ⟨w, h1.trans (List.prefix_append _ _), h2, h3, ?_⟩
      intro w' hw' hl j
      rcases prefix_snoc hw' with rfl | hw'
      · exact hno j
      · exact h4 w' hw' hl j

/-- How the loop ends. -/
theorem lexExec_spec {m : Nat} (hm : 28 ≤ m) (q : PyStr) (p : LexPos) (n : Nat) :
    ∀ (u : PyStr) (cs : List LConf) (prev : Option SimState), u <+: q.drop p.index → q.length < p.index + u.length + n →
      p.index ≤ q.length → IsSet u cs → cs ≠ [] → BestAt p u prev →
      ∃ prev' u', lexExec lexerAtn m q n cs prev (posAfter p u) = some (prev', posAfter p u') ∧ u <+: u' ∧ u' <+: q.drop p.index ∧
        BestAt p u' prev' ∧ (∃ x, LAfter lexerAtn u' x) ∧
        (u' = q.drop p.index ∨ ∃ k, u' ++ [k] <+: q.drop p.index ∧ ∀ v j, ¬ lexerAtn.LexAccepts j (u' ++ [k] ++ v)) := by
  induction n with
  | zero =>
    intro u cs prev hu hn hp
    have := hu.length_le
    rw [List.length_drop] at this
    omega
  | succ n ih =>
    intro u cs prev hu hn hp hcs hne hb
    have hx := hcs.ne_nil.1 hne
    have hi : (posAfter p u).index = p.index + u.length := rfl
    unfold lexExec
    rw [hi]
    cases hq : q[p.index + u.length]? with
    | none =>
      have hl := List.getElem?_eq_none_iff.1 hq
      rw [inputLA_none.2 hl, hcs.eof]
      refine ⟨prev, u, rfl, List.prefix_rfl, hu, hb, hx, .inl ?_⟩
      refine hu.eq_of_length ?_
      have := hu.length_le
      rw [List.length_drop] at *
      omega
    | some k =>
      rw [inputLA_some hq]
      obtain ⟨cs', h1, h2⟩ := hcs.step hm k
      have huk : u ++ [k] <+: q.drop p.index := by
        obtain ⟨t, ht⟩ := hu
        have hk : (q.drop p.index)[u.length]? = some k := by rw [List.getElem?_drop]; exact hq
        rw [← ht, List.getElem?_append_right (Nat.le_refl _), Nat.sub_self] at hk
        cases t with
        | nil => cases hk
        | cons a t =>
          simp at hk
          subst hk
          exact ⟨t, by rw [← ht]; simp⟩
      rw [h1]
      cases cs' with
      | nil =>
        refine ⟨prev, u, rfl, List.prefix_rfl, hu, hb, hx, .inr ⟨k, huk, ?_⟩⟩
        intro v j hacc
        obtain ⟨x, hx⟩ := viable_after hacc
        have := (h2.mem x).2 hx
        cases this
      | cons c cs' =>
        have hk1 : ¬ ((k : Int) = -1) := by omega
        have hk2 : decide ((k : Int) = -1) = false := by simp
        simp only [hk2, Bool.and_false, if_neg hk1, Bool.false_eq_true, if_false]
        rw [consume_posAfter hq]
        obtain ⟨prev', u', h3, h4, h5, h6⟩ := ih (u ++ [k]) (c :: cs') _ huk (by simp; omega) hp h2 (by simp) (hb.step h2)
        exact ⟨prev', u', h3, (List.prefix_append u [k]).trans h4, h5, h6⟩

/-! ### Matches -/

theorem not_accepts_nil (j : Nat) : ¬ lexerAtn.LexAccepts j [] := by
  intro h
  obtain ⟨hi, hm⟩ := lexAccepts_iff.1 h
  have : ∀ p ∈ lexRules, p.2.nullable = false := by decide +kernel
  have := this _ (List.getElem_mem hi)
  rw [(nullable_iff _).2 hm] at this
  cases this

set_option maxRecDepth 10000 in
theorem lexStop_acts : (List.range 238).all (fun x => !lexerAtn.isStop x ||
    (lexActsAt x == if lexerAtn.tokenType x == some 25 then [0] else [])) = true := by decide +kernel

theorem tokenType_ruleOf {s : Nat} (hs : s < 238) : lexerAtn.tokenType s =
    (lexerAtn.rules[(lexerAtn.ruleOf s).toNat]?).map (·.2) := by
  rw [← lexerAtn_length] at hs
  unfold Atn.tokenType Atn.ruleOf
  rw [List.getElem?_eq_getElem hs]
  simp only
  cases lexerAtn.rules[(lexerAtn.states[s]).rule.toNat]? <;> rfl

/-- The accepting configuration says what the longest match is. -/
theorem FirstAt.longest {text w : PyStr} {c : LConf} (h : FirstAt w c) (hw : w <+: text)
    (hl : ∀ w', w' <+: text → w.length < w'.length → ∀ j, ¬ lexerAtn.LexAccepts j w') :
    ∃ t, LongestMatch text t w ∧ t ≠ .EOF ∧ lexerAtn.predictionOf c = t.num ∧
      lexerAtn.execActs c.acts = if t = .Space then some lexSkip else none := by
  obtain ⟨⟨i, s, h1, h2, h3, h4⟩, h5, h6, h7⟩ := h
  obtain ⟨s', acts, h1', h8⟩ := h2
  obtain rfl : s = s' := by
    rw [lexAlt_iff] at h1 h1'
    rw [h1] at h1'
    cases h1'
    rfl
  have hne : w ≠ [] := by
    rintro rfl
    exact not_accepts_nil i ⟨s, acts, h1, h8⟩
  obtain ⟨t, k1, k2, k3, _⟩ := netMatch_longest ⟨hne, hw, ⟨i, h1, h8, h3⟩, hl⟩
  have hs238 : s < 238 := (confOk_start h1).stack.2.1
  have htc : lexerAtn.tokenType c.state = some t.num.toNat := by
    rw [tokenType_ruleOf h7, h4, ← tokenType_ruleOf hs238]
    exact k3
  have hnum : (t.num.toNat : Int) = t.num := by
    have : 0 ≤ t.num := by cases t <;> first | decide | exact absurd rfl k2
    omega
  refine ⟨t, k1, k2, ?_, ?_⟩
  · rw [tokenType_ruleOf h7, Option.map_eq_some_iff] at htc
    obtain ⟨p, hp, hp2⟩ := htc
    unfold Atn.predictionOf
    rw [hp]
    simp only
    rw [hp2, hnum]
  · have := List.all_eq_true.1 lexStop_acts c.state (List.mem_range.2 h7)
    rw [h6, htc] at this
    simp only [Bool.not_true, Bool.false_or, beq_iff_eq] at this
    rw [h5, this]
    by_cases ht : t = .Space
    · subst ht; decide +kernel
    · have hn : t.num.toNat ≠ 25 := by
        intro h
        exact ht (num_toNat_inj k2 (by decide) h)
      rw [if_neg (by simpa using hn), if_neg ht]
      rfl

/-- **`LexerATNSimulator.match` on a text that is not used up.** -/
theorem lexMatch_spec {m : Nat} (q : PyStr) (p : LexPos) (hm : 28 ≤ m) (hp : p.index < q.length) :
    (∃ t w, LongestMatch (q.drop p.index) t w ∧ t ≠ .EOF ∧
      lexMatch lexerAtn m q p = some (.accepted t.num (if t = .Space then some lexSkip else none) (posAfter p w))) ∨
    (∃ u, ErrorSpan (q.drop p.index) ((q.drop p.index).take (u.length + 1)) ∧ u <+: q.drop p.index ∧
      lexMatch lexerAtn m q p = some (.failed (posAfter p u))) := by
  obtain ⟨s0, h1, h2⟩ := isSet_start hm
  have hf : lexerAtn.firstStop s0 = none := by
    cases hf : lexerAtn.firstStop s0 with
    | none => rfl
    | some c =>
      obtain ⟨⟨i, s, _, hacc, _⟩, _⟩ := h2.firstStop_some hf
      exact absurd hacc (not_accepts_nil i)
  have hne : s0 ≠ [] := by
    have hA : lexerAtn.LexAccepts 0 [40] :=
      lexAccepts_iff.2 ⟨by decide +kernel, .cls (by decide +kernel)⟩
    exact h2.ne_nil.2 (viable_after (u := []) hA)
  obtain ⟨prev', u', h3, h4, h5, h6, ⟨x, hx⟩, h7⟩ := lexExec_spec hm q p (q.length + 1) [] s0 none (by simp) (by simp; omega) (by omega) h2 hne
    (by intro w hw j; rw [List.prefix_nil.1 hw]; exact not_accepts_nil j)
  rw [posAfter_nil] at h3
  have hbeyond : ∀ w', w' <+: q.drop p.index → u'.length < w'.length → ∀ j, ¬ lexerAtn.LexAccepts j w' := by
    intro w' hw' hl j hacc
    rcases h7 with h7 | ⟨k, hk, hno⟩
    · have := hw'.length_le
      rw [← h7] at this
      omega
    · obtain ⟨v, rfl⟩ := List.prefix_of_prefix_length_le hk hw' (by simp; omega)
      exact hno v j hacc
  have hmatch : lexMatch lexerAtn m q p = match (some (prev', posAfter p u') : Option (Option SimState × LexPos)) with
      | none => none
      | some (some st, _) => some (.accepted (lexerAtn.predictionOf st.conf) (lexerAtn.execActs st.conf.acts) st.pos)
      | some (none, e) =>
        if inputLA q e.index = -1 && e.index == p.index then some (.accepted (-1) none e) else some (.failed e) := by
    unfold lexMatch
    rw [lexerAtn_modes]
    simp only [h1]
    have hc : capture lexerAtn p s0 none = none := by unfold capture; rw [hf]
    rw [hc, h3]
    cases prev' <;> rfl
  rw [hmatch]
  cases prev' with
  | some st =>
    left
    obtain ⟨w, k1, k2, k3, k4⟩ := h6
    obtain ⟨t, l1, l2, l3, l4⟩ := k3.longest (k1.trans h5) (by
      intro w' hw' hl j
      by_cases hlt : u'.length < w'.length
      · exact hbeyond w' hw' hlt j
      · exact k4 w' (List.prefix_of_prefix_length_le hw' h5 (by omega)) hl j)
    exact ⟨t, w, l1, l2, by simp only [l3, l4, k2]⟩
  | none =>
    right
    refine ⟨u', errorSpan_net.2 ⟨?_, ?_, List.take_prefix _ _, ?_, ?_⟩, h5, ?_⟩
    · intro w' hw' _ j
      by_cases hlt : u'.length < w'.length
      · exact hbeyond w' hw' hlt j
      · exact h6 w' (List.prefix_of_prefix_length_le hw' h5 (by omega)) j
    · intro h
      have := congrArg List.length h
      rw [List.length_take, List.length_drop] at this
      simp at this
      omega
    · intro w' hw' hne
      have hlen : w'.length ≤ u'.length := by
        have h1 := hw'.length_le
        rw [List.length_take] at h1
        rcases Nat.lt_or_ge u'.length w'.length with hc | hc
        · refine absurd (hw'.eq_of_length ?_) hne
          rw [List.length_take]
          omega
        · exact hc
      have hpre : w' <+: u' := List.prefix_of_prefix_length_le (hw'.trans (List.take_prefix _ _)) h5 hlen
      obtain ⟨v, hv⟩ := hpre
      obtain ⟨v', j, hacc⟩ := hx.viable
      refine ⟨v ++ v', j, ?_⟩
      rw [← List.append_assoc, hv]
      exact hacc
    · rcases h7 with h7 | ⟨k, hk, hno⟩
      · left
        refine List.take_of_length_le ?_
        rw [← h7]
        omega
      · right
        have : (q.drop p.index).take (u'.length + 1) = u' ++ [k] := by
          have := take_of_prefix hk
          rwa [List.length_append] at this
        rw [this]
        exact hno
    · simp only
      rw [if_neg]
      simp only [Bool.and_eq_true, decide_eq_true_eq, beq_iff_eq, not_and]
      intro h h'
      rw [inputLA_none] at h
      omega

end Fcsql
