/-
C58, C60, C61: histories of constructor calls, of operations on several parsers, and of concurrent calls.
-/
import Verif.Spec.History
import Verif.Props.Examples

set_option autoImplicit false
set_option linter.unusedSimpArgs false

namespace Fcsql

attribute [local irreducible] parseQuery

/-! ### C58 -/

theorem heapOf_snoc (calls : List NewCall) (c : NewCall) :
    heapOf (calls ++ [c]) = setParents (heapOf calls).length c.children
      (heapOf calls ++ [{ kind := c.kind, children := c.children, parent := none, loc := c.loc }]) := by
  simp [heapOf, newObj]

theorem heapOf_length (calls : List NewCall) : (heapOf calls).length = calls.length := by
  have : ∀ r : List NewCall, (heapOf r.reverse).length = r.length := by
    intro r
    induction r with
    | nil => rfl
    | cons c r ih => rw [List.reverse_cons, heapOf_snoc]; simp [setParents, ih]
  simpa using this calls.reverse

/-- What the heap is after the calls. -/
def HeapSpec (calls : List NewCall) : Prop :=
  ∀ (i : Nat) (call : NewCall), calls[i]? = some call → ∃ o, (heapOf calls)[i]? = some o ∧ o.kind = call.kind ∧
    o.children = call.children ∧ o.loc = call.loc ∧ ∀ a, o.parent = some a ↔ LastGiven calls i a

theorem heapSpec (calls : List NewCall) (he : Existing calls) : HeapSpec calls := by
  have : ∀ r : List NewCall, Existing r.reverse → HeapSpec r.reverse := by
    intro r
    induction r with
    | nil => intro _ i call h; simp at h
    | cons c r ih =>
      intro he
      rw [List.reverse_cons] at he ⊢
      generalize r.reverse = cs at he ih
      have hlen := heapOf_length cs
      have he' : Existing cs := by
        intro i x hx
        refine he i x ?_
        rw [List.getElem?_append_left (by
          have := (List.getElem?_eq_some_iff.1 hx).1; exact this)]
        exact hx
      have hc : ∀ x ∈ c.children, x < cs.length := he cs.length c (by simp)
      intro i call hi
      have hil : i < cs.length + 1 := by
        have := (List.getElem?_eq_some_iff.1 hi).1; simpa using this
      rw [heapOf_snoc]
      simp only [setParents, List.getElem?_mapIdx, hlen]
      -- which calls give `i` as a child
      have hlast : ∀ a, LastGiven (cs ++ [c]) i a ↔
          (if i ∈ c.children then a = cs.length else LastGiven cs i a) := by
        intro a
        by_cases hm : i ∈ c.children
        · rw [if_pos hm]
          constructor
          · rintro ⟨⟨call', h1, h2⟩, h3⟩
            have h1' := (List.getElem?_eq_some_iff.1 h1).1
            simp only [List.length_append, List.length_singleton] at h1'
            rcases Nat.lt_or_ge a cs.length with h | h
            · exact absurd hm (h3 cs.length c h (by simp))
            · omega
          · rintro rfl
            refine ⟨⟨c, by simp, hm⟩, fun b call' hb h1 => ?_⟩
            have h1' := (List.getElem?_eq_some_iff.1 h1).1
            simp only [List.length_append, List.length_singleton] at h1'
            omega
        · rw [if_neg hm]
          constructor
          · rintro ⟨⟨call', h1, h2⟩, h3⟩
            have h1' := (List.getElem?_eq_some_iff.1 h1).1
            simp only [List.length_append, List.length_singleton] at h1'
            have ha : a < cs.length := by
              rcases Nat.lt_or_ge a cs.length with h | h
              · exact h
              · have : a = cs.length := by omega
                subst this
                simp at h1
                subst h1
                exact absurd h2 hm
            rw [List.getElem?_append_left ha] at h1
            refine ⟨⟨call', h1, h2⟩, fun b call'' hb hb' => ?_⟩
            refine h3 b call'' hb ?_
            rw [List.getElem?_append_left (List.getElem?_eq_some_iff.1 hb').1]
            exact hb'
          · rintro ⟨⟨call', h1, h2⟩, h3⟩
            have ha := (List.getElem?_eq_some_iff.1 h1).1
            refine ⟨⟨call', by rw [List.getElem?_append_left ha]; exact h1, h2⟩, fun b call'' hb hb' => ?_⟩
            rcases Nat.lt_or_ge b cs.length with h | h
            · rw [List.getElem?_append_left h] at hb'
              exact h3 b call'' hb hb'
            · have h1' := (List.getElem?_eq_some_iff.1 hb').1
              simp only [List.length_append, List.length_singleton] at h1'
              have : b = cs.length := by omega
              subst this
              simp at hb'
              subst hb'
              exact hm
      rcases Nat.lt_or_ge i cs.length with h | h
      · rw [List.getElem?_append_left h] at hi
        obtain ⟨o, h1, h2, h3, h4, h5⟩ := ih he' i call hi
        rw [List.getElem?_append_left (by omega), h1]
        by_cases hm : i ∈ c.children
        · refine ⟨{ o with parent := some cs.length }, by simp [hm], h2, h3, h4, fun a => ?_⟩
          rw [hlast, if_pos hm]
          simp [eq_comm]
        · refine ⟨o, by simp [hm], h2, h3, h4, fun a => ?_⟩
          rw [hlast, if_neg hm, h5]
      · have : i = cs.length := by omega
        subst this
        have hm : cs.length ∉ c.children := fun hm => Nat.lt_irrefl _ (hc _ hm)
        simp only [List.getElem?_concat_length, Option.some.injEq] at hi
        subst hi
        refine ⟨{ kind := c.kind, children := c.children, parent := none, loc := c.loc }, ?_, rfl, rfl, rfl, fun a => ?_⟩
        · rw [← hlen, List.getElem?_concat_length]
          simp [hlen, hm]
        · rw [hlast, if_neg hm]
          simp only [reduceCtorEq, false_iff]
          rintro ⟨⟨call', h1, h2⟩, -⟩
          have h3 := he' a call' h1 _ h2
          have h4 := (List.getElem?_eq_some_iff.1 h1).1
          omega
  simpa using this calls.reverse (by simpa using he)

/-- **C58.** After any sequence of constructor calls, every object has the class, attributes, children and location
it was created with, and its parent is the object created by the last call it was given to as a child; it has no
parent if it was not given to any. -/
theorem C58_parent_is_last_user (calls : List NewCall) (he : Existing calls) (i : Nat) (call : NewCall)
    (hi : calls[i]? = some call) :
    ∃ o, (heapOf calls)[i]? = some o ∧ o.kind = call.kind ∧ o.children = call.children ∧ o.loc = call.loc ∧
      ∀ a, o.parent = some a ↔ LastGiven calls i a := heapSpec calls he i call hi

/-- **C58.** All parent links fit the `children` lists exactly if no object was given to two different calls. -/
theorem C58_consistent_iff (calls : List NewCall) (he : Existing calls) :
    (∀ (a : Nat) (o : Obj), (heapOf calls)[a]? = some o → ∀ c ∈ o.children,
      ∃ oc : Obj, (heapOf calls)[c]? = some oc ∧ oc.parent = some a) ↔
    ∀ (a b : Nat) (ca cb : NewCall) (c : Nat), calls[a]? = some ca → calls[b]? = some cb → c ∈ ca.children → c ∈ cb.children → a = b := by
  have get : ∀ (a : Nat) (ca : NewCall), calls[a]? = some ca → ∀ c ∈ ca.children, ∃ cc, calls[c]? = some cc := by
    intro a ca ha c hc
    have := he a ca ha c hc
    have := (List.getElem?_eq_some_iff.1 ha).1
    exact ⟨_, List.getElem?_eq_getElem (by omega)⟩
  constructor
  · intro h a b ca cb c ha hb hca hcb
    obtain ⟨oa, h1, -, h2, -⟩ := heapSpec calls he a ca ha
    obtain ⟨ob, h3, -, h4, -⟩ := heapSpec calls he b cb hb
    obtain ⟨x, h5, h6⟩ := h a oa h1 c (h2 ▸ hca)
    obtain ⟨y, h7, h8⟩ := h b ob h3 c (h4 ▸ hcb)
    rw [h5] at h7; cases h7
    rw [h6] at h8; exact Option.some.inj h8
  · intro h a o ho c hc
    have hl : a < calls.length := by
      have := (List.getElem?_eq_some_iff.1 ho).1
      rwa [heapOf_length] at this
    have ha := List.getElem?_eq_getElem hl
    obtain ⟨oa, h1, -, h2, -⟩ := heapSpec calls he a _ ha
    rw [ho] at h1; cases h1
    rw [h2] at hc
    obtain ⟨cc, hcc⟩ := get a _ ha c hc
    obtain ⟨oc, h3, -, -, -, h4⟩ := heapSpec calls he c cc hcc
    refine ⟨oc, h3, (h4 a).2 ⟨⟨_, ha, hc⟩, fun b cb hab hb hm => ?_⟩⟩
    exact Nat.ne_of_lt hab (h a b _ cb c ha hb hc hm)

/-- **C58.** Following parent links always ends: a parent was created after the child. -/
theorem C58_parent_younger (calls : List NewCall) (he : Existing calls) (i : Nat) (o : Obj)
    (hi : (heapOf calls)[i]? = some o) (a : Nat) (ha : o.parent = some a) : i < a ∧ a < (heapOf calls).length := by
  have hl : i < calls.length := by
    have := (List.getElem?_eq_some_iff.1 hi).1
    rwa [heapOf_length] at this
  obtain ⟨o', h1, -, -, -, h2⟩ := heapSpec calls he i _ (List.getElem?_eq_getElem hl)
  rw [hi] at h1; cases h1
  obtain ⟨⟨call, h3, h4⟩, -⟩ := (h2 a).1 ha
  exact ⟨he a call h3 i h4, by rw [heapOf_length]; exact (List.getElem?_eq_some_iff.1 h3).1⟩

/-- One expression given to two segments, then one of them to a sequence. -/
def sharedCalls : List NewCall :=
  [⟨.wildcard, [], none⟩, ⟨.segment 1 1, [0], none⟩, ⟨.segment 0 1, [0], none⟩, ⟨.sequence, [1, 1], none⟩]

example : Existing sharedCalls ∧ (heapOf sharedCalls).map Obj.parent = [some 2, some 3, none, none] := by
  refine ⟨?_, by decide +kernel⟩
  intro i c h x hx
  rcases i with _ | _ | _ | _ | i <;> simp [sharedCalls] at h <;> subst h <;> simp at hx <;> omega

/-! ### C60 -/

theorem execOps_snoc (rt : Runtime) (ops : List ParserOp) (op : ParserOp) (ps : Parsers) :
    execOps rt (ops ++ [op]) ps = (op.exec rt (execOps rt ops ps)).2 := by simp [execOps]

theorem created_append (a b : List ParserOp) : created (a ++ b) = created a + created b := by
  induction a with
  | nil => simp [created]
  | cons x a ih => cases x <;> simp [created, ih] <;> omega

theorem execOps_length (rt : Runtime) (ops : List ParserOp) : (execOps rt ops []).length = created ops := by
  have : ∀ r : List ParserOp, (execOps rt r.reverse []).length = created r.reverse := by
    intro r
    induction r with
    | nil => rfl
    | cons op r ih =>
      rw [List.reverse_cons, execOps_snoc, created_append, ← ih]
      cases op with
      | new c => simp [ParserOp.exec, created]
      | configure i c => simp [ParserOp.exec, created]
      | parse i q =>
        simp only [ParserOp.exec, created]
        split <;> simp
  simpa using this ops.reverse

theorem settings_get {rt : Runtime} {ops : List ParserOp} {i : Nat} {cfg : Config} (h : SettingsAfter ops i cfg) :
    ∃ p, (execOps rt ops [])[i]? = some p ∧ p.cfg = cfg := by
  induction h with
  | @created ops cfg =>
    rw [execOps_snoc]
    refine ⟨QueryParser.new cfg, ?_, rfl⟩
    simp only [ParserOp.exec]
    rw [← execOps_length rt ops, List.getElem?_concat_length]
  | @assigned ops i old cfg _ ih =>
    obtain ⟨p, h1, h2⟩ := ih
    rw [execOps_snoc]
    refine ⟨{ p with cfg }, ?_, rfl⟩
    simp [ParserOp.exec, List.getElem?_modify, h1]
  | @unchanged ops i cfg op _ hne ih =>
    obtain ⟨p, h1, h2⟩ := ih
    rw [execOps_snoc]
    have hi := (List.getElem?_eq_some_iff.1 h1).1
    cases op with
    | new c =>
      refine ⟨p, ?_, h2⟩
      simp only [ParserOp.exec]
      rw [List.getElem?_append_left hi, h1]
    | configure j c =>
      refine ⟨p, ?_, h2⟩
      have : j ≠ i := fun e => hne c (by rw [e])
      simp [ParserOp.exec, List.getElem?_modify, h1, this]
    | parse j q =>
      simp only [ParserOp.exec]
      split
      · rename_i p' hp'
        by_cases hj : j = i
        · subst hj
          rw [h1] at hp'; cases hp'
          refine ⟨(p.parse rt q).2, by simp [hi], h2⟩
        · exact ⟨p, by rw [List.getElem?_set_ne hj, h1], h2⟩
      · exact ⟨p, h1, h2⟩

/-- **C60.** In any program using any number of parser objects, in any order, a `parse` call has the outcome that a
new parser with the current settings of that object would give: earlier calls, and other objects, do not matter. -/
theorem C60_parse_depends_on_settings_only (rt : Runtime) (ops : List ParserOp) (i : Nat) (cfg : Config)
    (h : SettingsAfter ops i cfg) (q : PyStr) :
    ((ParserOp.parse i q).exec rt (execOps rt ops [])).1 = some ((QueryParser.new cfg).parse rt q).1 := by
  obtain ⟨p, h1, h2⟩ := settings_get (rt := rt) h
  simp only [ParserOp.exec, h1, QueryParser.parse, QueryParser.new, h2]

theorem errors_unchanged (rt : Runtime) (op : ParserOp) (ps : Parsers) (i : Nat) (p : QueryParser) (h : ps[i]? = some p)
    (hne : ∀ q, op ≠ .parse i q) : ∃ p', (op.exec rt ps).2[i]? = some p' ∧ p'.errors = p.errors := by
  have hi := (List.getElem?_eq_some_iff.1 h).1
  cases op with
  | new c => exact ⟨p, by simp only [ParserOp.exec]; rw [List.getElem?_append_left hi, h], rfl⟩
  | configure j c =>
    by_cases hj : j = i
    · subst hj; exact ⟨{ p with cfg := c }, by simp [ParserOp.exec, List.getElem?_modify, h], rfl⟩
    · exact ⟨p, by simp [ParserOp.exec, List.getElem?_modify, h, hj], rfl⟩
  | parse j q =>
    have hj : j ≠ i := fun e => hne q (by rw [e])
    simp only [ParserOp.exec]
    split
    · exact ⟨p, by rw [List.getElem?_set_ne hj, h], rfl⟩
    · exact ⟨p, h, rfl⟩

/-- **C60.** The `errors` of an object are those of the last `parse` call on it, with the settings at that time,
whatever has been done to the object's settings and to other objects since. -/
theorem C60_errors_of_last_parse (rt : Runtime) (ops : List ParserOp) (i : Nat) (q : PyStr) (cfg : Config)
    (h : LastParsed ops i q cfg) :
    ∃ p, (execOps rt ops [])[i]? = some p ∧ p.errors = ((QueryParser.new cfg).parse rt q).2.errors := by
  obtain ⟨before, after, rfl, hs, hafter⟩ := h
  have key : ∀ r : List ParserOp, (∀ op ∈ r, ∀ q', op ≠ .parse i q') →
      ∃ p, (execOps rt (before ++ [.parse i q] ++ r.reverse) [])[i]? = some p ∧
        p.errors = ((QueryParser.new cfg).parse rt q).2.errors := by
    intro r
    induction r with
    | nil =>
      intro _
      obtain ⟨p, h1, h2⟩ := settings_get (rt := rt) hs
      have hi := (List.getElem?_eq_some_iff.1 h1).1
      simp only [List.reverse_nil, List.append_nil]
      rw [execOps_snoc]
      refine ⟨(p.parse rt q).2, by simp only [ParserOp.exec, h1]; rw [List.getElem?_set_self hi], ?_⟩
      simp [QueryParser.parse, QueryParser.new, h2]
    | cons op r ih =>
      intro hr
      obtain ⟨p, h1, h2⟩ := ih fun o ho => hr o (List.mem_cons_of_mem _ ho)
      rw [List.reverse_cons, ← List.append_assoc, execOps_snoc]
      obtain ⟨p', h3, h4⟩ := errors_unchanged rt op _ i p h1 (hr op (by simp))
      exact ⟨p', h3, h4.trans h2⟩
  have := key after.reverse (by simpa using hafter)
  simpa using this

/-- **C60.** An object on which `parse` has not been called yet has no errors, whatever else has been done. -/
theorem C60_no_errors_before_parse (rt : Runtime) (ops : List ParserOp) (i : Nat) (hi : i < created ops)
    (h : ∀ q, .parse i q ∉ ops) : ∃ p, (execOps rt ops [])[i]? = some p ∧ p.errors = [] := by
  have key : ∀ r : List ParserOp, i < created r.reverse → (∀ q, .parse i q ∉ r) →
      ∃ p, (execOps rt r.reverse [])[i]? = some p ∧ p.errors = [] := by
    intro r
    induction r with
    | nil => intro h; simp [created] at h
    | cons op r ih =>
      intro hc hp
      rw [List.reverse_cons, execOps_snoc]
      by_cases hr : i < created r.reverse
      · obtain ⟨p, h1, h2⟩ := ih hr fun q hq => hp q (by simp [hq])
        obtain ⟨p', h3, h4⟩ := errors_unchanged rt op _ i p h1 fun q hq => hp q (by simp [hq])
        exact ⟨p', h3, h4.trans h2⟩
      · rw [List.reverse_cons, created_append] at hc
        cases op with
        | new c =>
          have e : i = (execOps rt r.reverse []).length := by
            rw [execOps_length]; simp [created] at hc; omega
          refine ⟨QueryParser.new c, ?_, rfl⟩
          simp only [ParserOp.exec]
          rw [e, List.getElem?_concat_length]
        | configure j c => simp [created] at hc; omega
        | parse j q => simp [created] at hc; omega
  have := key ops.reverse (by simpa using hi) (by simpa using h)
  simpa using this

example : 1 < created [.new defaultConfig, .new locConfig, .parse 0 py!"'a"] ∧
    ∀ q, .parse 1 q ∉ ([.new defaultConfig, .new locConfig, .parse 0 py!"'a"] : List ParserOp) := by
  refine ⟨by decide, fun q => by simp⟩

/-- Two parsers; the second one is reconfigured. -/
def twoParsers : List ParserOp :=
  [.new defaultConfig, .new locConfig, .parse 0 py!"'a", .configure 1 { defaultConfig with defaultIdentifier := py!"w" }, .parse 1 py!"'b'"]

example : SettingsAfter twoParsers 1 { defaultConfig with defaultIdentifier := py!"w" } ∧
    LastParsed twoParsers 0 py!"'a" defaultConfig ∧
    ((execOps rt0 twoParsers []).map fun p => p.errors.length) = [1, 0] ∧
    ((ParserOp.parse 1 py!"'b'").exec rt0 (execOps rt0 twoParsers [])).1 = some (.ok (.mk (.segment 1 1)
      [.mk (.expression none py!"w" .EQUALS py!"b" none) [] none] none)) := by
  refine ⟨?_, ?_, by decide +kernel, by decide +kernel⟩
  · have h1 : SettingsAfter [.new defaultConfig, .new locConfig] 1 locConfig := .created (ops := [.new defaultConfig])
    have h2 : SettingsAfter [.new defaultConfig, .new locConfig, .parse 0 py!"'a"] 1 locConfig :=
      .unchanged h1 (by simp)
    have h3 := SettingsAfter.assigned (cfg := { defaultConfig with defaultIdentifier := py!"w" }) h2
    exact .unchanged (op := .parse 1 py!"'b'") h3 (by simp)
  · refine ⟨[.new defaultConfig, .new locConfig], [.configure 1 { defaultConfig with defaultIdentifier := py!"w" }, .parse 1 py!"'b'"], rfl, ?_, by simp⟩
    exact .unchanged (op := .new locConfig) (.created (ops := [])) (by simp)

/-! ### C61 -/

/-- What holds of a call during any schedule: its outcome is that of the sequential call. -/
def CallState.Ok (rt : Runtime) (cfg : Config) (q : PyStr) : CallState → Prop
  | .started q' => q' = q
  | .computed q' out errs => q' = q ∧ (out, errs) = parseQuery rt cfg q
  | .finished q' out => q' = q ∧ out = (parseQuery rt cfg q).1

theorem shared_step (rt : Runtime) (cfg : Config) (qs : List PyStr) (s : Shared) (j : Nat)
    (h1 : s.parser.cfg = cfg) (h2 : ∀ (i : Nat) (q : PyStr), qs[i]? = some q → ∃ c, s.calls[i]? = some c ∧ c.Ok rt cfg q) :
    (s.step rt j).parser.cfg = cfg ∧
    ∀ (i : Nat) (q : PyStr), qs[i]? = some q → ∃ c, (s.step rt j).calls[i]? = some c ∧ c.Ok rt cfg q := by
  rw [Shared.step]
  cases hj : s.calls[j]? with
  | none => exact ⟨h1, h2⟩
  | some c =>
    refine ⟨?_, fun i q hq => ?_⟩
    · cases c <;> simp [CallState.step, h1]
    · obtain ⟨d, hd, hok⟩ := h2 i q hq
      by_cases hij : j = i
      · subst hij
        rw [hj] at hd; cases hd
        have hlt := (List.getElem?_eq_some_iff.1 hj).1
        refine ⟨_, by simp [hlt]; rfl, ?_⟩
        cases c with
        | started q' =>
          simp only [CallState.Ok] at hok
          subst hok
          simp [CallState.step, CallState.Ok, h1]
        | computed q' out errs =>
          obtain ⟨rfl, he⟩ := hok
          refine ⟨rfl, ?_⟩
          rw [← he]
        | finished q' out => exact hok
      · exact ⟨d, by rw [List.getElem?_set_ne hij, hd], hok⟩

/-- **C61.** Whatever the interleaving of concurrent `parse` calls on one parser object, every call that has
finished has the outcome it has alone. -/
theorem C61_outcome_of_each_call (rt : Runtime) (p : QueryParser) (qs : List PyStr) (schedule : List Nat) (i : Nat)
    (q : PyStr) (hq : qs[i]? = some q) (q' : PyStr) (out : Except ParserException Node)
    (h : (Shared.run rt ⟨p, qs.map .started⟩ schedule).calls[i]? = some (.finished q' out)) :
    q' = q ∧ out = (p.parse rt q).1 := by
  have key : ∀ (sched : List Nat) (s : Shared), s.parser.cfg = p.cfg →
      (∀ (i : Nat) (q : PyStr), qs[i]? = some q → ∃ c, s.calls[i]? = some c ∧ c.Ok rt p.cfg q) →
      ∀ (i : Nat) (q : PyStr), qs[i]? = some q → ∃ c, (Shared.run rt s sched).calls[i]? = some c ∧ c.Ok rt p.cfg q := by
    intro sched
    induction sched with
    | nil => intro s _ h; exact h
    | cons j sched ih =>
      intro s h1 h2
      obtain ⟨h3, h4⟩ := shared_step rt p.cfg qs s j h1 h2
      exact ih _ h3 h4
  obtain ⟨c, hc, hok⟩ := key schedule ⟨p, qs.map .started⟩ rfl
    (fun i q hq => ⟨.started q, by simp [hq], rfl⟩) i q hq
  rw [h] at hc; cases hc
  exact hok

/-- How many steps a call has left. -/
def CallState.left : CallState → Nat
  | .started _ => 2
  | .computed .. => 1
  | .finished .. => 0

/-- **C61.** Calls do not block each other: a call that is scheduled twice has finished. -/
theorem C61_progress (rt : Runtime) (p : QueryParser) (qs : List PyStr) (schedule : List Nat) (i : Nat) (hi : i < qs.length)
    (h : 2 ≤ schedule.count i) :
    ∃ q out, (Shared.run rt ⟨p, qs.map .started⟩ schedule).calls[i]? = some (.finished q out) := by
  have key : ∀ (sched : List Nat) (s : Shared) (c : CallState), s.calls[i]? = some c → c.left ≤ sched.count i →
      ∃ q out, (Shared.run rt s sched).calls[i]? = some (.finished q out) := by
    intro sched
    induction sched with
    | nil =>
      intro s c hc hl
      cases c with
      | finished q out => exact ⟨q, out, hc⟩
      | _ => simp [CallState.left] at hl
    | cons j sched ih =>
      intro s c hc hl
      by_cases hj : j = i
      · subst hj
        have hlt := (List.getElem?_eq_some_iff.1 hc).1
        refine ih (s.step rt j) (c.step rt s.parser).2 ?_ ?_
        · rw [Shared.step, hc]
          simp only
          rw [List.getElem?_set_self hlt]
        · rw [List.count_cons_self] at hl
          cases c <;> simp only [CallState.left, CallState.step] at hl ⊢ <;> omega
      · refine ih (s.step rt j) c ?_ ?_
        · rw [Shared.step]
          split
          · exact hc
          · simp only
            rw [List.getElem?_set_ne hj, hc]
        · rwa [List.count_cons_of_ne hj] at hl
  exact key schedule ⟨p, qs.map .started⟩ (.started qs[i]) (by simp [hi]) h

/-- The calls assign `errors` in the order in which they finish: the call that finishes last. -/
def lastFinished (rt : Runtime) : Shared → List Nat → Option Nat → Option Nat
  | _, [], last => last
  | s, j :: sched, last =>
    lastFinished rt (s.step rt j) sched (match s.calls[j]? with
      | some (.computed ..) => some j
      | _ => last)

/-- **C61.** After any interleaving, `errors` is the list of the call that finished last (for other failed calls it
is lost); as long as none has finished it is unchanged. -/
theorem C61_errors_of_last_to_finish (rt : Runtime) (p : QueryParser) (qs : List PyStr) (schedule : List Nat) :
    (Shared.run rt ⟨p, qs.map .started⟩ schedule).parser.errors =
      match lastFinished rt ⟨p, qs.map .started⟩ schedule none with
      | none => p.errors
      | some i => match qs[i]? with
        | none => p.errors
        | some q => (p.parse rt q).2.errors := by
  let val : Option Nat → List ErrorDetail := fun last => match last with
      | none => p.errors
      | some i => match qs[i]? with
        | none => p.errors
        | some q => (p.parse rt q).2.errors
  have key : ∀ (sched : List Nat) (s : Shared) (last : Option Nat), s.parser.cfg = p.cfg →
      s.calls.length = qs.length →
      (∀ (i : Nat) (q : PyStr), qs[i]? = some q → ∃ c, s.calls[i]? = some c ∧ c.Ok rt p.cfg q) →
      s.parser.errors = val last →
      (Shared.run rt s sched).parser.errors = val (lastFinished rt s sched last) := by
    intro sched
    induction sched with
    | nil => intro s last _ _ _ h; exact h
    | cons j sched ih =>
      intro s last h1 hlen h2 h3
      obtain ⟨h4, h5⟩ := shared_step rt p.cfg qs s j h1 h2
      have hlen' : (s.step rt j).calls.length = qs.length := by
        rw [Shared.step]; split <;> simp [hlen]
      refine ih _ _ h4 hlen' h5 ?_
      rw [Shared.step]
      cases hj : s.calls[j]? with
      | none => exact h3
      | some c =>
        have hlt : j < qs.length := hlen ▸ (List.getElem?_eq_some_iff.1 hj).1
        have hq := List.getElem?_eq_getElem hlt
        obtain ⟨c', hc', hok⟩ := h2 j _ hq
        rw [hj] at hc'; cases hc'
        cases c with
        | started q' => exact h3
        | finished q' out => exact h3
        | computed q' out errs =>
          obtain ⟨-, he⟩ := hok
          simp only [CallState.step, val, hq, QueryParser.parse]
          rw [← he]
  exact key schedule ⟨p, qs.map .started⟩ none rfl (by simp) (fun i q hq => ⟨.started q, by simp [hq], rfl⟩) rfl

/-- **C61.** `errors` of a failing call can be gone when the call returns: another call has finished in between. -/
theorem C61_errors_race : ∃ (rt : Runtime) (p : QueryParser) (qs : List PyStr) (schedule : List Nat) (out : Except ParserException Node),
    (Shared.run rt ⟨p, qs.map .started⟩ schedule).calls[0]? = some (.finished py!"'a" out) ∧ (∃ e, out = .error e) ∧
    (Shared.run rt ⟨p, qs.map .started⟩ schedule).parser.errors = [] := by
  refine ⟨rt0, QueryParser.new defaultConfig, [py!"'a", py!"'b'"], [0, 1, 0, 1], (parseQuery rt0 defaultConfig py!"'a").1, rfl, ?_, ?_⟩
  · have h : (parseQuery rt0 defaultConfig py!"'a").1.toOption = none := by decide +kernel
    cases hh : (parseQuery rt0 defaultConfig py!"'a").1 with
    | error e => exact ⟨e, rfl⟩
    | ok n => rw [hh] at h; cases h
  · show (parseQuery rt0 defaultConfig py!"'b'").2 = []
    decide +kernel

example : (Shared.run rt0 ⟨QueryParser.new defaultConfig, [py!"'a", py!"'b'"].map .started⟩ [1, 0, 0, 1, 1]).parser.errors = [] ∧
    (Shared.run rt0 ⟨QueryParser.new defaultConfig, [py!"'a", py!"'b'"].map .started⟩ [1, 0, 1, 0]).parser.errors.length = 1 ∧
    lastFinished rt0 ⟨QueryParser.new defaultConfig, [py!"'a", py!"'b'"].map .started⟩ [1, 0, 1, 0] none = some 0 := by
  decide +kernel

end Fcsql
