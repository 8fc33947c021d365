/-
C68: what `fcsql.validate` says about queries put together from queries.
-/
import Verif.Props.Placed
import Verif.Props.Validation
import Verif.Spec.PlacedIssues

set_option autoImplicit false
set_option linter.unusedSimpArgs false

namespace Fcsql

attribute [local irreducible] parseQuery

/-! ### Issues of moved trees -/

def Issue.shift (k : Int) (x : Issue) : Issue := { x with node := x.node.shift k }

theorem Node.shiftL_eq_map (k : Int) : ∀ ns : List Node, Node.shiftL k ns = ns.map (Node.shift k)
  | [] => rfl
  | n :: ns => by simp [Node.shiftL, Node.shiftL_eq_map k ns]

mutual
theorem Node.subnodes_shift (k : Int) : ∀ n : Node, (n.shift k).subnodes = n.subnodes.map (Node.shift k)
  | .mk kd cs l => by simp [Node.shift, Node.subnodes, Node.subnodesL_shift k cs]
theorem Node.subnodesL_shift (k : Int) : ∀ ns : List Node, Node.subnodesL (Node.shiftL k ns) = (Node.subnodesL ns).map (Node.shift k)
  | [] => rfl
  | n :: ns => by simp [Node.shiftL, Node.subnodesL, Node.subnodes_shift k n, Node.subnodesL_shift k ns]
end

theorem issuesAt_shift (rt : PyRuntime) (o : FcsqlOptions) (k : Int) (n : Node) :
    issuesAt rt o (n.shift k) = (issuesAt rt o n).map (Issue.shift k) := by
  unfold issuesAt
  rw [Node.shift_kind]
  cases n.kind with
  | expression q i op r fl =>
    simp only [List.map_append]
    congr 1
    · congr 1
      · split
        · rfl
        · split <;> rfl
      · split <;> rfl
    · split <;> rfl
  | _ => rfl

theorem treeIssues_shift (rt : PyRuntime) (o : FcsqlOptions) (k : Int) (n : Node) :
    treeIssues rt o (n.shift k) = (treeIssues rt o n).map (Issue.shift k) := by
  unfold treeIssues
  rw [Node.subnodes_shift, List.flatMap_map, List.map_flatMap]
  congr 1
  funext m
  exact issuesAt_shift rt o k m

theorem treeIssues_mk (rt : PyRuntime) (o : FcsqlOptions) (kd : Kind) (cs : List Node) (l : Option Loc)
    (hk : ∀ q i op r fl, kd ≠ .expression q i op r fl) : treeIssues rt o (.mk kd cs l) = cs.flatMap (treeIssues rt o) := by
  have h1 : issuesAt rt o (.mk kd cs l) = [] := by
    unfold issuesAt
    cases kd with
    | expression q i op r fl => exact absurd rfl (hk q i op r fl)
    | _ => rfl
  have h2 : ∀ ns : List Node, (Node.subnodesL ns).flatMap (issuesAt rt o) = ns.flatMap (treeIssues rt o) := by
    intro ns
    induction ns with
    | nil => rfl
    | cons n ns ih => simp [Node.subnodesL, List.flatMap_append, ih, treeIssues]
  simp [treeIssues, Node.subnodes, h1, h2]

/-! ### Reports -/

theorem slice_within {a q b : PyStr} {i j : Int} (h0 : 0 ≤ i) (h1 : i ≤ j) (h2 : j ≤ q.length) :
    substring (a ++ q ++ b) (i + a.length) (j + a.length) = substring q i j := by
  obtain ⟨i, rfl⟩ := Int.eq_ofNat_of_zero_le h0
  obtain ⟨j, rfl⟩ := Int.eq_ofNat_of_zero_le (Int.le_trans h0 h1)
  have h1 : i ≤ j := by omega
  have h2 : j ≤ q.length := by omega
  have e1 : ((i : Int) + a.length) = ((i + a.length : Nat) : Int) := by omega
  have e2 : ((j : Int) + a.length) = ((j + a.length : Nat) : Int) := by omega
  rw [e1, e2, slice_nat (by simp; omega) (by simp; omega), slice_nat (by omega) h2]
  have e3 : (a ++ q ++ b).take (j + a.length) = a ++ q.take j := by
    rw [List.append_assoc, Nat.add_comm, List.take_length_add_append, List.take_append_of_le_length h2]
  rw [e3, Nat.add_comm, ← List.drop_drop, List.drop_left]

/-- The report about an issue of a part is the moved report of the part. -/
theorem detail_at {rt : Runtime} {o : FcsqlOptions} {q a b : PyStr} {n : Node} (h : (parseQuery rt locConfig q).1 = .ok n) {x : Issue}
    (hx : x ∈ treeIssues rt.toPyRuntime o n) :
    (x.shift a.length).detail (some (a ++ q ++ b)) = (x.detail (some q)).shift a.length := by
  obtain ⟨m, hm, hxm⟩ := List.mem_flatMap.1 hx
  obtain rfl := issuesAt_node _ _ _ _ hxm
  obtain ⟨l, hl, ⟨b1, b2, b3⟩, -⟩ := C25_locations rt locConfig q n h rfl _ hm
  have hq : q ≠ [] := by rintro rfl; simp at b3; omega
  have hQ : a ++ q ++ b ≠ [] := by simp [hq]
  simp only [Issue.detail, Issue.shift, Node.shift_loc, hl, Option.map_some, ErrorDetail.shift, Position.shift, if_neg hq, if_neg hQ]
  simp only [Loc.shift]
  rw [slice_within b1 (by omega) b3]
  rfl

theorem detail_isError (q : Option PyStr) (x : Issue) : (x.detail q).isError = x.isError := by
  cases h : x.isError <;> simp [Issue.detail, ErrorDetail.isError, h]

theorem shift_isError (k : Int) (d : ErrorDetail) : (d.shift k).isError = d.isError := rfl

/-- The reports about a tree. -/
noncomputable def reports (rt : Runtime) (q : PyStr) (n : Node) : List ErrorDetail :=
  (treeIssues rt.toPyRuntime defaultOptions n).map (Issue.detail (some q))

/-- What is listed of the reports. -/
def listed (wae : Bool) (ds : List ErrorDetail) : List ErrorDetail :=
  ds.filter ErrorDetail.isError ++ if wae then ds.filter (fun d => !d.isError) else []

theorem validate_list (rt : Runtime) (q : PyStr) (n : Node) (wae : Bool) (h : (parseQuery rt locConfig q).1 = .ok n) :
    fcsqlValidate rt q py!"2.2" true wae = .ok (.list (listed wae (reports rt q n))) := by
  rw [fcsqlValidate_known, h]
  simp only [if_true, listed, reports, List.filter_map]
  congr 3
  · congr 1
    apply List.filter_congr
    intro x _
    simp [detail_isError]
  · congr 2
    apply List.filter_congr
    intro x _
    simp [detail_isError]

theorem reports_shift {rt : Runtime} {q a b : PyStr} {n : Node} (h : (parseQuery rt locConfig q).1 = .ok n) :
    reports rt (a ++ q ++ b) (n.shift a.length) = (reports rt q n).map (ErrorDetail.shift a.length) := by
  rw [reports, treeIssues_shift, List.map_map, reports, List.map_map]
  apply List.map_congr_left
  intro x hx
  exact detail_at h hx

theorem filter_ee (l : List ErrorDetail) : (l.filter ErrorDetail.isError).filter ErrorDetail.isError = l.filter ErrorDetail.isError := by
  rw [List.filter_filter]; congr 1; funext d; simp

theorem filter_ww (l : List ErrorDetail) : (l.filter fun d => !d.isError).filter (fun d => !d.isError) = l.filter fun d => !d.isError := by
  rw [List.filter_filter]; congr 1; funext d; simp

theorem filter_ew (l : List ErrorDetail) : (l.filter fun d => !d.isError).filter ErrorDetail.isError = [] := by
  rw [List.filter_filter, List.filter_eq_nil_iff]; simp

theorem filter_we (l : List ErrorDetail) : (l.filter ErrorDetail.isError).filter (fun d => !d.isError) = [] := by
  rw [List.filter_filter, List.filter_eq_nil_iff]; simp

theorem listed_map (wae : Bool) (k : Int) (ds : List ErrorDetail) :
    listed wae (ds.map (ErrorDetail.shift k)) = (listed wae ds).map (ErrorDetail.shift k) := by
  have : (fun d : ErrorDetail => d.isError) ∘ ErrorDetail.shift k = fun d => d.isError := rfl
  cases wae <;> simp [listed, List.filter_map, Function.comp_def, shift_isError]

theorem errorsFirst_errors (ds : List ErrorDetail) : (errorsFirst ds).filter ErrorDetail.isError = ds.filter ErrorDetail.isError := by
  rw [errorsFirst, List.filter_append, filter_ee, filter_ew, List.append_nil]

theorem errorsFirst_warnings (ds : List ErrorDetail) : (errorsFirst ds).filter (fun d => !d.isError) = ds.filter fun d => !d.isError := by
  rw [errorsFirst, List.filter_append, filter_we, filter_ww, List.nil_append]

theorem errorsFirst_congr {es es' : List ErrorDetail} (h : errorsFirst es = errorsFirst es') (ds : List ErrorDetail) :
    errorsFirst (ds ++ es) = errorsFirst (ds ++ es') := by
  have h1 := errorsFirst_errors es
  have h2 := errorsFirst_warnings es
  rw [h, errorsFirst_errors] at h1
  rw [h, errorsFirst_warnings] at h2
  simp only [errorsFirst, List.filter_append, h1, h2]

theorem listed_errorsFirst (wae : Bool) (ds : List ErrorDetail) : errorsFirst (listed wae ds) = listed wae ds := by
  cases wae
  · simp only [errorsFirst, listed, Bool.false_eq_true, if_false, List.append_nil, filter_ee, filter_we]
  · exact (by simp only [errorsFirst, listed, if_true, List.filter_append, filter_ee, filter_we, filter_ew, filter_ww, List.append_nil, List.nil_append])

theorem listed_append (wae : Bool) (ds es : List ErrorDetail) : listed wae (ds ++ es) = errorsFirst (listed wae ds ++ listed wae es) := by
  cases wae <;> simp only [errorsFirst, listed, if_true, Bool.false_eq_true, if_false, List.filter_append, filter_ee, filter_we, filter_ew, filter_ww, List.append_nil, List.nil_append, List.filter_nil]

/-- The reports that are listed, part by part. -/
theorem listed_placed (wae : Bool) (gap : Nat) : ∀ (k : Nat) (ps : List (PyStr × List ErrorDetail)),
    listed wae (placedDetails gap k ps) = errorsFirst (placedDetails gap k (ps.map fun p => (p.1, listed wae p.2)))
  | _, [] => by cases wae <;> rfl
  | k, (q, ds) :: ps => by
    rw [placedDetails, listed_append, listed_placed wae gap _ ps]
    simp only [List.map_cons, placedDetails]
    rw [listed_map]
    apply errorsFirst_congr
    simp only [errorsFirst, List.filter_append, filter_ee, filter_we, filter_ew, filter_ww, List.append_nil, List.nil_append]

theorem joinWith_cons (sep q : PyStr) (qs : List PyStr) : ∃ b, joinWith sep (q :: qs) = q ++ b ∧ (qs ≠ [] → b = sep ++ joinWith sep qs) := by
  cases qs with
  | nil => exact ⟨[], by simp [joinWith], by simp⟩
  | cons q' qs => exact ⟨_, rfl, fun _ => rfl⟩

/-- The reports about parts that are placed one after the other. -/
theorem reports_placed {rt : Runtime} (sep : PyStr) : ∀ (ps : List (PyStr × Node)) (a : PyStr), (∀ p ∈ ps, (parseQuery rt locConfig p.1).1 = .ok p.2) →
    ((placed sep.length a.length ps).flatMap (treeIssues rt.toPyRuntime defaultOptions)).map
        (Issue.detail (some (a ++ joinWith sep (ps.map Prod.fst)))) =
      placedDetails sep.length a.length (ps.map fun p => (p.1, reports rt p.1 p.2))
  | [], _, _ => rfl
  | (q, n) :: ps, a, h => by
    obtain ⟨b, hb, hb'⟩ := joinWith_cons sep q (ps.map Prod.fst)
    simp only [placed, List.flatMap_cons, List.map_cons, placedDetails, List.map_append]
    congr 1
    · have := reports_shift (a := a) (b := b) (h (q, n) (by simp))
      rw [hb, ← List.append_assoc]
      exact this
    · cases ps with
      | nil => rfl
      | cons p ps =>
        have ih := reports_placed sep (p :: ps) (a ++ q ++ sep) fun x hx => h x (by simp [List.mem_cons] at hx ⊢; exact .inr hx)
        have e : (a ++ q ++ sep).length = a.length + q.length + sep.length := by simp [Nat.add_assoc]
        rw [hb, hb' (by simp)]
        rw [e] at ih
        rw [← ih]
        simp

theorem treeIssues_operandAt (rt : PyRuntime) (o : FcsqlOptions) (n : Node) : treeIssues rt o n.operandAt = treeIssues rt o n := by
  unfold Node.operandAt
  split
  · rw [treeIssues_mk _ _ _ _ _ (by simp)]; simp
  · rfl

theorem treeIssues_contentAt (rt : PyRuntime) (o : FcsqlOptions) (n : Node) : treeIssues rt o n.contentAt = treeIssues rt o n := by
  unfold Node.contentAt
  split
  · rw [treeIssues_mk _ _ _ _ _ (by simp)]; simp
  · rw [treeIssues_mk _ _ _ _ _ (by simp)]; simp
  · rfl

/-- If a query lists nothing, it is valid. -/
theorem valid_iff_nil (rt : Runtime) (q : PyStr) (wae : Bool) :
    fcsqlValidate rt q py!"2.2" false wae = .ok (.bool true) ↔ fcsqlValidate rt q py!"2.2" true wae = .ok (.list []) :=
  (C37_modes_agree rt q wae).2.2

/-- The nodes of the parts. -/
theorem choose_nodes {rt : Runtime} {P : Node → Prop} {wae : Bool} : ∀ {ps : List (PyStr × List ErrorDetail)},
    (∀ p ∈ ps, (∃ n, fcsqlParse rt p.1 = .ok n ∧ P n) ∧ fcsqlValidate rt p.1 py!"2.2" true wae = .ok (.list p.2)) →
    ∃ ns : List (PyStr × Node), ps.map Prod.fst = ns.map Prod.fst ∧ (∀ p ∈ ns, (parseQuery rt locConfig p.1).1 = .ok p.2 ∧ P p.2) ∧
      ps = ns.map fun p => (p.1, listed wae (reports rt p.1 p.2))
  | [], _ => ⟨[], rfl, by simp, rfl⟩
  | (q, ds) :: ps, h => by
    obtain ⟨⟨n, hn, hP⟩, hv⟩ := h (q, ds) (by simp)
    obtain ⟨ns, h1, h2, h3⟩ := choose_nodes (ps := ps) fun p hp => h p (by simp [hp])
    have hn' : (parseQuery rt locConfig q).1 = .ok n := hn
    have hv' := validate_list rt q n wae hn'
    have hv : fcsqlValidate rt q py!"2.2" true wae = .ok (.list ds) := hv
    rw [hv] at hv'
    simp only [Except.ok.injEq, ValidateResult.list.injEq] at hv'
    refine ⟨(q, n) :: ns, by simp [h1], ?_, by simp [hv', ← h3]⟩
    intro p hp
    rcases List.mem_cons.1 hp with rfl | hp
    · exact ⟨hn', hP⟩
    · exact h2 p hp

theorem placedDetails_nil (gap : Nat) : ∀ (k : Nat) (ps : List (PyStr × List ErrorDetail)), placedDetails gap k ps = [] ↔ ∀ p ∈ ps, p.2 = []
  | _, [] => by simp [placedDetails]
  | k, (q, ds) :: ps => by simp [placedDetails, placedDetails_nil gap _ ps]

theorem errorsFirst_nil (ds : List ErrorDetail) : errorsFirst ds = [] ↔ ds = [] := by
  constructor
  · intro h
    have h1 := errorsFirst_errors ds
    have h2 := errorsFirst_warnings ds
    rw [h] at h1 h2
    cases ds with
    | nil => rfl
    | cons d ds => cases hd : d.isError <;> simp [hd] at h1 h2
  · rintro rfl; rfl

theorem valid_parts {rt : Runtime} {wae : Bool} {Q : PyStr} {gap : Nat} {qs : List PyStr}
    (key : ∀ ps : List (PyStr × List ErrorDetail), ps.map Prod.fst = qs →
      (∀ p ∈ ps, fcsqlValidate rt p.1 py!"2.2" true wae = .ok (.list p.2)) →
      fcsqlValidate rt Q py!"2.2" true wae = .ok (.list (errorsFirst (placedDetails gap 0 ps)))) :
    fcsqlValidate rt Q py!"2.2" false wae = .ok (.bool true) ↔ ∀ q ∈ qs, fcsqlValidate rt q py!"2.2" false wae = .ok (.bool true) := by
  have hex : ∀ qs : List PyStr, ∃ ps : List (PyStr × List ErrorDetail), ps.map Prod.fst = qs ∧ ∀ p ∈ ps, fcsqlValidate rt p.1 py!"2.2" true wae = .ok (.list p.2) := by
    intro qs
    induction qs with
    | nil => exact ⟨[], rfl, by simp⟩
    | cons q qs ih =>
      obtain ⟨ps, h1, h2⟩ := ih
      obtain ⟨l, hl⟩ := (C37_modes_agree rt q wae).2.1
      refine ⟨(q, l) :: ps, by simp [h1], ?_⟩
      intro p hp
      rcases List.mem_cons.1 hp with rfl | hp
      · exact hl
      · exact h2 p hp
  obtain ⟨ps, h1, h2⟩ := hex qs
  rw [valid_iff_nil, key ps h1 h2]
  simp only [Except.ok.injEq, ValidateResult.list.injEq, errorsFirst_nil, placedDetails_nil]
  subst h1
  constructor
  · intro h q hq
    obtain ⟨p, hp, rfl⟩ := List.mem_map.1 hq
    rw [valid_iff_nil, h2 p hp, h p hp]
  · intro h p hp
    have := h p.1 (List.mem_map_of_mem hp)
    rw [valid_iff_nil, h2 p hp] at this
    simpa using this

theorem details_shift_zero (ds : List ErrorDetail) : ds.map (ErrorDetail.shift 0) = ds := by
  have : ErrorDetail.shift 0 = id := by
    funext ⟨m, t, p, f⟩
    cases p <;> simp [ErrorDetail.shift, Position.shift, Loc.shift]
  rw [this, List.map_id]

/-- The list determines the verdict. -/
theorem validate_of_list {rt : Runtime} {q q' : PyStr} {wae : Bool} (h : fcsqlValidate rt q py!"2.2" true wae = fcsqlValidate rt q' py!"2.2" true wae)
    (re : Bool) : fcsqlValidate rt q py!"2.2" re wae = fcsqlValidate rt q' py!"2.2" re wae := by
  cases re with
  | true => exact h
  | false =>
    have h1 := valid_iff_nil rt q wae
    have h2 := valid_iff_nil rt q' wae
    rw [h, ← h2] at h1
    obtain ⟨b, hb⟩ := (C37_modes_agree rt q wae).1
    obtain ⟨b', hb'⟩ := (C37_modes_agree rt q' wae).1
    rw [hb, hb'] at h1 ⊢
    cases b <;> cases b' <;> simp_all

/-- If a tree has just the issues of a part, moved, so has the report. -/
theorem moved {rt : Runtime} {q a b : PyStr} {n N : Node} {wae : Bool} (h : (parseQuery rt locConfig q).1 = .ok n)
    (hp : (parseQuery rt locConfig (a ++ q ++ b)).1 = .ok N)
    (hi : treeIssues rt.toPyRuntime defaultOptions N = treeIssues rt.toPyRuntime defaultOptions (n.shift a.length)) :
    (∀ ds, fcsqlValidate rt q py!"2.2" true wae = .ok (.list ds) →
      fcsqlValidate rt (a ++ q ++ b) py!"2.2" true wae = .ok (.list (ds.map (ErrorDetail.shift a.length)))) ∧
    fcsqlValidate rt (a ++ q ++ b) py!"2.2" false wae = fcsqlValidate rt q py!"2.2" false wae := by
  have key : ∀ ds, fcsqlValidate rt q py!"2.2" true wae = .ok (.list ds) →
      fcsqlValidate rt (a ++ q ++ b) py!"2.2" true wae = .ok (.list (ds.map (ErrorDetail.shift a.length))) := by
    intro ds hds
    rw [validate_list rt _ _ wae h] at hds
    simp only [Except.ok.injEq, ValidateResult.list.injEq] at hds
    rw [validate_list rt _ _ wae hp, reports, hi, ← hds, ← listed_map, ← reports_shift h, reports]
  refine ⟨key, ?_⟩
  obtain ⟨ds, hds⟩ := (C37_modes_agree rt q wae).2.1
  have h1 := valid_iff_nil rt (a ++ q ++ b) wae
  have h2 := valid_iff_nil rt q wae
  rw [key ds hds] at h1
  rw [hds] at h2
  simp only [Except.ok.injEq, ValidateResult.list.injEq, List.map_eq_nil_iff] at h1 h2
  rw [← h2] at h1
  obtain ⟨b1, hb⟩ := (C37_modes_agree rt (a ++ q ++ b) wae).1
  obtain ⟨b2, hb'⟩ := (C37_modes_agree rt q wae).1
  rw [hb, hb'] at h1 ⊢
  cases b1 <;> cases b2 <;> simp_all

/-! ### The property -/

/-- **C68.** For two or more queries that each parse to a segment or a group: `validate` of the text with all of them, separated by
spaces, lists exactly the reports about the parts, in order, errors before warnings, with the positions moved to the places of the
parts and the same messages and fragments. -/
theorem C68_sequence (rt : Runtime) (wae : Bool) (ps : List (PyStr × List ErrorDetail)) (hlen : 2 ≤ ps.length)
    (h : ∀ p ∈ ps, (∃ n, fcsqlParse rt p.1 = .ok n ∧ n.isItem) ∧ fcsqlValidate rt p.1 py!"2.2" true wae = .ok (.list p.2)) :
    fcsqlValidate rt (joinWith [32] (ps.map Prod.fst)) py!"2.2" true wae = .ok (.list (errorsFirst (placedDetails 1 0 ps))) := by
  obtain ⟨ns, h1, h2, h3⟩ := choose_nodes h
  have hl : 2 ≤ ns.length := by rw [h3] at hlen; simpa using hlen
  have hp := C67_sequence rt locConfig ns hl h2
  rw [h1, validate_list rt _ _ wae hp, reports, treeIssues_mk _ _ _ _ _ (by simp)]
  have := reports_placed (rt := rt) [32] ns [] fun p hp => (h2 p hp).1
  simp only [List.length_nil, List.length_cons, List.nil_append, Nat.zero_add] at this
  rw [this, listed_placed, h3, List.map_map]
  rfl

/-- **C68.** It is valid exactly if all the parts are. -/
theorem C68_sequence_valid (rt : Runtime) (wae : Bool) (qs : List PyStr) (hlen : 2 ≤ qs.length) (h : ∀ q ∈ qs, ∃ n, fcsqlParse rt q = .ok n ∧ n.isItem) :
    fcsqlValidate rt (joinWith [32] qs) py!"2.2" false wae = .ok (.bool true) ↔ ∀ q ∈ qs, fcsqlValidate rt q py!"2.2" false wae = .ok (.bool true) := by
  refine valid_parts (gap := 1) ?_
  rintro ps rfl h'
  exact C68_sequence rt wae ps (by simpa using hlen) fun p hp => ⟨h _ (List.mem_map_of_mem hp), h' p hp⟩

/-- **C68.** The same for alternatives: queries that each parse to a segment, a group or a sequence, with ` | ` between them. -/
theorem C68_disjunction (rt : Runtime) (wae : Bool) (ps : List (PyStr × List ErrorDetail)) (hlen : 2 ≤ ps.length)
    (h : ∀ p ∈ ps, (∃ n, fcsqlParse rt p.1 = .ok n ∧ n.isOperand) ∧ fcsqlValidate rt p.1 py!"2.2" true wae = .ok (.list p.2)) :
    fcsqlValidate rt (joinWith py!" | " (ps.map Prod.fst)) py!"2.2" true wae = .ok (.list (errorsFirst (placedDetails 3 0 ps))) := by
  obtain ⟨ns, h1, h2, h3⟩ := choose_nodes h
  have hl : 2 ≤ ns.length := by rw [h3] at hlen; simpa using hlen
  have hp := C67_disjunction rt locConfig ns hl h2
  rw [h1, validate_list rt _ _ wae hp, reports, treeIssues_mk _ _ _ _ _ (by simp), List.flatMap_map]
  simp only [treeIssues_operandAt]
  have := reports_placed (rt := rt) py!" | " ns [] fun p hp => (h2 p hp).1
  simp only [List.length_nil, List.length_cons, List.nil_append, Nat.zero_add] at this
  rw [this, listed_placed, h3, List.map_map]
  rfl

/-- **C68.** It is valid exactly if all the alternatives are. -/
theorem C68_disjunction_valid (rt : Runtime) (wae : Bool) (qs : List PyStr) (hlen : 2 ≤ qs.length) (h : ∀ q ∈ qs, ∃ n, fcsqlParse rt q = .ok n ∧ n.isOperand) :
    fcsqlValidate rt (joinWith py!" | " qs) py!"2.2" false wae = .ok (.bool true) ↔ ∀ q ∈ qs, fcsqlValidate rt q py!"2.2" false wae = .ok (.bool true) := by
  refine valid_parts (gap := 3) ?_
  rintro ps rfl h'
  exact C68_disjunction rt wae ps (by simpa using hlen) fun p hp => ⟨h _ (List.mem_map_of_mem hp), h' p hp⟩

/-- **C68.** If `Q` parses to a query without `within`: a `within` clause adds and changes no reports. -/
theorem C68_within (rt : Runtime) (re wae : Bool) (Q w : PyStr) (sc : Scope) (hw : (w, sc) ∈ scopeWords) (n : Node)
    (h : fcsqlParse rt Q = .ok n) (hn : n.kind ≠ .withWithin) :
    fcsqlValidate rt (Q ++ py!" within " ++ w) py!"2.2" re wae = fcsqlValidate rt Q py!"2.2" re wae := by
  have h : (parseQuery rt locConfig Q).1 = .ok n := h
  have hp := (C67_within rt locConfig Q w sc hw _).2 ⟨n, h, hn, rfl⟩
  have key : fcsqlValidate rt (Q ++ py!" within " ++ w) py!"2.2" true wae = fcsqlValidate rt Q py!"2.2" true wae := by
    rw [validate_list rt _ _ wae hp, validate_list rt _ _ wae h, reports, treeIssues_mk _ _ _ _ _ (by simp)]
    have e : treeIssues rt.toPyRuntime defaultOptions (.mk (.within sc) [] (locConfig.at (Q.length + 8) (Q.length + 8 + w.length))) = [] := by
      rw [treeIssues_mk _ _ _ _ _ (by simp)]; rfl
    simp only [List.flatMap_cons, List.flatMap_nil, e, List.append_nil]
    have := reports_shift (rt := rt) (q := Q) (a := []) (b := py!" within " ++ w) h
    simp only [List.length_nil, List.nil_append, Int.natCast_zero, Node.shift_zero] at this
    rw [List.append_assoc]
    rw [reports] at this
    rw [this, details_shift_zero]
  exact validate_of_list key re

/-- **C68.** If `Q` parses to a query without `within`: parentheses only move the reports by one character. -/
theorem C68_group (rt : Runtime) (wae : Bool) (Q : PyStr) (n : Node) (h : fcsqlParse rt Q = .ok n) (hn : n.kind ≠ .withWithin) :
    (∀ ds, fcsqlValidate rt Q py!"2.2" true wae = .ok (.list ds) →
      fcsqlValidate rt (py!"(" ++ Q ++ py!")") py!"2.2" true wae = .ok (.list (ds.map (ErrorDetail.shift 1)))) ∧
    fcsqlValidate rt (py!"(" ++ Q ++ py!")") py!"2.2" false wae = fcsqlValidate rt Q py!"2.2" false wae := by
  have h : (parseQuery rt locConfig Q).1 = .ok n := h
  refine moved h (C67_group rt locConfig Q n h hn) ?_
  rw [treeIssues_mk _ _ _ _ _ (by simp)]
  simp only [List.flatMap_cons, List.flatMap_nil, List.append_nil, treeIssues_contentAt]
  rfl

/-- **C68.** Whitespace around a query (that parses) only moves the reports. -/
theorem C68_whitespace_around (rt : Runtime) (wae : Bool) (a b Q : PyStr) (ha : ∀ c ∈ a, isWs c = true) (hb : ∀ c ∈ b, isWs c = true)
    (n : Node) (h : fcsqlParse rt Q = .ok n) :
    (∀ ds, fcsqlValidate rt Q py!"2.2" true wae = .ok (.list ds) →
      fcsqlValidate rt (a ++ Q ++ b) py!"2.2" true wae = .ok (.list (ds.map (ErrorDetail.shift a.length)))) ∧
    fcsqlValidate rt (a ++ Q ++ b) py!"2.2" false wae = fcsqlValidate rt Q py!"2.2" false wae := by
  have h : (parseQuery rt locConfig Q).1 = .ok n := h
  exact moved h ((C67_whitespace_around rt locConfig a b Q ha hb _).2 ⟨n, h, rfl⟩) rfl

/-- **C68.** If `Q` parses to a segment or a group and does not end with a quantifier: a quantifier adds and changes no reports. -/
theorem C68_quantifier (rt : Runtime) (re wae : Bool) (Q t : PyStr) (n : Node) (c : Nat) (mn mx : Int)
    (h : fcsqlParse rt Q = .ok n) (hn : n.isItem) (hQ : Q.getLast? = some c) (hws : isWs c = false) (hcq : c ∉ py!"*+?}")
    (ht : QuantText rt.toPyRuntime t mn mx) :
    fcsqlValidate rt (Q ++ t) py!"2.2" re wae = fcsqlValidate rt Q py!"2.2" re wae := by
  have h : (parseQuery rt locConfig Q).1 = .ok n := h
  have hp := C67_quantifier rt locConfig Q t n c mn mx h hn hQ hws hcq ht
  refine validate_of_list ?_ re
  obtain ⟨ds, hds⟩ := (C37_modes_agree rt Q wae).2.1
  have := (moved (a := []) (b := t) (wae := wae) h (by simpa using hp) ?_).1 ds hds
  · simp only [List.length_nil, List.nil_append, Int.natCast_zero, details_shift_zero] at this
    rw [hds, this]
  · simp only [List.length_nil, Int.natCast_zero, Node.shift_zero]
    obtain ⟨k, cs, l⟩ := n
    rcases hn with ⟨x, y, rfl⟩ | ⟨x, y, rfl⟩ <;>
      simp only [Kind.withBounds, Node.kind, Node.children] <;> rw [treeIssues_mk _ _ _ _ _ (by simp), treeIssues_mk _ _ _ _ _ (by simp)]

/-! ### Examples -/

/-- The tree `parse` returns, for the examples. -/
def nodeOf (q : PyStr) : Node :=
  match fcsqlParse rt0 q with
  | .ok n => n
  | .error _ => .mk .wildcard [] none


/-- An error of `validate`, as listed. -/
def unknownLayer (i : PyStr) (a b : Int) (f : PyStr) : ErrorDetail :=
  { message := py!"Unknown layer identifier '" ++ i ++ py!"'!", type := some py!"validation-error", position := .loc ⟨a, b⟩, fragment := some f }

example : fcsqlValidate rt0 py!"[foo='a'] 'b' [bar='c']+" py!"2.2" true false =
    .ok (.list [unknownLayer py!"foo" 1 8 py!"foo='a'", unknownLayer py!"bar" 15 22 py!"bar='c'"]) :=
  C68_sequence rt0 false [(py!"[foo='a']", [unknownLayer py!"foo" 1 8 py!"foo='a'"]), (py!"'b'", []),
    (py!"[bar='c']+", [unknownLayer py!"bar" 1 8 py!"bar='c'"])] (by simp) (by
      intro p hp
      simp only [List.mem_cons, List.not_mem_nil, or_false] at hp
      rcases hp with rfl | rfl | rfl
      · exact ⟨⟨nodeOf py!"[foo='a']", by decide +kernel, .inl ⟨1, 1, by decide +kernel⟩⟩, by decide +kernel⟩
      · exact ⟨⟨nodeOf py!"'b'", by decide +kernel, .inl ⟨1, 1, by decide +kernel⟩⟩, by decide +kernel⟩
      · exact ⟨⟨nodeOf py!"[bar='c']+", by decide +kernel, .inl ⟨1, -1, by decide +kernel⟩⟩, by decide +kernel⟩)

example : fcsqlValidate rt0 py!"([foo='a'])" py!"2.2" true false = .ok (.list [unknownLayer py!"foo" 2 9 py!"foo='a'"]) :=
  (C68_group rt0 false py!"[foo='a']" _ (by decide +kernel : fcsqlParse rt0 py!"[foo='a']" = .ok (nodeOf py!"[foo='a']")) (by decide +kernel)).1
    [unknownLayer py!"foo" 1 8 py!"foo='a'"] (by decide +kernel)

end Fcsql
