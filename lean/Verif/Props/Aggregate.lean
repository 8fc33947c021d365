/-
C59: results of traversals (`visitChildren`, `defaultResult`, `aggregateResult`, `shouldVisitNextChild`).
-/
import Verif.Props.Visitors

set_option autoImplicit false
set_option linter.unusedSimpArgs false

namespace Fcsql

/-! ### Aggregation -/

mutual
/-- The value of a tree: start with `d` at every node and combine with the values of the children, left to right. -/
def Node.foldTree {R : Type} (d : Option R) (g : Option R → Option R → Option R) : Node → Option R
  | .mk _ cs _ => Node.foldTreeL d g d cs
/-- Combine with the values of these children. -/
def Node.foldTreeL {R : Type} (d : Option R) (g : Option R → Option R → Option R) : Option R → List Node → Option R
  | r, [] => r
  | r, c :: cs => Node.foldTreeL d g (g r (Node.foldTree d g c)) cs
end

/-- A visitor that overrides `defaultResult` and `aggregateResult` and has no `visit_*` methods. -/
def aggregator (R σ ε : Type) (d : Option R) (g : Option R → Option R → Option R) : Visitor R σ ε :=
  { defaultResult := fun s => (.ok d, s), aggregate := fun a b s => (.ok (g a b), s), method := fun _ => none }

/-- **C59.** With overridden `defaultResult` and `aggregateResult`, visiting a tree combines the results of the
children in order, at every node, starting from the default result. -/
theorem C59_aggregate {R σ ε : Type} (d : Option R) (g : Option R → Option R → Option R) (n : Node) (s : σ) :
    visitNode (aggregator R σ ε d g) n s = (.ok (n.foldTree d g), s) := by
  revert s
  apply Node.rec (motive_1 := fun n => ∀ s, visitNode (aggregator R σ ε d g) n s = (.ok (n.foldTree d g), s))
    (motive_2 := fun cs => ∀ (node : Node) (r : Option R) (s : σ),
      visitLoop (aggregator R σ ε d g).toVisitorBase node r (acceptAll (aggregator R σ ε d g) cs) s =
        (.ok (Node.foldTreeL d g r cs), s))
  · intro k cs l ih s
    rw [visitNode, dispatch, Node.foldTree]
    exact ih _ d s
  · intro node r s; rfl
  · intro c cs ih1 ih2 node r s
    rw [acceptAll, visitLoop]
    simp only [aggregator, if_true]
    have h1 := ih1 s
    simp only [aggregator] at h1
    rw [h1]
    simp only [Node.foldTreeL]
    exact ih2 node _ s

theorem foldTree_count : ∀ n : Node, n.foldTree (some 1) (fun a b => do return (← a) + (← b)) = some n.subnodes.length := by
  intro n
  apply Node.rec (motive_1 := fun n => n.foldTree (some 1) (fun a b => do return (← a) + (← b)) = some n.subnodes.length)
    (motive_2 := fun cs => ∀ a : Nat, Node.foldTreeL (some 1) (fun a b => do return (← a) + (← b)) (some a) cs =
      some (a + (Node.subnodesL cs).length))
  · intro k cs l ih
    rw [Node.foldTree, ih, Node.subnodes, List.length_cons]
    congr 1; omega
  · intro a; rfl
  · intro c cs ih1 ih2 a
    rw [Node.foldTreeL, ih1, Node.subnodesL, List.length_append]
    show Node.foldTreeL _ _ (some (a + c.subnodes.length)) cs = _
    rw [ih2]
    congr 1; omega

/-- **C59.** For example, the visitor whose default result is 1 and which adds up results counts the nodes. -/
theorem C59_count (σ ε : Type) (n : Node) (s : σ) :
    visitNode (aggregator Nat σ ε (some 1) (fun a b => do return (← a) + (← b))) n s = (.ok (some n.subnodes.length), s) := by
  rw [C59_aggregate, foldTree_count]

/-- **C59.** Without overriding, `visitChildren` returns the result of the last child, `None` if there are no
children (provided no child's visit raises). -/
theorem C59_last_child {R σ ε : Type} (v : Visitor R σ ε) (node : Node) (results : List (Option R)) (cs : List Node)
    (s : σ) (h : ∀ (i : Nat) (c : Node) (r : Option R), cs[i]? = some c → results[i]? = some r →
      ∀ s, (visitNode v c s).1 = .ok r) (hl : results.length = cs.length) :
    (visitChildrenLoop {} node (acceptAll v cs) s).1 = .ok (results.getLast?.getD none) := by
  have key : ∀ (cs : List Node) (results : List (Option R)) (r0 : Option R) (s : σ),
      (∀ (i : Nat) (c : Node) (r : Option R), cs[i]? = some c → results[i]? = some r → ∀ s, (visitNode v c s).1 = .ok r) →
      results.length = cs.length →
      (visitLoop ({} : VisitorBase R σ ε) node r0 (acceptAll v cs) s).1 = .ok (results.getLast?.getD r0) := by
    intro cs
    induction cs with
    | nil => intro results r0 s _ hl; rw [List.length_eq_zero_iff.1 hl]; rfl
    | cons c cs ih =>
      intro results r0 s h hl
      rcases results with _ | ⟨r, rs⟩
      · simp at hl
      · have h0 := h 0 c r rfl rfl s
        rw [acceptAll, visitLoop]
        simp only [if_true]
        rcases hv : visitNode v c s with ⟨x, s'⟩
        rw [hv] at h0
        simp only at h0
        subst h0
        simp only
        rw [ih rs r s' (fun i c' r' hc hr => h (i + 1) c' r' (by simpa using hc) (by simpa using hr)) (by simpa using hl)]
        cases rs with
        | nil => rfl
        | cons a as => simp [List.getLast?_cons_cons, List.getLast?_cons]
  exact key cs results none s h hl

/-! ### Stopping early -/

/-- The first result of `f` in a list of nodes. -/
def firstFound {R : Type} (f : Node → Option R) (l : List Node) : Option R := l.findSome? f

/-- The nodes looked at: up to and including the first one with a result. -/
def lookedAt {R : Type} (f : Node → Option R) : List Node → List Node
  | [] => []
  | n :: ns => match f n with
    | some _ => [n]
    | none => n :: lookedAt f ns

/-- A search visitor: every handler (for the names in `handled`) records the node and returns a result if it has one,
else calls `visitChildren`; `shouldVisitNextChild` stops as soon as there is a result. -/
def searcher (R ε : Type) (handled : PyStr → Bool) (f : Node → Option R) : Visitor R (List Node) ε :=
  let base : VisitorBase R (List Node) ε := { shouldVisit := fun _ r log => (.ok r.isNone, log) }
  { base with
    method := fun name =>
      if handled name then some fun node accepts log =>
        match f node with
        | some r => (.ok (some r), log ++ [node])
        | none => visitChildrenLoop base node accepts (log ++ [node])
      else none }

theorem firstFound_append {R : Type} (f : Node → Option R) (a b : List Node) :
    firstFound f (a ++ b) = (firstFound f a).or (firstFound f b) := by
  rw [firstFound, List.findSome?_append]; rfl

theorem lookedAt_append {R : Type} (f : Node → Option R) (a b : List Node) :
    lookedAt f (a ++ b) = lookedAt f a ++ (if (firstFound f a).isNone then lookedAt f b else []) := by
  induction a with
  | nil => rfl
  | cons x a ih =>
    cases hx : f x with
    | some r => simp [lookedAt, firstFound, hx]
    | none =>
      have h1 : firstFound f (x :: a) = firstFound f a := by simp [firstFound, hx]
      rw [h1]
      simp [lookedAt, hx, ih]

/-- **C59.** A search visitor returns the first result in document order (parents before children, left to right)
and looks at no node after it. -/
theorem C59_search {R ε : Type} (handled : PyStr → Bool) (f : Node → Option R) (n : Node) (log : List Node) :
    visitNode (searcher R ε handled f) n log =
      (.ok (firstFound f (n.subnodes.filter fun m => handled (methodName m))),
        log ++ lookedAt f (n.subnodes.filter fun m => handled (methodName m))) := by
  revert log
  apply Node.rec (motive_1 := fun n => ∀ log, visitNode (searcher R ε handled f) n log =
      (.ok (firstFound f (n.subnodes.filter fun m => handled (methodName m))),
        log ++ lookedAt f (n.subnodes.filter fun m => handled (methodName m))))
    (motive_2 := fun cs => ∀ (node : Node) (r : Option R) (log : List Node),
      visitLoop (searcher R ε handled f).toVisitorBase node r (acceptAll (searcher R ε handled f) cs) log =
        (.ok (r.or (firstFound f ((Node.subnodesL cs).filter fun m => handled (methodName m)))),
          log ++ if r.isNone then lookedAt f ((Node.subnodesL cs).filter fun m => handled (methodName m)) else []))
  · intro k cs l ih log
    rw [visitNode, dispatch, Node.subnodes]
    by_cases hh : handled (methodName (.mk k cs l)) = true
    · rw [List.filter_cons_of_pos (by simpa using hh)]
      have hm : (searcher R ε handled f).method (methodName (.mk k cs l)) = some fun node accepts log =>
          match f node with
          | some r => (.ok (some r), log ++ [node])
          | none => visitChildrenLoop (searcher R ε handled f).toVisitorBase node accepts (log ++ [node]) := by
        simp only [searcher, hh, if_true]
      rw [hm]
      simp only [firstFound, List.findSome?_cons, lookedAt]
      cases hf : f (.mk k cs l) with
      | some r => rfl
      | none =>
        simp only
        have := ih (.mk k cs l) none (log ++ [.mk k cs l])
        simp only [Option.none_or, Option.isNone_none, if_true, firstFound] at this
        refine Eq.trans (?_ : _ = visitLoop (searcher R ε handled f).toVisitorBase _ none _ _) (this.trans ?_)
        · rfl
        · simp
    · rw [List.filter_cons_of_neg (by simpa using hh)]
      have hm : (searcher R ε handled f).method (methodName (.mk k cs l)) = none := by
        simp only [searcher, hh, Bool.false_eq_true, if_false]
      rw [hm]
      have := ih (.mk k cs l) none log
      refine Eq.trans (?_ : _ = visitLoop (searcher R ε handled f).toVisitorBase _ none _ _) (this.trans ?_)
      · rfl
      · simp
  · intro node r log
    simp [acceptAll, visitLoop, Node.subnodesL, firstFound, lookedAt]
  · intro c cs ih1 ih2 node r log
    rw [acceptAll, visitLoop, Node.subnodesL, List.filter_append, firstFound_append, lookedAt_append]
    cases r with
    | some r => simp [searcher]
    | none =>
      have hs : (searcher R ε handled f).shouldVisit node none log = (.ok true, log) := rfl
      rw [hs]
      simp only [ih1]
      have ha : ∀ a b s, (searcher R ε handled f).aggregate a b s = (.ok b, s) := fun _ _ _ => rfl
      rw [ha]
      simp only
      rw [ih2]
      simp

/-! ### The protocol between `visitChildren` and the hooks -/

/-- What a visitor sees of `visitChildren`: the calls of its methods. -/
inductive HookEvent (R : Type) where
  | start
  | ask (node : Node) (current : Option R)
  | visited (node : Node)
  | combine (current next : Option R)

/-- A visitor that records the calls of its methods; `shouldVisitNextChild` decides, or raises, by any rule whatever
depending on all that happened so far. -/
def recorder {R ε : Type} (d : Option R) (g : Option R → Option R → Option R) (f : Node → Option R)
    (ans : List (HookEvent R) → Except ε Bool) : Visitor R (List (HookEvent R)) ε :=
  { defaultResult := fun s => (.ok d, s ++ [.start])
    aggregate := fun a b s => (.ok (g a b), s ++ [.combine a b])
    shouldVisit := fun n r s => (ans s, s ++ [.ask n r])
    method := fun _ => some fun node _ s => (.ok (f node), s ++ [.visited node]) }

/-- The events when these children are visited: for each one, the question, the visit and the combination. -/
def protocol {R : Type} (g : Option R → Option R → Option R) (f : Node → Option R) (node : Node) :
    Option R → List Node → List (HookEvent R)
  | _, [] => []
  | r, c :: cs => .ask node r :: .visited c :: .combine r (f c) :: protocol g f node (g r (f c)) cs

/-- The result of combining the results of these children. -/
def combined {R : Type} (g : Option R → Option R → Option R) (f : Node → Option R) : Option R → List Node → Option R
  | r, [] => r
  | r, c :: cs => combined g f (g r (f c)) cs

/-- **C59.** `visitChildren` asks for the default result first, then visits children left to right: for each one it asks
`shouldVisitNextChild` (with the node and the result so far) once, visits the child once and combines the results. It
stops at the first refusal, returning the result so far, without asking again; it stops at the first exception; without
either, it visits all the children. -/
theorem C59_protocol {R ε : Type} (d : Option R) (g : Option R → Option R → Option R) (f : Node → Option R)
    (ans : List (HookEvent R) → Except ε Bool) (node : Node) (cs : List Node) (log : List (HookEvent R)) :
    ∃ done rest, cs = done ++ rest ∧
      (∀ pre c post, done = pre ++ c :: post → ans (log ++ [.start] ++ protocol g f node d pre) = .ok true) ∧
      visitChildrenLoop (recorder d g f ans).toVisitorBase node (acceptAll (recorder d g f ans) cs) log =
        (match rest with
        | [] => (.ok (combined g f d done), log ++ [.start] ++ protocol g f node d done)
        | _ :: _ => ((match ans (log ++ [.start] ++ protocol g f node d done) with
            | .error e => .error e
            | .ok _ => .ok (combined g f d done)),
          log ++ [.start] ++ protocol g f node d done ++ [.ask node (combined g f d done)])) ∧
      (rest ≠ [] → ans (log ++ [.start] ++ protocol g f node d done) ≠ .ok true) := by
  have key : ∀ (cs : List Node) (r : Option R) (log : List (HookEvent R)), ∃ done rest, cs = done ++ rest ∧
      (∀ pre c post, done = pre ++ c :: post → ans (log ++ protocol g f node r pre) = .ok true) ∧
      visitLoop (recorder d g f ans).toVisitorBase node r (acceptAll (recorder d g f ans) cs) log =
        (match rest with
        | [] => (.ok (combined g f r done), log ++ protocol g f node r done)
        | _ :: _ => ((match ans (log ++ protocol g f node r done) with
            | .error e => .error e
            | .ok _ => .ok (combined g f r done)),
          log ++ protocol g f node r done ++ [.ask node (combined g f r done)])) ∧
      (rest ≠ [] → ans (log ++ protocol g f node r done) ≠ .ok true) := by
    intro cs
    induction cs with
    | nil =>
      intro r log
      refine ⟨[], [], rfl, ?_, ?_, by simp⟩
      · intro pre c post h; simp at h
      · simp [acceptAll, visitLoop, protocol, combined]
    | cons c cs ih =>
      intro r log
      have hs : (recorder d g f ans).shouldVisit node r log = (ans log, log ++ [.ask node r]) := rfl
      have hv : ∀ s, visitNode (recorder d g f ans) c s = (.ok (f c), s ++ [.visited c]) := by
        intro s
        obtain ⟨k, ks, l⟩ := c
        rfl
      have ha : ∀ a b s, (recorder d g f ans).aggregate a b s = (.ok (g a b), s ++ [.combine a b]) := fun _ _ _ => rfl
      rw [acceptAll, visitLoop, hs]
      cases h : ans log with
      | error e =>
        refine ⟨[], c :: cs, rfl, ?_, ?_, ?_⟩
        · intro pre c post h; simp at h
        · simp [protocol, combined, h]
        · simp [protocol, h]
      | ok b =>
        cases b with
        | false =>
          refine ⟨[], c :: cs, rfl, ?_, ?_, ?_⟩
          · intro pre c post h; simp at h
          · simp [protocol, combined, h]
          · simp [protocol, h]
        | true =>
          obtain ⟨done, rest, e1, e2, e3, e4⟩ := ih (g r (f c)) (log ++ [.ask node r] ++ [.visited c] ++ [.combine r (f c)])
          refine ⟨c :: done, rest, by rw [e1]; rfl, ?_, ?_, ?_⟩
          · intro pre x post hx
            cases pre with
            | nil => simpa [protocol] using h
            | cons y pre =>
              simp only [List.cons_append, List.cons.injEq] at hx
              obtain ⟨rfl, hx⟩ := hx
              have := e2 pre x post hx
              simpa [protocol] using this
          · simp only [hv, ha]
            rw [e3]
            simp [protocol, combined]
          · intro hr
            have := e4 hr
            simpa [protocol] using this
  exact key cs d (log ++ [.start])

/-- The tree of `[a='b' & !c='d']`, without the segment. -/
def andNotTree : Node := .mk .and [.mk (.expression none py!"a" .EQUALS py!"b" none) [] none,
  .mk .not [.mk (.expression none py!"c" .EQUALS py!"d" none) [] none] none] none

example : (visitNode (aggregator Nat Unit Unit (some 1) (fun a b => do return (← a) + (← b))) andNotTree ()).1 = .ok (some 4) ∧
    (visitNode (searcher PyStr Unit (fun name => name = py!"visit_Expression") fun m => match m.kind with
      | .expression _ i _ _ _ => some i
      | _ => none) andNotTree []).1 = .ok (some py!"a") ∧
    (visitNode (searcher PyStr Unit (fun name => name = py!"visit_Expression") fun m => match m.kind with
      | .expression _ i _ _ _ => some i
      | _ => none) andNotTree []).2.length = 1 := by decide +kernel

-- a budget of one visit: the second child is refused
example : ∃ x y : Node, andNotTree.children = [x, y] ∧
    (visitChildrenLoop (recorder (R := Nat) (ε := Unit) (some 0) (fun a b => do return (← a) + (← b)) (fun _ => some 7)
      (fun log => .ok (log.length < 4))).toVisitorBase andNotTree (acceptAll (recorder (R := Nat) (ε := Unit) (some 0)
      (fun a b => do return (← a) + (← b)) (fun _ => some 7) (fun log => .ok (log.length < 4))) andNotTree.children) []) =
    (.ok (some 7), [.start, .ask andNotTree (some 0), .visited x, .combine (some 0) (some 7), .ask andNotTree (some 7)]) :=
  ⟨_, _, rfl, rfl⟩

end Fcsql
