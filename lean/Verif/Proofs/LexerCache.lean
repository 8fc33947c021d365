/-
The shared state does not change what the runtime's lexer does.
-/
import Verif.Spec.LexerSim

set_option autoImplicit false
set_option linter.unusedSimpArgs false

namespace Fcsql

/-- The computation with shared state has the same result, and leaves the shared state right. -/
def AgreesC {α : Type} (A : Atn) (m : Nat) (x : Option (α × LexDfa)) (y : Option α) : Prop :=
  x.map (·.1) = y ∧ ∀ r, x = some r → r.2.Right A m

section
variable {A : Atn} {m : Nat} {env : LexOthers}

theorem AgreesC.none {α : Type} : AgreesC (α := α) A m none none := ⟨rfl, by simp⟩

theorem AgreesC.some {α : Type} {a : α} {d : LexDfa} (h : d.Right A m) : AgreesC A m (some (a, d)) (some a) :=
  ⟨rfl, by rintro r hr; cases hr; exact h⟩

/-- Going on from two results that agree. -/
theorem AgreesC.cases {α : Type} {x : Option (α × LexDfa)} {y : Option α} (h : AgreesC A m x y) :
    (x = .none ∧ y = .none) ∨ ∃ a d, x = .some (a, d) ∧ y = .some a ∧ d.Right A m := by
  obtain ⟨h1, h2⟩ := h
  cases x with
  | none => exact .inl ⟨rfl, h1.symm⟩
  | some r => exact .inr ⟨r.1, r.2, rfl, h1.symm, h2 r rfl⟩

theorem LexDfa.Right.next {d : LexDfa} (hd : d.Right A m) (he : env.Fair A m) : (d.next env).Right A m :=
  he _ _ hd

theorem startC_agrees (he : env.Fair A m) {mode : Nat} {rest : List Nat} (hm : A.modes = mode :: rest) {d : LexDfa} (hd : d.Right A m) :
    AgreesC A m (startC A m mode env d) (A.lexStart m mode) := by
  have h1 := hd.next he
  unfold startC
  simp only
  cases hs : (d.next env).s0 with
  | some cs =>
    obtain ⟨p, ps, hp, hc⟩ := h1.1 cs hs
    rw [hm] at hp
    cases hp
    rw [hc]
    exact .some h1
  | none =>
    simp only
    cases hc : A.lexStart m mode with
    | none => exact .none
    | some cs =>
      refine .some ⟨?_, (h1.next he).2⟩
      intro cs' hcs
      simp only [Option.some.injEq] at hcs
      exact ⟨mode, rest, hm, by rw [hc, hcs]⟩

theorem reachC_agrees (he : env.Fair A m) {cs : List LConf} {k : Int} {d : LexDfa} (hd : d.Right A m) :
    AgreesC A m (reachC A m cs k env d) (A.lexReach m cs k) := by
  have h1 := hd.next he
  unfold reachC
  split
  · simp only
    cases hf : (d.next env).edges.find? fun e => e.1 = (cs, k) with
    | some e =>
      have hk := List.find?_some hf
      simp only [decide_eq_true_eq] at hk
      have := h1.2 e (List.mem_of_find?_eq_some hf)
      rw [hk] at this
      rw [this]
      exact .some h1
    | none =>
      simp only
      cases hc : A.lexReach m cs k with
      | none => exact .none
      | some cs' =>
        refine .some ⟨(h1.next he).1, ?_⟩
        intro e hmem
        simp only [List.mem_cons] at hmem
        rcases hmem with rfl | hmem
        · exact hc
        · exact (h1.next he).2 e hmem
  · cases hc : A.lexReach m cs k with
    | none => exact .none
    | some cs' => exact .some hd

theorem lexExecC_agrees (he : env.Fair A m) (q : PyStr) (n : Nat) : ∀ {cs : List LConf} {prev : Option SimState} {p : LexPos} {d : LexDfa},
    d.Right A m → AgreesC A m (lexExecC A m q env n cs prev p d) (lexExec A m q n cs prev p) := by
  induction n with
  | zero => intro cs prev p d _; exact .none
  | succ n ih =>
    intro cs prev p d hd
    unfold lexExecC lexExec
    rcases (reachC_agrees he (cs := cs) (k := inputLA q p.index) hd).cases with ⟨h1, h2⟩ | ⟨a, d', h1, h2, h3⟩
    · rw [h1, h2]; exact .none
    · rw [h1, h2]
      cases a with
      | nil => exact .some h3
      | cons c cs' =>
        simp only
        split
        · exact .some h3
        · exact ih h3

theorem lexMatchC_agrees (he : env.Fair A m) (q : PyStr) {p : LexPos} {d : LexDfa} (hd : d.Right A m) :
    AgreesC A m (lexMatchC A m q env p d) (lexMatch A m q p) := by
  unfold lexMatchC lexMatch
  cases hm : A.modes with
  | nil => exact .none
  | cons mode rest =>
    simp only
    rcases (startC_agrees he hm hd).cases with ⟨h1, h2⟩ | ⟨s0, d', h1, h2, h3⟩
    · rw [h1, h2]; exact .none
    · rw [h1, h2]
      simp only
      rcases (lexExecC_agrees he q (q.length + 1) (cs := s0) (prev := capture A p s0 none) (p := p) h3).cases with ⟨h4, h5⟩ | ⟨r, d'', h4, h5, h6⟩
      · rw [h4, h5]; exact .none
      · rw [h4, h5]
        obtain ⟨o, e⟩ := r
        cases o with
        | some st => exact .some h6
        | none =>
          simp only
          split
          · exact .some h6
          · exact .some h6

theorem lexNextTokenC_agrees (he : env.Fair A m) (q : PyStr) (n : Nat) : ∀ {lx : LexObj} {d : LexDfa}, d.Right A m →
    AgreesC A m (lexNextTokenC A m q env n lx d) (lexNextToken A m q n lx) := by
  induction n with
  | zero => intro lx d _; exact .none
  | succ n ih =>
    intro lx d hd
    unfold lexNextTokenC lexNextToken
    split
    · exact .some hd
    · rcases (lexMatchC_agrees he q (p := lx.pos) hd).cases with ⟨h1, h2⟩ | ⟨r, d', h1, h2, h3⟩
      · rw [h1, h2]; exact .none
      · rw [h1, h2]
        cases r with
        | failed e =>
          simp only
          rcases (ih (lx := { pos := if inputLA q e.index ≠ -1 then e.consume q else e, hitEOF := inputLA q (if inputLA q e.index ≠ -1 then e.consume q else e).index = -1 }) h3).cases with ⟨h4, h5⟩ | ⟨r, d'', h4, h5, h6⟩
          · rw [h4, h5]; exact .none
          · rw [h4, h5]; exact .some h6
        | accepted ttype set p =>
          cases set with
          | some t =>
            simp only
            split
            · exact ih h3
            · exact .some h3
          | none =>
            simp only
            split
            · exact ih h3
            · exact .some h3

theorem lexFillC_agrees (he : env.Fair A m) (q : PyStr) (n : Nat) : ∀ {lx : LexObj} {d : LexDfa}, d.Right A m →
    AgreesC A m (lexFillC A m q env n lx d) (lexFill A m q n lx) := by
  induction n with
  | zero => intro lx d _; exact .none
  | succ n ih =>
    intro lx d hd
    unfold lexFillC lexFill
    rcases (lexNextTokenC_agrees he q (q.length + 1) (lx := lx) hd).cases with ⟨h1, h2⟩ | ⟨⟨rs, t, lx'⟩, d', h1, h2, h3⟩
    · rw [h1, h2]; exact .none
    · rw [h1, h2]
      simp only
      split
      · exact .some h3
      · rcases (ih (lx := lx') h3).cases with ⟨h4, h5⟩ | ⟨r, d'', h4, h5, h6⟩
        · rw [h4, h5]; exact .none
        · rw [h4, h5]; exact .some h6

theorem runLexerC_agrees (he : env.Fair A m) (q : PyStr) {d : LexDfa} (hd : d.Right A m) :
    AgreesC A m (runLexerC A m q env d) (runLexer A m q) := lexFillC_agrees he q _ hd

end

end Fcsql
