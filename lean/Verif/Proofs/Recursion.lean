/-
The recursion limit.
-/
import Verif.Model.Recursion

set_option autoImplicit false
set_option linter.unusedSimpArgs false

namespace Fcsql

section
variable {ν σ : Type} (A : Alloc ν σ) (rt : PyRuntime) (cfg : Config)

mutual
theorem visitLim_enough : ∀ (t : PTree) (n : Nat), t.height ≤ n → ∀ s, visitLim A rt cfg t n s = visit A rt cfg t s
  | .leaf _, n, _, s => by simp [visitLim, visit]
  | .node r cs, n, h, s => by
    simp only [PTree.height] at h
    obtain ⟨m, rfl⟩ : ∃ m, n = m + 1 := ⟨n - 1, by omega⟩
    simp only [visitLim, visit]
    congr 1
    funext s
    exact visitChildrenLim_enough cs m (by omega) s
theorem visitChildrenLim_enough : ∀ (cs : List PTree) (n : Nat), PTree.heightL cs ≤ n → ∀ s, visitChildrenLim A rt cfg cs n s = visitChildren A rt cfg cs s
  | [], n, _, s => by simp [visitChildrenLim, visitChildren]
  | c :: cs, n, h, s => by
    simp only [PTree.heightL] at h
    simp only [visitChildrenLim, visitChildren]
    rw [visitLim_enough c n (by omega) s]
    cases visit A rt cfg c s with
    | error e => rfl
    | ok s => exact visitChildrenLim_enough cs n (by omega) s
end

/-- Same result, or a foreign exception. -/
def SameOr {α : Type} (x y : Except Exc α) : Prop := x = y ∨ x = .error .other

theorem SameOr.bind {α β : Type} {x y : Except Exc α} {f g : α → Except Exc β} (h : SameOr x y) (hf : ∀ a, SameOr (f a) (g a)) :
    SameOr (x >>= f) (y >>= g) := by
  rcases h with rfl | rfl
  · cases x with
    | error e => exact .inl rfl
    | ok a => exact hf a
  · exact .inr rfl

theorem SameOr.rfl' {α : Type} {x : Except Exc α} : SameOr x x := .inl rfl

theorem visitRule_sameOr (r : Rule) (cs : List PTree) {sub sub' : BState ν σ → Except Exc (BState ν σ)} (h : ∀ s, SameOr (sub s) (sub' s)) (s : BState ν σ) :
    SameOr (visitRule A rt cfg r cs sub s) (visitRule A rt cfg r cs sub' s) := by
  cases r <;> simp only [visitRule, visitQuery, collect, visitQueryGroup, visitQuerySimple, visitQueryImplicit, visitUnary] <;>
    first
    | exact h s
    | exact SameOr.bind (h _) fun _ => .rfl'
    | exact .rfl'
    | skip
  · unfold visitQuerySegment
    split
    · exact .rfl'
    · exact h s
  · unfold visitExpressionBasic
    simp only
    split
    · exact SameOr.bind .rfl' fun _ => SameOr.bind (h _) fun _ => .rfl'
    · split
      · exact SameOr.bind .rfl' fun _ => SameOr.bind (h _) fun _ => .rfl'
      · exact .inl rfl

mutual
theorem visitLim_sameOr : ∀ (t : PTree) (n : Nat) (s : BState ν σ), SameOr (visitLim A rt cfg t n s) (visit A rt cfg t s)
  | .leaf _, n, s => by simp only [visitLim, visit]; exact .rfl'
  | .node r cs, 0, s => .inr (by simp [visitLim])
  | .node r cs, n + 1, s => by
    simp only [visitLim, visit]
    exact visitRule_sameOr A rt cfg r cs (fun s => visitChildrenLim_sameOr cs n s) s
theorem visitChildrenLim_sameOr : ∀ (cs : List PTree) (n : Nat) (s : BState ν σ), SameOr (visitChildrenLim A rt cfg cs n s) (visitChildren A rt cfg cs s)
  | [], n, s => by simp only [visitChildrenLim, visitChildren]; exact .rfl'
  | c :: cs, n, s => by
    simp only [visitChildrenLim, visitChildren]
    exact SameOr.bind (visitLim_sameOr c n s) fun s => visitChildrenLim_sameOr cs n s
end

theorem buildLim_enough (h : σ) {t : PTree} {n : Nat} (hn : t.height ≤ n) : buildLimWith A rt cfg h t n = buildWith A rt cfg h t := by
  unfold buildLimWith buildWith
  rw [visitLim_enough A rt cfg t n hn]

theorem buildLim_sameOr (h : σ) (t : PTree) (n : Nat) : SameOr (buildLimWith A rt cfg h t n) (buildWith A rt cfg h t) := by
  unfold buildLimWith buildWith
  exact SameOr.bind (visitLim_sameOr A rt cfg t n _) fun _ => .rfl'
end

/-! ### Calls of rule functions -/

theorem heightL_append (f g : List PTree) : PTree.heightL (f ++ g) = max (PTree.heightL f) (PTree.heightL g) := by
  induction f with
  | nil => simp [PTree.heightL]
  | cons c f ih => simp only [List.cons_append, PTree.heightL, ih]; omega

theorem Res.prepend_ok_inv {f f' : List PTree} {r : Res} {ts : List Tok} (h : r.prepend f = .ok f' ts) : ∃ g, r = .ok g ts ∧ f' = f ++ g := by
  cases r with
  | ok g us => simp only [Res.prepend, Res.ok.injEq] at h; obtain ⟨rfl, rfl⟩ := h; exact ⟨g, rfl, rfl⟩
  | error => simp [Res.prepend] at h
  | timeout => simp [Res.prepend] at h

theorem execDepth_ok {P : Predictor} {prog : Rule → List Stmt} : ∀ (n : Nat) (ctx : List Nat) (ss : List Stmt) (ts : List Tok) (f : List PTree) (vs : List Tok),
    exec P prog n ctx ss ts = .ok f vs → execDepth P prog n ctx ss ts = ctx.length + PTree.heightL f
  | 0, ctx, ss, ts, f, vs, h => by simp [exec] at h
  | n + 1, ctx, [], ts, f, vs, h => by
    simp only [exec, Res.ok.injEq] at h
    obtain ⟨rfl, rfl⟩ := h
    simp [execDepth, PTree.heightL]
  | n + 1, ctx, s :: ss, ts, f, vs, h => by
    cases s with
    | sync st =>
      simp only [exec] at h
      simp only [execDepth]
      split at h
      · next hs => rw [if_pos hs]; exact execDepth_ok n ctx ss ts f vs h
      · simp at h
    | matchTok st k =>
      cases ts with
      | nil => simp [exec] at h
      | cons x xs =>
        simp only [exec] at h
        simp only [execDepth]
        split at h
        · next hs =>
          obtain ⟨g, h1, rfl⟩ := Res.prepend_ok_inv h
          rw [if_pos hs, execDepth_ok n ctx ss xs g vs h1]
          simp [PTree.heightL, PTree.height]
        · simp at h
    | matchSet st k =>
      cases ts with
      | nil => simp [exec] at h
      | cons x xs =>
        simp only [exec] at h
        simp only [execDepth]
        split at h
        · next hs =>
          obtain ⟨g, h1, rfl⟩ := Res.prepend_ok_inv h
          rw [if_pos hs, execDepth_ok n ctx ss xs g vs h1]
          simp [PTree.heightL, PTree.height]
        · simp at h
    | call st r =>
      simp only [exec] at h
      simp only [execDepth]
      cases hc : exec P prog n (st :: ctx) (prog r) ts with
      | ok f1 ts' =>
        rw [hc] at h
        obtain ⟨g, h1, rfl⟩ := Res.prepend_ok_inv h
        simp only
        rw [execDepth_ok n _ _ _ f1 ts' hc, execDepth_ok n _ _ _ g vs h1]
        simp only [List.length_cons, List.cons_append, List.nil_append, PTree.heightL, PTree.height]
        omega
      | error => rw [hc] at h; simp at h
      | timeout => rw [hc] at h; simp at h
    | predict d bs =>
      simp only [exec] at h
      simp only [execDepth]
      split at h
      · simp at h
      · next hp => rw [hp]; exact execDepth_ok n ctx _ ts f vs h
    | switchLA cs =>
      simp only [exec] at h
      simp only [execDepth]
      split at h
      · simp at h
      · next hp => rw [hp]; exact execDepth_ok n ctx _ ts f vs h
    | ifLA t b => simp only [exec] at h; simp only [execDepth]; exact execDepth_ok n ctx _ ts f vs h
    | whileLA b st t => simp only [exec] at h; simp only [execDepth]; exact execDepth_ok n ctx _ ts f vs h
    | whilePredict b st d => simp only [exec] at h; simp only [execDepth]; exact execDepth_ok n ctx _ ts f vs h
    | loopPredict b st d =>
      simp only [exec] at h
      simp only [execDepth]
      split at h
      · simp at h
      · next hp =>
        rw [hp]
        simp only
        split at h
        · next hs => rw [if_pos hs]; exact execDepth_ok n ctx _ ts f vs h
        · next hs =>
          rw [if_neg hs]
          split at h
          · next hs2 => rw [if_pos hs2]; exact execDepth_ok n ctx _ ts f vs h
          · simp at h

end Fcsql
