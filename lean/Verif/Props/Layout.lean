/-
C08, C49: whitespace and the layout of a query.
-/
import Verif.Proofs.Relabel
import Verif.Props.Settings

set_option autoImplicit false
set_option linter.unusedSimpArgs false

namespace Fcsql

attribute [local irreducible] parseQuery

/-! ### C49 -/

/-- **C49.** A query has no lexical error, and its tokens have the given types and texts, exactly if it consists
of these tokens, in order, with whitespace around them where tokens would stick together. -/
theorem C49_layout (ts : List (TokType × PyStr)) (q : PyStr) :
    Laid ts q ↔ lexErrors q = [] ∧ (lexTokens q).map (fun t => (t.type, t.text)) = ts := laid_iff ts q

/-- **C49.** The type of a token is determined by its text. -/
theorem C49_type_unique {ty ty' : TokType} {w : PyStr} (h : TokenText ty w) (h' : TokenText ty' w) : ty = ty' :=
  h.type_unique h'

example : Laid [(.NOT, py!"!"), (.IDENTIFIER, py!"x-1"), (.OPERATOR_EQ, py!"="), (.REGEXP, py!"'a b'")] py!" ! x-1='a b' " :=
  (C49_layout _ _).2 ⟨by decide +kernel, by decide +kernel⟩

example : ¬ Laid [(.NOT, py!"!"), (.OPERATOR_EQ, py!"=")] py!"!=" := by
  rw [C49_layout]; decide +kernel

/-! ### C08 -/

/-- **C08.** If two strings consist of the same tokens, laid out differently, then (without source locations)
they parse to the same tree or both fail. -/
theorem C08_layout (rt : Runtime) (cfg : Config) (hc : cfg.enableSourceLocations = false)
    (ts : List (TokType × PyStr)) (q q' : PyStr) (h : Laid ts q) (h' : Laid ts q') (n : Node) :
    (parseQuery rt cfg q).1 = .ok n ↔ (parseQuery rt cfg q').1 = .ok n := by
  obtain ⟨h1, h2⟩ := (laid_iff ts q).1 h
  obtain ⟨h1', h2'⟩ := (laid_iff ts q').1 h'
  rw [parse_ok_bare rt hc, parse_ok_bare rt hc, bareStream_eq, bareStream_eq, h1, h2, h1', h2']

/-- **C08.** With any settings: the trees are the same except for source locations. -/
theorem C08_unlocated (rt : Runtime) (cfg : Config)
    (ts : List (TokType × PyStr)) (q q' : PyStr) (h : Laid ts q) (h' : Laid ts q') (n : Node)
    (hn : (parseQuery rt cfg q).1 = .ok n) :
    ∃ n', (parseQuery rt cfg q').1 = .ok n' ∧ n'.unlocated = n.unlocated := by
  obtain ⟨m, h1, h2⟩ := C24_same_tree rt cfg false q n hn
  obtain ⟨m', h3, h4⟩ := C24_same_tree rt { cfg with enableSourceLocations := false } cfg.enableSourceLocations q' m
    ((C08_layout rt _ rfl ts q q' h h' m).1 h1)
  exact ⟨m', h3, h4.trans h2⟩

theorem not_sticks_ws {ty : TokType} {c : Nat} (h : isWs c = true) : ¬ Sticks ty c := by
  have : isAlnum c = false ∧ isDigit c = false ∧ c ≠ 45 ∧ c ≠ 61 := by
    simp only [isWs_eq, wsRanges, inRanges, Bool.or_eq_true, Bool.and_eq_true, decide_eq_true_eq, Bool.or_false] at h
    simp only [isAlnum, isLetter, isDigit, Bool.or_eq_false_iff, Bool.and_eq_false_iff, decide_eq_false_iff_not]
    omega
  cases ty <;> simp [Sticks, this]

/-- Tokens with non-empty whitespace between them are laid out. -/
theorem laid_interleave : ∀ (ts : List (TokType × PyStr)), (∀ p ∈ ts, TokenText p.1 p.2) →
    ∀ gaps, GapsFor ts.length gaps → Laid ts (interleave gaps (ts.map Prod.snd))
  | [], _, gaps, hg => by
    obtain ⟨h1, h2, -⟩ := hg
    match gaps, h1 with
    | [g], _ => exact .nil (h2 g (by simp))
  | (ty, w) :: ts, ht, gaps, hg => by
    obtain ⟨h1, h2, h3⟩ := hg
    match gaps, h1 with
    | g :: gs, h1 =>
      have hgs : GapsFor ts.length gs := by
        refine ⟨by simpa using h1, fun x hx => h2 x (by simp [hx]), ?_⟩
        intro i hi1 hi2
        have := h3 (i + 1) (by omega) (by simp; omega)
        simpa using this
      refine .cons (h2 g (by simp)) (ht (ty, w) (by simp)) (laid_interleave ts (fun p hp => ht p (by simp [hp])) gs hgs) ?_
      intro c hc
      match gs, hgs.count with
      | g' :: gs', hcnt =>
        refine not_sticks_ws (h2 g' (by simp) c ?_)
        cases ts with
        | nil =>
          simp only [List.map_nil, interleave] at hc
          exact List.mem_of_mem_head? hc
        | cons p ts =>
          have hne : g' ≠ [] := by
            have := h3 1 (by omega) (by simp)
            simpa using this
          cases g' with
          | nil => exact absurd rfl hne
          | cons a g' =>
            simp only [List.map_cons, interleave, List.cons_append, List.head?_cons, Option.some.injEq] at hc
            simp [hc]

/-- **C08.** The same tokens separated and surrounded by arbitrary (between tokens non-empty) runs of whitespace
parse to the same tree, or fail, whatever the whitespace. -/
theorem C08_whitespace_irrelevant (rt : Runtime) (cfg : Config) (hc : cfg.enableSourceLocations = false)
    (ts : List (TokType × PyStr)) (ht : ∀ p ∈ ts, TokenText p.1 p.2) (gaps gaps' : List PyStr)
    (hg : GapsFor ts.length gaps) (hg' : GapsFor ts.length gaps') (n : Node) :
    (parseQuery rt cfg (interleave gaps (ts.map Prod.snd))).1 = .ok n ↔
    (parseQuery rt cfg (interleave gaps' (ts.map Prod.snd))).1 = .ok n :=
  C08_layout rt cfg hc ts _ _ (laid_interleave ts ht gaps hg) (laid_interleave ts ht gaps' hg') n

/-- Two layouts of the same query. -/
example : ∃ ts, Laid ts py!"[x='a'&!y!='b']+'c'" ∧ Laid ts py!" [ x = 'a' & ! y != 'b' ] + 'c'" ∧
    (parseQuery rt0 defaultConfig py!"[x='a'&!y!='b']+'c'").1 = .ok (.mk .sequence
      [.mk (.segment 1 (-1)) [.mk .and [.mk (.expression none py!"x" .EQUALS py!"a" none) [] none,
          .mk .not [.mk (.expression none py!"y" .NOT_EQUALS py!"b" none) [] none] none] none] none,
       .mk (.segment 1 1) [.mk (.expression none py!"text" .EQUALS py!"c" none) [] none] none] none) := by
  refine ⟨(lexTokens py!"[x='a'&!y!='b']+'c'").map Tok.what, (laid_iff _ _).2 ⟨by decide +kernel, rfl⟩,
    (laid_iff _ _).2 ⟨by decide +kernel, by decide +kernel⟩, by decide +kernel⟩

example : GapsFor 2 [[], [32, 10], [8195]] :=
  ⟨rfl, by simp [isWs_eq, wsRanges, inRanges], by
    intro i h1 h2
    obtain rfl : i = 1 := by omega
    simp⟩

end Fcsql
