/-
Writing literals, flags and quantifiers; expressions that differ only in the texts of their tokens.
-/
import Verif.Spec.Print
import Verif.Proofs.Str
import Verif.Props.Precedence

set_option autoImplicit false
set_option linter.unusedSimpArgs false

namespace Fcsql

/-! ### Literals -/

def quotePieces (q : Nat) (s : PyStr) : List LitPiece := s.map fun c => if c = 92 ∨ c = q then .esc c else .plain c

theorem isLit_quote {q : Nat} (hq : q = 34 ∨ q = 39) {s : PyStr} (hs : ValidStr s) : IsLit (quoteStr q s) q (quotePieces q s) := by
  refine ⟨hq, ?_, ?_⟩
  · intro p hp
    obtain ⟨c, hc, rfl⟩ := List.mem_map.1 hp
    have := hs c hc
    by_cases h : c = 92 ∨ c = q
    · rw [if_pos h]
      show c ∈ escapeChars
      rcases h with rfl | rfl
      · decide
      · rcases hq with rfl | rfl <;> decide
    · rw [if_neg h]
      exact ⟨this, fun e => h (.inr e), fun e => h (.inl e)⟩
  · simp only [quoteStr, litText, quotePieces, List.flatMap_map]
    congr 3
    funext c
    by_cases h : c = 92 ∨ c = q
    · rw [if_pos h, if_pos h]; rfl
    · rw [if_neg h, if_neg h]; rfl

theorem piecesValue_quote {q : Nat} (hq : q = 34 ∨ q = 39) (s : PyStr) : piecesValue (quotePieces q s) = some s := by
  induction s with
  | nil => rfl
  | cons c s ih =>
    have : (if c = 92 ∨ c = q then LitPiece.esc c else .plain c).value = some [c] := by
      by_cases h : c = 92 ∨ c = q
      · rw [if_pos h]
        rcases h with rfl | rfl
        · rfl
        · rcases hq with rfl | rfl <;> rfl
      · rw [if_neg h]; rfl
    have ih : piecesValue (List.map (fun c => if c = 92 ∨ c = q then LitPiece.esc c else .plain c) s) = some s := ih
    simp only [quotePieces, List.map_cons, piecesValue, this, ih]
    rfl

theorem litValue_quote {q : Nat} (hq : q = 34 ∨ q = 39) {s : PyStr} (hs : ValidStr s) : LitValue (quoteStr q s) s :=
  ⟨q, _, isLit_quote hq hs, piecesValue_quote hq s⟩

theorem tokenText_quote {q : Nat} (hq : q = 34 ∨ q = 39) {s : PyStr} (hs : ValidStr s) : TokenText .REGEXP (quoteStr q s) :=
  .literal (isLit_quote hq hs)

/-- A decoded literal consists of code points. -/
theorem litValue_valid {t v : PyStr} (h : LitValue t v) : ValidStr v := by
  obtain ⟨q, ps, ⟨hq, hw, -⟩, hv⟩ := h
  clear t
  induction ps generalizing v with
  | nil => simp [piecesValue] at hv; subst hv; simp [ValidStr]
  | cons p ps ih =>
    simp only [piecesValue] at hv
    split at hv
    · rename_i a b ha hb
      simp only [Option.some.injEq] at hv
      subst hv
      have h2 := ih hb (fun p' h => hw p' (by simp [h]))
      have h1 : ValidStr a := by
        have hp := hw p (by simp)
        cases p with
        | plain c => simp [LitPiece.value] at ha; subst ha; intro x hx; simp at hx; subst hx; exact hp.1
        | esc c =>
          have hp : c ∈ escapeChars := hp
          have : ∀ c ∈ escapeChars, c < 0x110000 := by decide
          have := this c hp
          simp only [LitPiece.value] at ha
          split at ha
          · simp at ha; subst ha; intro x hx; simp at hx; omega
          · split at ha
            · simp at ha; subst ha; intro x hx; simp at hx; omega
            · split at ha
              · simp at ha; subst ha; intro x hx; simp at hx; omega
              · split at ha
                · simp at ha; subst ha; intro x hx; simp at hx; omega
                · cases ha
        | hex l ds =>
          simp only [LitPiece.value] at ha
          split at ha
          · simp at ha; subst ha; intro x hx; simp at hx; omega
          · cases ha
      intro x hx
      rcases List.mem_append.1 hx with h | h
      · exact h1 x h
      · exact h2 x h
    · cases hv

/-! ### Flags -/

theorem flagsText_mem {fs : FlagSet} {c : Nat} : c ∈ flagsText fs ↔ (c = 105 ∧ fs.ci = true) ∨ (c = 73 ∧ fs.cs = true) ∨
    (c = 108 ∧ fs.lit = true) ∨ (c = 100 ∧ fs.dia = true) := by
  obtain ⟨a, b, l, d⟩ := fs
  cases a <;> cases b <;> cases l <;> cases d <;> simp [flagsText, FlagSet.has]

theorem flagsNamed_text (fs : FlagSet) : FlagsNamed (flagsText fs) fs := by
  intro f
  constructor
  · intro h
    cases f
    · exact ⟨_, flagsText_mem.2 (.inl ⟨rfl, h⟩), .i⟩
    · exact ⟨_, flagsText_mem.2 (.inr (.inl ⟨rfl, h⟩)), .I⟩
    · exact ⟨_, flagsText_mem.2 (.inr (.inr (.inl ⟨rfl, h⟩))), .l⟩
    · exact ⟨_, flagsText_mem.2 (.inr (.inr (.inr ⟨rfl, h⟩))), .d⟩
  · rintro ⟨c, h, hn⟩
    rcases flagsText_mem.1 h with ⟨rfl, g⟩ | ⟨rfl, g⟩ | ⟨rfl, g⟩ | ⟨rfl, g⟩ <;> cases hn <;> exact g

theorem isFlags_text {fs : FlagSet} (h : fs.isEmpty = false) : IsFlags (flagsText fs) := by
  constructor
  · obtain ⟨a, b, l, d⟩ := fs
    revert h
    cases a <;> cases b <;> cases l <;> cases d <;> simp [FlagSet.isEmpty, flagsText, FlagSet.has]
  · intro c hc
    rcases flagsText_mem.1 hc with ⟨rfl, -⟩ | ⟨rfl, -⟩ | ⟨rfl, -⟩ | ⟨rfl, -⟩ <;> decide

theorem flags_nonempty {w : PyStr} (hw : IsFlags w) {fs : FlagSet} (h : FlagsNamed w fs) : fs.isEmpty = false := by
  obtain ⟨h1, h2⟩ := hw
  cases w with
  | nil => exact absurd rfl h1
  | cons c w =>
    have hc := h2 c (by simp)
    have hf : ∃ f, Names c f := by
      have hc : c = 105 ∨ c = 73 ∨ c = 99 ∨ c = 67 ∨ c = 108 ∨ c = 100 := by simpa using hc
      rcases hc with rfl | rfl | rfl | rfl | rfl | rfl
      · exact ⟨_, .i⟩
      · exact ⟨_, .I⟩
      · exact ⟨_, .c⟩
      · exact ⟨_, .C⟩
      · exact ⟨_, .l⟩
      · exact ⟨_, .d⟩
    obtain ⟨f, hf⟩ := hf
    have := (h f).2 ⟨c, by simp, hf⟩
    revert this
    cases f <;> simp [FlagSet.has, FlagSet.isEmpty] <;> intro h <;> simp [h]

/-! ### Quantifiers -/

theorem isInt_text {rt : PyRuntime} {n : Int} (h : Writable rt n) : IsInt rt (intStr n) n := by
  obtain ⟨h0, h1⟩ := h
  have e : intStr n = decStr n.natAbs := if_neg (by omega)
  obtain ⟨k1, k2⟩ := decStr_spec n.natAbs
  refine ⟨?_, ?_, h1, ?_⟩
  · intro e2
    rw [e] at e2
    have := decStr_inj (n := n.natAbs) (m := n.natAbs) rfl
    have k : decStr n.natAbs ≠ [] := by
      unfold decStr
      generalize n.natAbs = k
      have : ∀ fuel k acc, k < fuel → decDigitsAux fuel k acc ≠ [] := by
        intro fuel
        induction fuel with
        | zero => intro k acc h; omega
        | succ f ih =>
          intro k acc h
          unfold decDigitsAux
          split
          · simp
          · exact ih _ _ (by omega)
      exact this _ _ _ (by omega)
    exact k e2
  · rw [e, List.all_eq_true]
    intro c hc
    have := k1 c hc
    simp [isDigit, this]
  · rw [e, ← decValue_eq, k2]; omega

theorem boundsText_spec {rt : PyRuntime} {mn mx : Int} (h : GoodBounds rt mn mx) :
    (boundsText mn mx = [] ∧ mn = 1 ∧ mx = 1) ∨ QuantText rt (boundsText mn mx) mn mx := by
  unfold boundsText
  by_cases h1 : mn = 1 ∧ mx = 1
  · exact .inl ⟨if_pos h1, h1⟩
  rw [if_neg h1]
  right
  by_cases h2 : mn = 0 ∧ mx = -1
  · rw [if_pos h2, h2.1, h2.2]; exact .star
  rw [if_neg h2]
  by_cases h3 : mn = 1 ∧ mx = -1
  · rw [if_pos h3, h3.1, h3.2]; exact .plus
  rw [if_neg h3]
  by_cases h4 : mn = 0 ∧ mx = 1
  · rw [if_pos h4, h4.1, h4.2]; exact .opt
  rw [if_neg h4]
  have h : (Writable rt mn ∧ mx = -1) ∨ (Writable rt mn ∧ Writable rt mx ∧ mn ≤ mx) := by
    rcases h with h | h
    · simp at h; omega
    · exact h
  by_cases h5 : mx = -1
  · rw [if_pos h5, h5]
    exact .atLeast (isInt_text (by rcases h with h | h <;> exact h.1))
  · rw [if_neg h5]
    rcases h with h | h
    · exact absurd h.2 h5
    · exact .between (isInt_text h.1) (isInt_text h.2.1) h.2.2

theorem decDigitsAux_length : ∀ (k fuel n : Nat) (acc : PyStr), n < fuel → n < 10 ^ (k + 1) →
    (decDigitsAux fuel n acc).length ≤ k + 1 + acc.length
  | k, 0, n, acc, h, _ => absurd h (by omega)
  | 0, fuel + 1, n, acc, h, hn => by
    unfold decDigitsAux
    rw [if_pos (by simpa using hn)]
    simp; omega
  | k + 1, fuel + 1, n, acc, h, hn => by
    unfold decDigitsAux
    split
    · simp; omega
    · have := decDigitsAux_length k fuel (n / 10) ((48 + n % 10) :: acc) (by omega) (by rw [Nat.pow_succ] at hn; omega)
      simp at this ⊢; omega

theorem foldl_dec_lt (s : PyStr) (hd : s.all isDigit = true) : ∀ a : Nat, s.foldl (fun a c => a * 10 + (c - 48)) a < (a + 1) * 10 ^ s.length := by
  induction s with
  | nil => intro a; simp
  | cons c s ih =>
    intro a
    simp only [List.all_cons, Bool.and_eq_true] at hd
    have hc : c - 48 ≤ 9 := by have := hd.1; simp [isDigit] at this; omega
    have := ih hd.2 (a * 10 + (c - 48))
    simp only [List.foldl_cons, List.length_cons, Nat.pow_succ]
    refine Nat.lt_of_lt_of_le this ?_
    calc (a * 10 + (c - 48) + 1) * 10 ^ s.length ≤ ((a + 1) * 10) * 10 ^ s.length := Nat.mul_le_mul_right _ (by omega)
      _ = (a + 1) * (10 ^ s.length * 10) := by rw [Nat.mul_assoc, Nat.mul_comm 10]

theorem decStr_shortest {s : PyStr} (hs : s ≠ []) (hd : s.all isDigit = true) : (decStr (decValue s)).length ≤ s.length := by
  have h := foldl_dec_lt s hd 0
  cases s with
  | nil => exact absurd rfl hs
  | cons c s => simpa [decStr] using decDigitsAux_length s.length (decValue (c :: s) + 1) (decValue (c :: s)) [] (by omega) (by simpa [decValue] using h)

/-- The number a digit string stands for can be written. -/
theorem writable_of_isInt {rt : PyRuntime} {x : PyStr} {n : Int} (h : IsInt rt x n) : Writable rt n := by
  obtain ⟨h1, h2, h3, rfl⟩ := h
  refine ⟨by omega, ?_⟩
  have e : intStr (decValue x : Int) = decStr (decValue x) := if_neg (by omega)
  rcases h3 with h3 | h3
  · exact .inl h3
  · right
    rw [← decValue_eq, e]
    exact Nat.le_trans (decStr_shortest h1 h2) h3

/-! ### Relabelling types only -/

/-- Only the type of a token. -/
def Tok.ty (t : Tok) : Tok := ⟨t.type, [], 0, 0⟩

mutual
theorem PTree.same_shape {f : Tok → Tok} : ∀ (a b : PTree), a.map f = b.map f → a.leaves = b.leaves → a = b
  | .leaf s, .leaf t, _, h => by simpa [PTree.leaves] using h
  | .leaf s, .node r ks, h, _ => by simp [PTree.map] at h
  | .node r ks, .leaf t, h, _ => by simp [PTree.map] at h
  | .node r ks, .node r' ks', h, h' => by
    simp only [PTree.map, PTree.node.injEq] at h
    simp only [PTree.leaves] at h'
    rw [h.1, PTree.same_shapeL ks ks' h.2 h']
theorem PTree.same_shapeL {f : Tok → Tok} : ∀ (a b : List PTree), PTree.mapL f a = PTree.mapL f b → PTree.leavesL a = PTree.leavesL b → a = b
  | [], [], _, _ => rfl
  | [], b :: bs, h, _ => by simp [PTree.mapL] at h
  | a :: as, [], h, _ => by simp [PTree.mapL] at h
  | a :: as, b :: bs, h, h' => by
    simp only [PTree.mapL, List.cons.injEq] at h
    simp only [PTree.leavesL] at h'
    have hlen : a.leaves.length = b.leaves.length := by
      have := congrArg (fun t => t.leaves.length) h.1
      simpa [PTree.leaves_map] using this
    obtain ⟨e1, e2⟩ := List.append_inj h' hlen
    rw [PTree.same_shape a b h.1 e1, PTree.same_shapeL as bs h.2 e2]
end

/-- Whether an expression is the reading of its tokens depends on the types of the tokens only. -/
theorem CExpr.best_of_types {e e' : CExpr} (h : e.toTree.map Tok.ty = e'.toTree.map Tok.ty) (hb : e.Best) : e'.Best := by
  have hty : ∀ t : Tok, t.ty.type = t.type := fun _ => rfl
  obtain ⟨d, hd⟩ := hb
  have hm := hd.map hty
  have hl : e.lv.map Tok.ty = e'.lv.map Tok.ty := by
    have := congrArg PTree.leaves h
    simpa [PTree.leaves_map, CExpr.lv] using this
  have ht : PTree.mapL Tok.ty [.node .expression [e.toTree]] = PTree.mapL Tok.ty [.node .expression [e'.toTree]] := by
    simp [PTree.mapL, PTree.map, h]
  rw [hl, ht] at hm
  obtain ⟨F, h1, h2⟩ := hm.derives.unmap hty e'.lv rfl
  have hF : [.node .expression [e'.toTree]] = F := by
    refine PTree.same_shapeL _ _ h2 ?_
    rw [leavesL_of_D h1]
    simp [PTree.leavesL, PTree.leaves, CExpr.lv]
  subst hF
  refine ⟨d, h1, ?_⟩
  intro F' c' h'
  rcases hm.first _ _ (h'.map hty) with ⟨-, rfl⟩ | hlt
  · left
    exact ⟨(D_unique h' h1 (x := []) (y := []) (r := []) (r' := []) rfl rfl).2.1, rfl⟩
  · exact .inr hlt

end Fcsql
