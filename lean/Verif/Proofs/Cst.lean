/-
Derivations and concrete syntax trees are the same thing.
-/
import Verif.Spec.Cst
import Verif.Proofs.Grammar

set_option autoImplicit false

namespace Fcsql

/-- The typed view of a parse tree of a rule. -/
def GoodRule : Rule → PTree → Prop
  | .query, t => ∃ c : CQuery, c.WF ∧ t = c.toTree
  | .main_query, t => ∃ c : CQ, c.WF ∧ t = .node .main_query [c.toTree]
  | .query_disjunction, t => ∃ c : CQ, c.WF ∧ c.rule = .query_disjunction ∧ t = c.toTree
  | .query_sequence, t => ∃ c : CQ, c.WF ∧ c.rule = .query_sequence ∧ t = c.toTree
  | .query_group, t => ∃ c : CQ, c.WF ∧ c.rule = .query_group ∧ t = c.toTree
  | .query_simple, t => ∃ c : CQ, c.WF ∧ c.rule = .query_simple ∧ t = c.toTree
  | .quantifier, t => ∃ c : CQuant, c.WF ∧ t = .node .quantifier c.forest
  | .query_implicit, t => ∃ c : CRegexp, c.WF ∧ t = .node .query_implicit [c.toTree]
  | .query_segment, t => ∃ (lb : Tok) (e : Option CExpr) (rb : Tok),
      lb.type = .L_SQUARE_BRACKET ∧ (∀ x, e = some x → x.WF) ∧ rb.type = .R_SQUARE_BRACKET ∧
      t = .node .query_segment (.leaf lb :: (optExpr e ++ [.leaf rb]))
  | .within_part, t => ∃ s : Tok, s.type = .SIMPLE_WITHIN_SCOPE ∧
      t = .node .within_part [.node .within_part_simple [.leaf s]]
  | .within_part_simple, t => ∃ s : Tok, s.type = .SIMPLE_WITHIN_SCOPE ∧
      t = .node .within_part_simple [.leaf s]
  | .expression, t => ∃ c : CExpr, c.WF ∧ t = .node .expression [c.toTree]
  | .expression_or, t => ∃ c : CExpr, c.WF ∧ c.rule = .expression_or ∧ t = c.toTree
  | .expression_and, t => ∃ c : CExpr, c.WF ∧ c.rule = .expression_and ∧ t = c.toTree
  | .expression_group, t => ∃ c : CExpr, c.WF ∧ c.rule = .expression_group ∧ t = c.toTree
  | .expression_not, t => ∃ c : CExpr, c.WF ∧ c.rule = .expression_not ∧ t = c.toTree
  | .expression_basic, t => ∃ c : CExpr, c.WF ∧ c.rule = .expression_basic ∧ t = c.toTree
  | .attribute_, t => ∃ c : CAttr, c.WF ∧ t = c.toTree
  | .qualifier, t => ∃ x, isNameTok x ∧ t = .node .qualifier [.leaf x]
  | .identifier, t => ∃ x, isNameTok x ∧ t = .node .identifier [.leaf x]
  | .regexp, t => ∃ c : CRegexp, c.WF ∧ t = c.toTree
  | .regexp_pattern, t => ∃ x : Tok, x.type = .REGEXP ∧ t = .node .regexp_pattern [.leaf x]
  | .regexp_flag, t => ∃ x : Tok, x.type = .REGEXP_FLAGS ∧ t = .node .regexp_flag [.leaf x]

/-- The typed view of a forest of a grammar expression. -/
def Good : G → List PTree → Prop
  | .eps, f => f = []
  | .tok t, f => ∃ x : Tok, x.type = t ∧ f = [.leaf x]
  | .rule r, f => ∃ t, f = [t] ∧ GoodRule r t
  | .seq a b, f => ∃ fa fb, f = fa ++ fb ∧ Good a fa ∧ Good b fb
  | .alt a b, f => Good a f ∨ Good b f
  | .star a, f => ∃ fs : List (List PTree), f = fs.flatten ∧ ∀ x ∈ fs, Good a x

theorem good_tail {op : TokType} {no : Rule} {g : G}
    (hg : ∀ x, Good g x → ∃ (o : Tok) (e : CExpr), o.type = op ∧ e.WF ∧ e.rule ≠ no ∧
      x = [.leaf o, e.toTree]) (fs : List (List PTree)) (h : ∀ x ∈ fs, Good g x) :
    ∃ t : CTail, t.WF op no ∧ fs.flatten = t.forest ∧ (t = .nil ↔ fs = []) := by
  induction fs with
  | nil => exact ⟨.nil, by simp [CTail.WF], by simp [CTail.forest], by simp⟩
  | cons x xs ih =>
    obtain ⟨t, ht, hf, _⟩ := ih fun y hy => h y (List.mem_cons_of_mem _ hy)
    obtain ⟨o, e, ho, he, hn, rfl⟩ := hg x (h x List.mem_cons_self)
    exact ⟨.cons o e t, by simp [CTail.WF, ho, he, hn, ht], by simp [CTail.forest, hf], by simp⟩

theorem good_seqTail {g : G}
    (hg : ∀ x, Good g x → ∃ c : CQ, c.WF ∧ (c.rule = .query_simple ∨ c.rule = .query_group) ∧
      x = [c.toTree]) (fs : List (List PTree)) (h : ∀ x ∈ fs, Good g x) :
    ∃ t : CQTail, t.WFseq ∧ fs.flatten = t.forest := by
  induction fs with
  | nil => exact ⟨.nil, by simp [CQTail.WFseq], by simp [CQTail.forest]⟩
  | cons x xs ih =>
    obtain ⟨t, ht, hf⟩ := ih fun y hy => h y (List.mem_cons_of_mem _ hy)
    obtain ⟨c, hc, hr, rfl⟩ := hg x (h x List.mem_cons_self)
    exact ⟨.cons none c t, by simp [CQTail.WFseq, hc, hr, ht], by simp [CQTail.forest, hf, optLeaf]⟩

theorem good_disjTail {g : G}
    (hg : ∀ x, Good g x → ∃ (o : Tok) (c : CQ), o.type = .OR ∧ c.WF ∧
      c.rule ≠ .query_disjunction ∧ x = [.leaf o, c.toTree])
    (fs : List (List PTree)) (h : ∀ x ∈ fs, Good g x) :
    ∃ t : CQTail, t.WFdisj ∧ fs.flatten = t.forest := by
  induction fs with
  | nil => exact ⟨.nil, by simp [CQTail.WFdisj], by simp [CQTail.forest]⟩
  | cons x xs ih =>
    obtain ⟨t, ht, hf⟩ := ih fun y hy => h y (List.mem_cons_of_mem _ hy)
    obtain ⟨o, c, ho, hc, hr, rfl⟩ := hg x (h x List.mem_cons_self)
    exact ⟨.cons (some o) c t, by simp [CQTail.WFdisj, hc, hr, ht, ho],
      by simp [CQTail.forest, hf, optLeaf]⟩

section rules
open G

/-- an operand: alternatives of expression rules -/
theorem good_opExpr {x : List PTree} {r1 : Rule}
    (h : Good (.rule r1) x)
    (hr : r1 = .expression_basic ∨ r1 = .expression_group ∨ r1 = .expression_or ∨
      r1 = .expression_and ∨ r1 = .expression_not) :
    ∃ c : CExpr, c.WF ∧ c.rule = r1 ∧ x = [c.toTree] := by
  obtain ⟨t, rfl, hg⟩ := h
  rcases hr with rfl | rfl | rfl | rfl | rfl <;>
  · obtain ⟨c, h1, h2, rfl⟩ := hg
    exact ⟨c, h1, h2, rfl⟩

theorem good_opQ {x : List PTree} {r1 : Rule}
    (h : Good (.rule r1) x)
    (hr : r1 = .query_simple ∨ r1 = .query_group ∨ r1 = .query_sequence ∨ r1 = .query_disjunction) :
    ∃ c : CQ, c.WF ∧ c.rule = r1 ∧ x = [c.toTree] := by
  obtain ⟨t, rfl, hg⟩ := h
  rcases hr with rfl | rfl | rfl | rfl <;>
  · obtain ⟨c, h1, h2, rfl⟩ := hg
    exact ⟨c, h1, h2, rfl⟩

theorem good_anyExpr {x : List PTree}
    (h : Good (alts [.rule .expression_basic, .rule .expression_group, .rule .expression_or,
      .rule .expression_and, .rule .expression_not]) x) :
    ∃ c : CExpr, c.WF ∧ x = [c.toTree] := by
  simp only [alts] at h
  rcases h with h | h | h | h | h <;>
  · obtain ⟨c, h1, _, h3⟩ := good_opExpr h (by simp)
    exact ⟨c, h1, h3⟩

theorem goodRule_regexp {f : List PTree} (h : Good (body .regexp) f) : GoodRule .regexp (.node .regexp f) := by
  simp only [body, seqs, opt, Good, GoodRule] at h
  obtain ⟨fa, fb, rfl, ⟨t, rfl, x, hx, rfl⟩, ⟨fc, fd, rfl, ⟨s, hs, rfl⟩, ⟨t', rfl, y, hy, rfl⟩⟩ | rfl⟩ := h
  · exact ⟨⟨x, some (s, y)⟩, ⟨hx, by simp_all⟩, by simp [CRegexp.toTree]⟩
  · exact ⟨⟨x, none⟩, ⟨hx, by simp⟩, by simp [CRegexp.toTree]⟩

theorem goodRule_attribute {f : List PTree} (h : Good (body .attribute_) f) :
    GoodRule .attribute_ (.node .attribute_ f) := by
  simp only [body, seqs, opt, Good, GoodRule] at h
  obtain ⟨fa, fb, rfl, ⟨fc, fd, rfl, ⟨t, rfl, x, hx, rfl⟩, ⟨s, hs, rfl⟩⟩ | rfl, ⟨t', rfl, y, hy, rfl⟩⟩ := h
  · exact ⟨⟨some (x, s), y⟩, ⟨hy, by simp_all⟩, by simp [CAttr.toTree]⟩
  · exact ⟨⟨none, y⟩, ⟨hy, by simp⟩, by simp [CAttr.toTree]⟩

theorem goodRule_quantifier {f : List PTree} (h : Good (body .quantifier) f) :
    GoodRule .quantifier (.node .quantifier f) := by
  simp only [body, seqs, alts, opt, Good, GoodRule] at h
  rcases h with ⟨x, hx, rfl⟩ | ⟨x, hx, rfl⟩ | ⟨x, hx, rfl⟩ | h
  · exact ⟨.sym x, by simp [CQuant.WF, hx], rfl⟩
  · exact ⟨.sym x, by simp [CQuant.WF, hx], rfl⟩
  · exact ⟨.sym x, by simp [CQuant.WF, hx], rfl⟩
  · obtain ⟨_, _, rfl, ⟨lb, hlb, rfl⟩, _, _, rfl, h, ⟨rb, hrb, rfl⟩⟩ := h
    rcases h with ⟨x, hx, rfl⟩ | ⟨_, _, rfl, h, _, _, rfl, ⟨co, hco, rfl⟩, ⟨m, hm, rfl⟩⟩ |
      ⟨_, _, rfl, ⟨n, hn, rfl⟩, _, _, rfl, ⟨co, hco, rfl⟩, h⟩
    · exact ⟨.exactly lb x rb, by simp [CQuant.WF, hx, hlb, hrb], by simp [CQuant.forest]⟩
    · rcases h with ⟨n, hn, rfl⟩ | rfl
      · exact ⟨.range lb (some n) co (some m) rb, by simp [CQuant.WF, *], by simp [CQuant.forest, optLeaf]⟩
      · exact ⟨.range lb none co (some m) rb, by simp [CQuant.WF, *], by simp [CQuant.forest, optLeaf]⟩
    · rcases h with ⟨m, hm, rfl⟩ | rfl
      · exact ⟨.range lb (some n) co (some m) rb, by simp [CQuant.WF, *], by simp [CQuant.forest, optLeaf]⟩
      · exact ⟨.range lb (some n) co none rb, by simp [CQuant.WF, *], by simp [CQuant.forest, optLeaf]⟩

theorem good_optQuant {x : List PTree} (h : Good (opt (.rule .quantifier)) x) :
    ∃ q, optQuantWF q ∧ x = optQuant q := by
  simp only [opt, Good, GoodRule] at h
  rcases h with ⟨t, rfl, c, hc, rfl⟩ | rfl
  · exact ⟨some c, by simpa [optQuantWF] using hc, rfl⟩
  · exact ⟨none, by simp [optQuantWF], rfl⟩

theorem goodRule_querySegment {f : List PTree} (h : Good (body .query_segment) f) :
    GoodRule .query_segment (.node .query_segment f) := by
  simp only [body, seqs, opt, Good, GoodRule] at h
  obtain ⟨_, _, rfl, ⟨lb, hlb, rfl⟩, _, _, rfl, ⟨t, rfl, c, hc, rfl⟩ | rfl, ⟨rb, hrb, rfl⟩⟩ := h
  · exact ⟨lb, some c, rb, hlb, by simpa using hc, hrb, by simp [optExpr]⟩
  · exact ⟨lb, none, rb, hlb, by simp, hrb, by simp [optExpr]⟩

theorem goodRule_expression {f : List PTree} (h : Good (body .expression) f) :
    GoodRule .expression (.node .expression f) := by
  obtain ⟨c, h1, rfl⟩ := good_anyExpr h
  exact ⟨c, h1, rfl⟩

theorem goodRule_expressionOr {f : List PTree} (h : Good (body .expression_or) f) :
    GoodRule .expression_or (.node .expression_or f) := by
  simp only [body, seqs, plus] at h
  have hop : ∀ x, Good (alts [.rule .expression_basic, .rule .expression_group, .rule .expression_and,
      .rule .expression_not]) x → ∃ c : CExpr, c.WF ∧ c.rule ≠ .expression_or ∧ x = [c.toTree] := by
    intro x h
    simp only [alts] at h
    rcases h with h | h | h | h <;>
    · obtain ⟨c, h1, h2, h3⟩ := good_opExpr h (by simp)
      exact ⟨c, h1, by simp [h2], h3⟩
  have hit : ∀ x, Good (.seq (.tok .OR) (alts [.rule .expression_basic, .rule .expression_group,
      .rule .expression_and, .rule .expression_not])) x →
      ∃ (o : Tok) (e : CExpr), o.type = .OR ∧ e.WF ∧ e.rule ≠ .expression_or ∧
        x = [.leaf o, e.toTree] := by
    rintro x ⟨_, _, rfl, ⟨o, ho, rfl⟩, h⟩
    obtain ⟨c, h1, h2, rfl⟩ := hop _ h
    exact ⟨o, c, ho, h1, h2, rfl⟩
  obtain ⟨_, _, rfl, h1, _, _, rfl, h2, fs, rfl, h3⟩ := h
  obtain ⟨c, hc, hr, rfl⟩ := hop _ h1
  obtain ⟨o, e, ho, he, hn, rfl⟩ := hit _ h2
  obtain ⟨t, ht, hf, _⟩ := good_tail hit fs h3
  refine ⟨.or c (.cons o e t), ?_, rfl, by simp [CExpr.toTree, CTail.forest, hf]⟩
  simp [CExpr.WF, CTail.WF, *]

theorem goodRule_expressionAnd {f : List PTree} (h : Good (body .expression_and) f) :
    GoodRule .expression_and (.node .expression_and f) := by
  simp only [body, seqs, plus] at h
  have hop1 : ∀ x, Good (alts [.rule .expression_basic, .rule .expression_group, .rule .expression_not]) x →
      ∃ c : CExpr, c.WF ∧ c.rule ≠ .expression_or ∧ c.rule ≠ .expression_and ∧ x = [c.toTree] := by
    intro x h
    simp only [alts] at h
    rcases h with h | h | h <;>
    · obtain ⟨c, h1, h2, h3⟩ := good_opExpr h (by simp)
      exact ⟨c, h1, by simp [h2], by simp [h2], h3⟩
  have hop : ∀ x, Good (alts [.rule .expression_basic, .rule .expression_group, .rule .expression_or,
      .rule .expression_not]) x → ∃ c : CExpr, c.WF ∧ c.rule ≠ .expression_and ∧ x = [c.toTree] := by
    intro x h
    simp only [alts] at h
    rcases h with h | h | h | h <;>
    · obtain ⟨c, h1, h2, h3⟩ := good_opExpr h (by simp)
      exact ⟨c, h1, by simp [h2], h3⟩
  have hit : ∀ x, Good (.seq (.tok .AND) (alts [.rule .expression_basic, .rule .expression_group,
      .rule .expression_or, .rule .expression_not])) x →
      ∃ (o : Tok) (e : CExpr), o.type = .AND ∧ e.WF ∧ e.rule ≠ .expression_and ∧
        x = [.leaf o, e.toTree] := by
    rintro x ⟨_, _, rfl, ⟨o, ho, rfl⟩, h⟩
    obtain ⟨c, h1, h2, rfl⟩ := hop _ h
    exact ⟨o, c, ho, h1, h2, rfl⟩
  obtain ⟨_, _, rfl, h1, _, _, rfl, h2, fs, rfl, h3⟩ := h
  obtain ⟨c, hc, hr, hr', rfl⟩ := hop1 _ h1
  obtain ⟨o, e, ho, he, hn, rfl⟩ := hit _ h2
  obtain ⟨t, ht, hf, _⟩ := good_tail hit fs h3
  refine ⟨.and c (.cons o e t), ?_, rfl, by simp [CExpr.toTree, CTail.forest, hf]⟩
  simp [CExpr.WF, CTail.WF, *]

theorem goodRule_expressionGroup {f : List PTree} (h : Good (body .expression_group) f) :
    GoodRule .expression_group (.node .expression_group f) := by
  simp only [body, seqs] at h
  obtain ⟨_, _, rfl, ⟨lp, hlp, rfl⟩, _, _, rfl, h, ⟨rp, hrp, rfl⟩⟩ := h
  obtain ⟨c, hc, rfl⟩ := good_anyExpr h
  exact ⟨.group lp c rp, by simp [CExpr.WF, *], rfl, by simp [CExpr.toTree]⟩

theorem goodRule_expressionNot {f : List PTree} (h : Good (body .expression_not) f) :
    GoodRule .expression_not (.node .expression_not f) := by
  simp only [body, seqs] at h
  obtain ⟨_, _, rfl, ⟨b, hb, rfl⟩, h⟩ := h
  have : ∃ c : CExpr, c.WF ∧ ‹List PTree› = [c.toTree] := by
    simp only [alts] at h
    rcases h with h | h | h | h | h <;>
    · obtain ⟨c, h1, _, h3⟩ := good_opExpr h (by simp)
      exact ⟨c, h1, h3⟩
  obtain ⟨c, hc, rfl⟩ := this
  exact ⟨.not b c, by simp [CExpr.WF, *], rfl, by simp [CExpr.toTree]⟩

theorem goodRule_expressionBasic {f : List PTree} (h : Good (body .expression_basic) f) :
    GoodRule .expression_basic (.node .expression_basic f) := by
  simp only [body, seqs, alts, Good, GoodRule] at h
  obtain ⟨_, _, rfl, ⟨_, rfl, a, ha, rfl⟩, _, _, rfl, h, ⟨_, rfl, r, hr, rfl⟩⟩ := h
  rcases h with ⟨o, ho, rfl⟩ | ⟨o, ho, rfl⟩ <;>
  exact ⟨.basic a o r, by simp [CExpr.WF, *], rfl, by simp [CExpr.toTree]⟩

theorem goodRule_querySequence {f : List PTree} (h : Good (body .query_sequence) f) :
    GoodRule .query_sequence (.node .query_sequence f) := by
  simp only [body, plus] at h
  have hop : ∀ x, Good (alts [.rule .query_simple, .rule .query_group]) x →
      ∃ c : CQ, c.WF ∧ (c.rule = .query_simple ∨ c.rule = .query_group) ∧ x = [c.toTree] := by
    intro x h
    simp only [alts] at h
    rcases h with h | h <;>
    · obtain ⟨c, h1, h2, h3⟩ := good_opQ h (by simp)
      exact ⟨c, h1, by simp [h2], h3⟩
  obtain ⟨_, _, rfl, h1, fs, rfl, h3⟩ := h
  obtain ⟨c, hc, hr, rfl⟩ := hop _ h1
  obtain ⟨t, ht, hf⟩ := good_seqTail hop fs h3
  exact ⟨.seq c t, by simp [CQ.WF, *], rfl, by simp [CQ.toTree, hf]⟩

theorem goodRule_queryDisjunction {f : List PTree} (h : Good (body .query_disjunction) f) :
    GoodRule .query_disjunction (.node .query_disjunction f) := by
  simp only [body, seqs, plus] at h
  have hop : ∀ x, Good (alts [.rule .query_simple, .rule .query_sequence, .rule .query_group]) x →
      ∃ c : CQ, c.WF ∧ c.rule ≠ .query_disjunction ∧ x = [c.toTree] := by
    intro x h
    simp only [alts] at h
    rcases h with h | h | h <;>
    · obtain ⟨c, h1, h2, h3⟩ := good_opQ h (by simp)
      exact ⟨c, h1, by simp [h2], h3⟩
  have hit : ∀ x, Good (.seq (.tok .OR) (alts [.rule .query_simple, .rule .query_sequence,
      .rule .query_group])) x → ∃ (o : Tok) (c : CQ), o.type = .OR ∧ c.WF ∧
      c.rule ≠ .query_disjunction ∧ x = [.leaf o, c.toTree] := by
    rintro x ⟨_, _, rfl, ⟨o, ho, rfl⟩, h⟩
    obtain ⟨c, h1, h2, rfl⟩ := hop _ h
    exact ⟨o, c, ho, h1, h2, rfl⟩
  obtain ⟨_, _, rfl, h1, _, _, rfl, h2, fs, rfl, h3⟩ := h
  obtain ⟨c, hc, hr, rfl⟩ := hop _ h1
  obtain ⟨o, e, ho, he, hn, rfl⟩ := hit _ h2
  obtain ⟨t, ht, hf⟩ := good_disjTail hit fs h3
  refine ⟨.disj c (.cons (some o) e t), ?_, rfl, by simp [CQ.toTree, CQTail.forest, hf, optLeaf]⟩
  simp [CQ.WF, CQTail.WFdisj, *]

theorem goodRule_queryGroup {f : List PTree} (h : Good (body .query_group) f) :
    GoodRule .query_group (.node .query_group f) := by
  simp only [body, seqs] at h
  obtain ⟨_, _, rfl, ⟨lp, hlp, rfl⟩, _, _, rfl, h, _, _, rfl, ⟨rp, hrp, rfl⟩, hq⟩ := h
  obtain ⟨q, hq, rfl⟩ := good_optQuant hq
  simp only [alts] at h
  rcases h with h | h <;>
  · obtain ⟨c, h1, h2, rfl⟩ := good_opQ h (by simp)
    exact ⟨.group lp c rp q, by simp [CQ.WF, *], rfl, by simp [CQ.toTree]⟩

theorem goodRule_querySimple {f : List PTree} (h : Good (body .query_simple) f) :
    GoodRule .query_simple (.node .query_simple f) := by
  simp only [body, seqs, alts] at h
  obtain ⟨_, _, rfl, h, hq⟩ := h
  obtain ⟨q, hq, rfl⟩ := good_optQuant hq
  rcases h with ⟨_, rfl, r, hr, rfl⟩ | ⟨_, rfl, lb, e, rb, h1, h2, h3, rfl⟩
  · exact ⟨.implicit r q, by simp [CQ.WF, *], rfl, by simp [CQ.toTree]⟩
  · exact ⟨.segment lb e rb q, by simpa [CQ.WF, *] using h2, rfl, by simp [CQ.toTree]⟩

theorem goodRule_mainQuery {f : List PTree} (h : Good (body .main_query) f) :
    GoodRule .main_query (.node .main_query f) := by
  simp only [body, alts] at h
  rcases h with h | h | h | h <;>
  · obtain ⟨c, h1, _, rfl⟩ := good_opQ h (by simp)
    exact ⟨c, h1, rfl⟩

theorem goodRule_query {f : List PTree} (h : Good (body .query) f) :
    GoodRule .query (.node .query f) := by
  simp only [body, seqs, opt, Good, GoodRule] at h
  obtain ⟨_, _, rfl, ⟨_, rfl, c, hc, rfl⟩, _, _, rfl, h, ⟨e, he, rfl⟩⟩ := h
  rcases h with ⟨_, _, rfl, ⟨w, hw, rfl⟩, ⟨_, rfl, s, hs, rfl⟩⟩ | rfl
  · exact ⟨⟨c, some (w, s), e⟩, by simp_all [CQuery.WF], by simp [CQuery.toTree, optWithin]⟩
  · exact ⟨⟨c, none, e⟩, by simp_all [CQuery.WF], by simp [CQuery.toTree, optWithin]⟩

theorem goodRule_of_body (r : Rule) (f : List PTree) (h : Good (body r) f) : GoodRule r (.node r f) := by
  cases r with
  | query => exact goodRule_query h
  | main_query => exact goodRule_mainQuery h
  | query_disjunction => exact goodRule_queryDisjunction h
  | query_sequence => exact goodRule_querySequence h
  | query_group => exact goodRule_queryGroup h
  | query_simple => exact goodRule_querySimple h
  | quantifier => exact goodRule_quantifier h
  | query_implicit =>
    obtain ⟨t, rfl, c, hc, rfl⟩ := h
    exact ⟨c, hc, rfl⟩
  | query_segment => exact goodRule_querySegment h
  | within_part =>
    obtain ⟨t, rfl, c, hc, rfl⟩ := h
    exact ⟨c, hc, rfl⟩
  | within_part_simple =>
    obtain ⟨s, hs, rfl⟩ := h
    exact ⟨s, hs, rfl⟩
  | expression => exact goodRule_expression h
  | expression_or => exact goodRule_expressionOr h
  | expression_and => exact goodRule_expressionAnd h
  | expression_group => exact goodRule_expressionGroup h
  | expression_not => exact goodRule_expressionNot h
  | expression_basic => exact goodRule_expressionBasic h
  | attribute_ => exact goodRule_attribute h
  | qualifier =>
    simp only [body, alts, Good] at h
    rcases h with ⟨x, hx, rfl⟩ | ⟨x, hx, rfl⟩ | ⟨x, hx, rfl⟩ | ⟨x, hx, rfl⟩ <;>
    exact ⟨x, by simp [isNameTok, hx], rfl⟩
  | identifier =>
    simp only [body, alts, Good] at h
    rcases h with ⟨x, hx, rfl⟩ | ⟨x, hx, rfl⟩ | ⟨x, hx, rfl⟩ | ⟨x, hx, rfl⟩ <;>
    exact ⟨x, by simp [isNameTok, hx], rfl⟩
  | regexp => exact goodRule_regexp h
  | regexp_pattern =>
    obtain ⟨s, hs, rfl⟩ := h
    exact ⟨s, hs, rfl⟩
  | regexp_flag =>
    obtain ⟨s, hs, rfl⟩ := h
    exact ⟨s, hs, rfl⟩

end rules

theorem good_of_D {g : G} {ts : List Tok} {f : List PTree} {c : List Bool} (h : D g ts f c) :
    Good g f := by
  induction h with
  | eps => rfl
  | tok h => exact ⟨_, h, rfl⟩
  | rule _ ih => exact ⟨_, rfl, goodRule_of_body _ _ ih⟩
  | seq _ _ iha ihb => exact ⟨_, _, rfl, iha, ihb⟩
  | altL _ ih => exact .inl ih
  | altR _ ih => exact .inr ih
  | starNil => exact ⟨[], rfl, by simp⟩
  | starCons _ _ iha ihb =>
    obtain ⟨fs, rfl, hfs⟩ := ihb
    refine ⟨_ :: fs, rfl, ?_⟩
    intro x hx
    rcases List.mem_cons.1 hx with rfl | hx
    · exact iha
    · exact hfs x hx

theorem leavesL_append (f g : List PTree) :
    PTree.leavesL (f ++ g) = PTree.leavesL f ++ PTree.leavesL g := by
  induction f with
  | nil => simp [PTree.leavesL]
  | cons t f ih => simp [PTree.leavesL, ih]

theorem leavesL_of_D {g : G} {ts : List Tok} {f : List PTree} {c : List Bool} (h : D g ts f c) :
    PTree.leavesL f = ts := by
  induction h with
  | eps => simp [PTree.leavesL]
  | tok h => simp [PTree.leavesL, PTree.leaves]
  | rule _ ih => simp [PTree.leavesL, PTree.leaves, ih]
  | seq _ _ iha ihb => rw [leavesL_append, iha, ihb]
  | altL _ ih => exact ih
  | altR _ ih => exact ih
  | starNil => simp [PTree.leavesL]
  | starCons _ _ iha ihb => rw [leavesL_append, iha, ihb]

/-- Every derivable query tree is the tree of a well-formed concrete syntax tree. -/
theorem cst_of_D {ts : List Tok} {f : List PTree} {c : List Bool} (h : D (.rule .query) ts f c) :
    ∃ q : CQuery, q.WF ∧ f = [q.toTree] ∧ q.toTree.leaves = ts := by
  obtain ⟨t, rfl, q, hq, rfl⟩ := good_of_D h
  refine ⟨q, hq, rfl, ?_⟩
  have := leavesL_of_D h
  simpa [PTree.leavesL] using this

end Fcsql
