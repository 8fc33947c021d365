/-
Concrete syntax trees: the typed view of FCS-QL parse trees (every token kept).

`X.WF` says which tokens are where and which constructs may occur inside which (FCSParser.g4);
`X.toTree` is the ANTLR parse tree.
-/
import Verif.Model.Builder

set_option autoImplicit false

namespace Fcsql

/-- `regexp`: pattern token and optional `/` flags (FCSParser.g4:128-140). -/
structure CRegexp where
  pat : Tok
  flags : Option (Tok × Tok)

/-- `attribute`: optional qualifier and `:`, identifier (FCSParser.g4:113-125). -/
structure CAttr where
  qual : Option (Tok × Tok)
  ident : Tok

/-- `quantifier` (FCSParser.g4:42-48). -/
inductive CQuant
  /-- `+`, `*`, `?` -/
  | sym (t : Tok)
  /-- `{n}` -/
  | exactly (lb n rb : Tok)
  /-- `{n,m}`, `{n,}`, `{,m}` -/
  | range (lb : Tok) (n : Option Tok) (comma : Tok) (m : Option Tok) (rb : Tok)

mutual
/-- Expressions inside `[...]` (FCSParser.g4:73-110). -/
inductive CExpr
  | basic (a : CAttr) (op : Tok) (r : CRegexp)
  | group (lp : Tok) (e : CExpr) (rp : Tok)
  | or (first : CExpr) (rest : CTail)
  | and (first : CExpr) (rest : CTail)
  | not (bang : Tok) (e : CExpr)
/-- Operands after the first one, each with its operator token. -/
inductive CTail
  | nil
  | cons (op : Tok) (e : CExpr) (rest : CTail)
end

mutual
/-- Queries (FCSParser.g4:13-58). -/
inductive CQ
  | implicit (r : CRegexp) (q : Option CQuant)
  | segment (lb : Tok) (e : Option CExpr) (rb : Tok) (q : Option CQuant)
  | group (lp : Tok) (c : CQ) (rp : Tok) (q : Option CQuant)
  | seq (first : CQ) (rest : CQTail)
  | disj (first : CQ) (rest : CQTail)
/-- Items after the first one: with `|` token in a disjunction, without in a sequence. -/
inductive CQTail
  | nil
  | cons (sep : Option Tok) (q : CQ) (rest : CQTail)
end

/-- `query` (FCSParser.g4:8-10, 61-68): main query, optional `within` and scope tokens, `EOF`. -/
structure CQuery where
  main : CQ
  within : Option (Tok × Tok)
  eof : Tok

/-! ### Well-formedness -/

/-- Tokens usable as identifier or qualifier (FCSParser.g4:118-125). -/
def isNameTok (t : Tok) : Prop :=
  t.type = .IDENTIFIER ∨ t.type = .WITHIN ∨ t.type = .SIMPLE_WITHIN_SCOPE ∨ t.type = .REGEXP_FLAGS

def CRegexp.WF (r : CRegexp) : Prop :=
  r.pat.type = .REGEXP ∧
  ∀ s f, r.flags = some (s, f) → s.type = .FWD_SLASH ∧ f.type = .REGEXP_FLAGS

def CAttr.WF (a : CAttr) : Prop :=
  isNameTok a.ident ∧ ∀ q c, a.qual = some (q, c) → isNameTok q ∧ c.type = .COLON

def CQuant.WF : CQuant → Prop
  | .sym t => t.type = .Q_ONE_OR_MORE ∨ t.type = .Q_ZERO_OR_MORE ∨ t.type = .Q_ZERO_OR_ONE
  | .exactly lb n rb => lb.type = .L_CURLY_BRACKET ∧ n.type = .INTEGER ∧ rb.type = .R_CURLY_BRACKET
  | .range lb n comma m rb =>
    lb.type = .L_CURLY_BRACKET ∧ comma.type = .Q_COMMA ∧ rb.type = .R_CURLY_BRACKET ∧
    (∀ x, n = some x → x.type = .INTEGER) ∧ (∀ x, m = some x → x.type = .INTEGER) ∧
    (n.isSome ∨ m.isSome)

/-- The grammar rule an expression belongs to. -/
def CExpr.rule : CExpr → Rule
  | .basic .. => .expression_basic
  | .group .. => .expression_group
  | .or .. => .expression_or
  | .and .. => .expression_and
  | .not .. => .expression_not

mutual
def CExpr.WF : CExpr → Prop
  | .basic a op r => a.WF ∧ (op.type = .OPERATOR_EQ ∨ op.type = .OPERATOR_NE) ∧ r.WF
  | .group lp e rp => lp.type = .L_PAREN ∧ e.WF ∧ rp.type = .R_PAREN
  | .or f rest => f.WF ∧ f.rule ≠ .expression_or ∧ rest ≠ .nil ∧ rest.WF .OR .expression_or
  | .and f rest =>
    f.WF ∧ f.rule ≠ .expression_or ∧ f.rule ≠ .expression_and ∧ rest ≠ .nil ∧
    rest.WF .AND .expression_and
  | .not b e => b.type = .NOT ∧ e.WF
/-- All operators have the given type, no operand is of the given rule. -/
def CTail.WF (op : TokType) (no : Rule) : CTail → Prop
  | .nil => True
  | .cons o e rest => o.type = op ∧ e.WF ∧ e.rule ≠ no ∧ rest.WF op no
end

def optQuantWF (q : Option CQuant) : Prop := ∀ x, q = some x → x.WF

/-- The grammar rule a query belongs to. -/
def CQ.rule : CQ → Rule
  | .implicit .. => .query_simple
  | .segment .. => .query_simple
  | .group .. => .query_group
  | .seq .. => .query_sequence
  | .disj .. => .query_disjunction

mutual
def CQ.WF : CQ → Prop
  | .implicit r q => r.WF ∧ optQuantWF q
  | .segment lb e rb q =>
    lb.type = .L_SQUARE_BRACKET ∧ (∀ x, e = some x → x.WF) ∧ rb.type = .R_SQUARE_BRACKET ∧ optQuantWF q
  | .group lp c rp q =>
    lp.type = .L_PAREN ∧ c.WF ∧ (c.rule = .query_disjunction ∨ c.rule = .query_sequence) ∧
    rp.type = .R_PAREN ∧ optQuantWF q
  | .seq f rest => f.WF ∧ (f.rule = .query_simple ∨ f.rule = .query_group) ∧ rest.WFseq
  | .disj f rest => f.WF ∧ f.rule ≠ .query_disjunction ∧ rest ≠ .nil ∧ rest.WFdisj
/-- The tail of a sequence: no separators, items are simple or groups. -/
def CQTail.WFseq : CQTail → Prop
  | .nil => True
  | .cons sep c rest =>
    sep = none ∧ c.WF ∧ (c.rule = .query_simple ∨ c.rule = .query_group) ∧ rest.WFseq
/-- The tail of a disjunction: `|` before every item, items are not disjunctions. -/
def CQTail.WFdisj : CQTail → Prop
  | .nil => True
  | .cons sep c rest =>
    (∃ o, sep = some o ∧ o.type = .OR) ∧ c.WF ∧ c.rule ≠ .query_disjunction ∧ rest.WFdisj
end

def CQuery.WF (q : CQuery) : Prop :=
  q.main.WF ∧ (∀ w s, q.within = some (w, s) → w.type = .WITHIN ∧ s.type = .SIMPLE_WITHIN_SCOPE) ∧
  q.eof.type = .EOF

/-! ### Parse trees -/

/-- The parse tree of a `regexp`. -/
def CRegexp.toTree (r : CRegexp) : PTree :=
  .node .regexp (.node .regexp_pattern [.leaf r.pat] ::
    match r.flags with
    | some (s, f) => [.leaf s, .node .regexp_flag [.leaf f]]
    | none => [])

/-- The parse tree of an `attribute`. -/
def CAttr.toTree (a : CAttr) : PTree :=
  .node .attribute_ ((match a.qual with
    | some (q, c) => [.node .qualifier [.leaf q], .leaf c]
    | none => []) ++ [.node .identifier [.leaf a.ident]])

/-- Optional token as a forest. -/
def optLeaf : Option Tok → List PTree
  | some t => [.leaf t]
  | none => []

/-- The children of a `quantifier`. -/
def CQuant.forest : CQuant → List PTree
  | .sym t => [.leaf t]
  | .exactly lb n rb => [.leaf lb, .leaf n, .leaf rb]
  | .range lb n comma m rb => .leaf lb :: (optLeaf n ++ (.leaf comma :: (optLeaf m ++ [.leaf rb])))

/-- Optional quantifier as a forest. -/
def optQuant : Option CQuant → List PTree
  | some q => [.node .quantifier q.forest]
  | none => []

mutual
/-- The parse tree of an expression (without the enclosing `expression` context). -/
def CExpr.toTree : CExpr → PTree
  | .basic a op r => .node .expression_basic [a.toTree, .leaf op, r.toTree]
  | .group lp e rp => .node .expression_group [.leaf lp, e.toTree, .leaf rp]
  | .or f rest => .node .expression_or (f.toTree :: rest.forest)
  | .and f rest => .node .expression_and (f.toTree :: rest.forest)
  | .not b e => .node .expression_not [.leaf b, e.toTree]
/-- Operators and operands after the first one. -/
def CTail.forest : CTail → List PTree
  | .nil => []
  | .cons op e rest => .leaf op :: e.toTree :: rest.forest
end

/-- Optional expression of a segment. -/
def optExpr : Option CExpr → List PTree
  | some e => [.node .expression [e.toTree]]
  | none => []

mutual
/-- The parse tree of a query (without the enclosing `main_query` context). -/
def CQ.toTree : CQ → PTree
  | .implicit r q => .node .query_simple (.node .query_implicit [r.toTree] :: optQuant q)
  | .segment lb e rb q =>
    .node .query_simple (.node .query_segment (.leaf lb :: (optExpr e ++ [.leaf rb])) :: optQuant q)
  | .group lp c rp q => .node .query_group (.leaf lp :: c.toTree :: .leaf rp :: optQuant q)
  | .seq f rest => .node .query_sequence (f.toTree :: rest.forest)
  | .disj f rest => .node .query_disjunction (f.toTree :: rest.forest)
/-- Separators and items after the first one. -/
def CQTail.forest : CQTail → List PTree
  | .nil => []
  | .cons sep c rest => optLeaf sep ++ c.toTree :: rest.forest
end

/-- Optional `within` part. -/
def optWithin : Option (Tok × Tok) → List PTree
  | some (w, s) => [.leaf w, .node .within_part [.node .within_part_simple [.leaf s]]]
  | none => []

/-- The parse tree of a whole query. -/
def CQuery.toTree (q : CQuery) : PTree :=
  .node .query (.node .main_query [q.main.toTree] :: (optWithin q.within ++ [.leaf q.eof]))

end Fcsql
