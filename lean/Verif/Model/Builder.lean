/-
The tree builder: `ExpressionTreeBuilder` (parser.py:1028-1668), an ANTLR parse-tree visitor working on
an untyped stack (`self.stack: Deque[Any]`).

The model is parametric in how nodes are allocated (`Alloc`), so that the same builder can be run on
pure trees (`pureAlloc`) and on an object heap with parent pointers (`Model/Heap.lean`).
-/
import Verif.Model.Grammar
import Verif.Model.Node

set_option autoImplicit false

namespace Fcsql

/-- What the code takes from its environment (Python interpreter, `unicodedata`, ANTLR's parser
error reports).  All theorems hold for every value of these parameters. -/
structure PyRuntime where
  /-- `unicodedata.normalize` -/
  normalize : NormForm → PyStr → PyStr
  /-- `sys.get_int_max_str_digits()`; 0 means no limit -/
  intMaxStrDigits : Nat
  /-- `chr(n)` for `n ≥ 2^31` raises `ValueError` (true) or `OverflowError` (false) -/
  chrOverflowIsValueError : Bool
  /-- decimal value of non-ASCII decimal digits, which `int(c, 16)` accepts -/
  unicodeDecimal : Nat → Option Nat
  /-- `repr` of a string -/
  strRepr : PyStr → PyStr

/-- The constructor arguments of `QueryParser` (parser.py:1674-1698). -/
structure Config where
  defaultIdentifier : PyStr
  defaultOperator : Operator
  normForm : Option NormForm
  enableSourceLocations : Bool

/-- `DEFAULT_IDENTIFIER`, `DEFAULT_OPERATOR`, `DEFAULT_UNICODE_NORMALIZATION_FORM`
(parser.py:922-924) and `enableSourceLocations=False` (parser.py:1680). -/
def defaultConfig : Config :=
  { defaultIdentifier := py!"text", defaultOperator := .EQUALS, normForm := some .NFC,
    enableSourceLocations := false }

/-- Exceptions inside the builder. -/
inductive Exc
  /-- `ExpressionTreeBuilderException(msg)` -/
  | builder (msg : PyStr)
  /-- any other Python exception (`IndexError`, `AttributeError`, `AssertionError`, `OverflowError`, ...) -/
  | other
  deriving DecidableEq, Repr

/-- How a node object is created (`Node subclass(...)` followed by `node.location = ...`). -/
structure Alloc (ν σ : Type) where
  new : Kind → List ν → Option Loc → σ → ν × σ

/-- Items of the builder's stack. -/
inductive Item (ν : Type)
  | node (n : ν)
  | str (s : PyStr)
  | op (o : Operator)
  | flags (f : FlagSet)
  deriving Repr

/-- State of the builder: allocator state and stack (top first; parser.py:1032). -/
structure BState (ν σ : Type) where
  heap : σ
  stack : List (Item ν)

namespace PTree

mutual
/-- The terminals of a tree, left to right. -/
def leaves : PTree → List Tok
  | .leaf t => [t]
  | .node _ cs => leavesL cs
/-- The terminals of a forest, left to right. -/
def leavesL : List PTree → List Tok
  | [] => []
  | c :: cs => leaves c ++ leavesL cs
end

/-- `RuleContext.getText` / `TerminalNode.getText` (ANTLR runtime): concatenated token texts. -/
def getText (t : PTree) : PyStr := t.leaves.flatMap Tok.text

/-- Is it a context of this rule? -/
def isRule (r : Rule) : PTree → Bool
  | .leaf _ => false
  | .node r' _ => r' = r

/-- Is it a terminal with this token type? -/
def isTok (ty : TokType) : PTree → Bool
  | .leaf t => t.type = ty
  | .node _ _ => false

end PTree

/-- `ctx.getTypedRuleContext(C, 0)`: the generated accessors like `ctx.within_part()`. -/
def ruleChild (r : Rule) (cs : List PTree) : Option PTree := cs.find? (PTree.isRule r)

/-- `ctx.getToken(T, 0) is not None`: the generated accessors like `ctx.OPERATOR_EQ()`. -/
def hasTokChild (ty : TokType) (cs : List PTree) : Bool := cs.any (PTree.isTok ty)

/-- `SourceLocation.fromContext` (parser.py:353-365).  `ctx.start` is the first token of the context;
`ctx.stop` is `LT(-1)` at the end of the rule, i.e. the last token consumed from the stream; `EOF` is
matched but never consumed (`antlr4.Parser.consume`). -/
def ctxLoc (cs : List PTree) : Option Loc :=
  match (PTree.leavesL cs).head?, ((PTree.leavesL cs).filter fun t => t.type ≠ .EOF).getLast? with
  | some a, some b => some ⟨a.start, b.stop + 1⟩
  | _, _ => none

/-- `if self.parser.enableSourceLocations: node.location = SourceLocation.fromContext(ctx)`
(e.g. parser.py:1052-1053). -/
def locOf (cfg : Config) (cs : List PTree) : Option Loc :=
  if cfg.enableSourceLocations then ctxLoc cs else none

section literals

/-- `stripQuotes` (parser.py:1562-1578). -/
def stripQuotes (val : PyStr) : Except Exc PyStr :=
  if startsWith val [34] then
    if endsWith val [34] then .ok (slice val 1 (-1))
    else .error (.builder py!"value not properly quoted; invalid closing quote")
  else if startsWith val [39] then
    if endsWith val [39] then .ok (slice val 1 (-1))
    else .error (.builder py!"value not properly quoted; invalid closing quote")
  else .error (.builder py!"value not properly quoted; expected \" (double quote) or ' (single qoute) character")

/-- `parseHexChar` (parser.py:1659-1668): `int(val, 16)` on a single character. -/
def parseHexChar (rt : PyRuntime) (c : Nat) : Except Exc Nat :=
  if 48 ≤ c ∧ c ≤ 57 then .ok (c - 48)
  else if 97 ≤ c ∧ c ≤ 102 then .ok (c - 87)
  else if 65 ≤ c ∧ c ≤ 70 then .ok (c - 55)
  else if c < 128 then .error (.builder (py!"invalud hex character: " ++ [c]))
  else match rt.unicodeDecimal c with
    | some d => .ok d
    | none => .error (.builder (py!"invalud hex character: " ++ [c]))

/-- The loop of `unescapeUnicode` (parser.py:1646-1650): `cp <<= 4` except in the first round, then
`cp |= parseHexChar(val[i])`. -/
def hexLoop (rt : PyRuntime) : Bool → Nat → PyStr → Except Exc Nat
  | _, cp, [] => .ok cp
  | first, cp, c :: cs => do
    let d ← parseHexChar rt c
    let cp' := if first then cp else cp <<< 4
    hexLoop rt false (cp' ||| d) cs

/-- `chr(cp)` with its exception handler (parser.py:1651-1654). -/
def pyChr (rt : PyRuntime) (cp : Nat) : Except Exc PyStr :=
  if cp < 0x110000 then .ok [cp]
  else if cp < 2 ^ 31 || rt.chrOverflowIsValueError then
    .error (.builder (py!"invalid codepoint: U+" ++ hexStr cp))
  else .error .other

/-- `unescapeUnicode` (parser.py:1641-1657); `rest` is `val[i+1:]`, `letter` is `val[i]`. -/
def unescapeUnicode (rt : PyRuntime) (letter : Nat) (rest : PyStr) (size : Nat) : Except Exc PyStr :=
  if rest.length ≥ size then do
    let cp ← hexLoop rt true 0 (rest.take size)
    pyChr rt cp
  else .error (.builder (py!"truncated escape sequence: \\" ++ [letter]))

/-- The cases of `unescapeString` after a backslash (parser.py:1588-1631): the characters appended and
how many characters of `rest` (= `val[i:]`, `i` after the backslash) are used up.
`val[i]` at the end of the string raises `IndexError`. -/
def unescapeOne (rt : PyRuntime) (rest : PyStr) : Except Exc (PyStr × Nat) :=
  match rest with
  | [] => .error .other
  | cp :: more =>
    if cp = 92 then .ok ([92], 1)                -- \
    else if cp = 34 then .ok ([34], 1)           -- "
    else if cp = 39 then .ok ([39], 1)           -- '
    else if cp = 110 then .ok ([10], 1)          -- n
    else if cp = 116 then .ok ([9], 1)           -- t
    else if cp = 46 then .ok ([92, 46], 1)       -- .
    else if cp = 94 then .ok ([92, 94], 1)       -- ^
    else if cp = 36 then .ok ([92, 36], 1)       -- $
    else if cp = 42 then .ok ([92, 42], 1)       -- *
    else if cp = 43 then .ok ([92, 43], 1)       -- +
    else if cp = 63 then .ok ([92, 63], 1)       -- ?
    else if cp = 40 then .ok ([92, 40], 1)       -- (
    else if cp = 41 then .ok ([92, 41], 1)       -- )
    else if cp = 123 then .ok ([92, 123], 1)     -- {
    else if cp = 91 then .ok ([92, 91], 1)       -- [
    else if cp = 124 then .ok ([92, 124], 1)     -- |
    else if cp = 120 then do                      -- x
      let s ← unescapeUnicode rt cp more 2
      .ok (s, 3)
    else if cp = 117 then do                      -- u
      let s ← unescapeUnicode rt cp more 4
      .ok (s, 5)
    else if cp = 85 then do                       -- U
      let s ← unescapeUnicode rt cp more 8
      .ok (s, 9)
    else .error (.builder (py!"invalid escape sequence: \\" ++ [cp]))

/-- The loop of `unescapeString` (parser.py:1580-1639) on the remaining text; the first argument is
the number of characters still to be skipped (`i += 1`, `i += size`). -/
def unescapeLoop (rt : PyRuntime) : Nat → PyStr → Except Exc PyStr
  | _, [] => .ok []
  | k + 1, _ :: cs => unescapeLoop rt k cs
  | 0, c :: cs =>
    if c = 92 then do
      let (out, used) ← unescapeOne rt cs
      let r ← unescapeLoop rt used cs
      .ok (out ++ r)
    else do
      let r ← unescapeLoop rt 0 cs
      .ok (c :: r)

/-- `unescapeString` (parser.py:1580-1639). -/
def unescapeString (rt : PyRuntime) (val : PyStr) : Except Exc PyStr := unescapeLoop rt 0 val

/-- The literal processing of `visitRegexp` (parser.py:1411-1419): strip quotes, unescape if there is
a backslash, normalise if requested. -/
def regexValue (rt : PyRuntime) (cfg : Config) (text : PyStr) : Except Exc PyStr := do
  let regex ← stripQuotes text
  let regex ← if regex.contains 92 then unescapeString rt regex else .ok regex
  match cfg.normForm with
  | some f => .ok (rt.normalize f regex)
  | none => .ok regex

/-- The flag loop of `visitRegexp` (parser.py:1429-1440). -/
def flagLoop : FlagSet → PyStr → Except Exc FlagSet
  | fs, [] => .ok fs
  | fs, c :: cs =>
    if c = 105 ∨ c = 99 then flagLoop (fs.add .CASE_INSENSITIVE) cs
    else if c = 73 ∨ c = 67 then flagLoop (fs.add .CASE_SENSITIVE) cs
    else if c = 108 then flagLoop (fs.add .LITERAL_MATCHING) cs
    else if c = 100 then flagLoop (fs.add .IGNORE_DIACRITICS) cs
    else .error (.builder (py!"unknown regex modifier flag: " ++ [c]))

/-- The flag processing of `visitRegexp` (parser.py:1427-1459). -/
def regexFlags (val : PyStr) : Except Exc FlagSet := do
  let flags ← flagLoop FlagSet.empty val
  if flags.has .CASE_SENSITIVE && flags.has .CASE_INSENSITIVE then
    .error (.builder py!"invalid combination of regex modifier flags: 'i' or 'c' and 'I' or 'C' are mutually exclusive")
  else if flags.has .LITERAL_MATCHING &&
      (flags.has .CASE_SENSITIVE || flags.has .CASE_INSENSITIVE || flags.has .IGNORE_DIACRITICS) then
    .error (.builder py!"invalid combination of regex modifier flags: 'l' is mutually exclusive with 'i', 'c', 'I', 'C' or 'd'")
  else .ok flags

end literals

section quantifier

/-- `parseInt` (parser.py:1555-1560).  `int(val)` on ASCII digits; raises `ValueError` beyond the
interpreter's digit limit (leading zeros count).  Other texts `int` would accept (signs, underscores,
non-ASCII digits) never reach it: `INTEGER` tokens are `[0-9]+`; they are treated as invalid here. -/
def parseInt (rt : PyRuntime) (val : PyStr) : Except Exc Int :=
  if !val.isEmpty && val.all isDigit && (rt.intMaxStrDigits == 0 || val.length ≤ rt.intMaxStrDigits) then
    .ok (decValue val)
  else .error (.builder (py!"invalid integer: " ++ val))

/-- First index `≥ i` in a list starting at index `i` (loop of parser.py:1548-1552). -/
def findTokFrom (ty : TokType) : Int → List PTree → Int
  | _, [] => -1
  | i, c :: cs => if c.isTok ty then i else findTokFrom ty (i + 1) cs

/-- `getChildIndex` (parser.py:1545-1553). -/
def getChildIndex (cs : List PTree) (start : Int) (ty : TokType) : Int :=
  if start ≥ 0 ∧ start < cs.length then findTokFrom ty start (cs.drop start.toNat) else -1

/-- `ctx.getChild(i).getText()`: Python list indexing (negative indices count from the end);
out of range is an `IndexError`. -/
def childText (cs : List PTree) (i : Int) : Except Exc PyStr :=
  let j := if i < 0 then i + cs.length else i
  if j < 0 then .error .other
  else match cs[j.toNat]? with
    | some t => .ok t.getText
    | none => .error .other

/-- `processRepetitionRange` (parser.py:1523-1543). -/
def processRepetitionRange (rt : PyRuntime) (cs : List PTree) : Except Exc (Int × Int) := do
  let comma := getChildIndex cs 0 .Q_COMMA
  let int1 := getChildIndex cs 0 .INTEGER
  let int2 := getChildIndex cs (int1 + 1) .INTEGER
  let (mn, mx) ←
    if comma ≠ -1 then do
      let mn ← if int1 < comma then do parseInt rt (← childText cs int1) else .ok 0
      let mx ←
        if comma < int1 then do parseInt rt (← childText cs int1)
        else if comma < int2 then do parseInt rt (← childText cs int2)
        else .ok OCCURS_UNBOUNDED
      .ok (mn, mx)
    else if int1 = -1 then .error (.builder py!"int1_idx == -1")
    else do
      let m ← parseInt rt (← childText cs int1)
      .ok (m, m)
  if mx ≠ OCCURS_UNBOUNDED ∧ mn > mx then
    .error (.builder (py!"bad qualifier: min > max (" ++ intStr mn ++ py!" > " ++ intStr mx ++ py!")"))
  else .ok (mn, mx)

/-- `processRepetition` (parser.py:1507-1521) and `REP_*` (parser.py:916-918).  The final error branch
prints a token object; its text is not modelled. -/
def processRepetition (rt : PyRuntime) (cs : List PTree) : Except Exc (Int × Int) :=
  if hasTokChild .Q_ZERO_OR_MORE cs then .ok (0, OCCURS_UNBOUNDED)
  else if hasTokChild .Q_ONE_OR_MORE cs then .ok (1, OCCURS_UNBOUNDED)
  else if hasTokChild .Q_ZERO_OR_ONE cs then .ok (0, 1)
  else if hasTokChild .L_CURLY_BRACKET cs then processRepetitionRange rt cs
  else .error (.builder py!"unexpected symbol in repetition quantifier: ?")

/-- `min = max = 1; q_ctx = ctx.quantifier(); if q_ctx is not None: ...`
(parser.py:1141-1147, 1169-1175). -/
def repetitionOf (rt : PyRuntime) (cs : List PTree) : Except Exc (Int × Int) :=
  match ruleChild .quantifier cs with
  | some (.node _ qs) => processRepetition rt qs
  | some (.leaf _) => .error .other
  | none => .ok (1, 1)

end quantifier

section machine
variable {ν σ : Type}

/-- `self.stack.append(x)` -/
def push (x : Item ν) (s : BState ν σ) : BState ν σ := { s with stack := x :: s.stack }

/-- `self.stack.pop()`; `IndexError` on an empty deque. -/
def pop (s : BState ν σ) : Except Exc (Item ν × BState ν σ) :=
  match s.stack with
  | [] => .error .other
  | x :: xs => .ok (x, { s with stack := xs })

/-- Pop a node.  Any other item is not a `QueryNode`; using it as a child raises `AttributeError`
(`child.parent = self`, parser.py:422-423) -- except that a falsy one would be dropped silently; this
branch is proved unreachable. -/
def popNode (s : BState ν σ) : Except Exc (ν × BState ν σ) := do
  let (x, s) ← pop s
  match x with
  | .node n => .ok (n, s)
  | _ => .error .other

/-- Pop a string. -/
def popStr (s : BState ν σ) : Except Exc (PyStr × BState ν σ) := do
  let (x, s) ← pop s
  match x with
  | .str v => .ok (v, s)
  | _ => .error .other

/-- Pop an operator. -/
def popOp (s : BState ν σ) : Except Exc (Operator × BState ν σ) := do
  let (x, s) ← pop s
  match x with
  | .op v => .ok (v, s)
  | _ => .error .other

/-- Pop a set of flags. -/
def popFlags (s : BState ν σ) : Except Exc (FlagSet × BState ν σ) := do
  let (x, s) ← pop s
  match x with
  | .flags v => .ok (v, s)
  | _ => .error .other

/-- `node = SomeNode(...); node.location = ...; self.stack.append(node)`. -/
def pushNew (A : Alloc ν σ) (k : Kind) (cs : List ν) (loc : Option Loc) (s : BState ν σ) :
    BState ν σ :=
  let (n, h) := A.new k cs loc s.heap
  { heap := h, stack := .node n :: s.stack }

/-- `while len(self.stack) > pos: items.insert(0, self.stack.pop())` (e.g. parser.py:1088-1089). -/
def popDownTo (pos : Nat) : Nat → List ν → BState ν σ → Except Exc (List ν × BState ν σ)
  | 0, items, s => .ok (items, s)
  | fuel + 1, items, s =>
    if s.stack.length > pos then do
      let (n, s) ← popNode s
      popDownTo pos fuel (n :: items) s
    else .ok (items, s)

/-- Common shape of `visitQuery_disjunction`, `visitQuery_sequence`, `visitExpression_or`,
`visitExpression_and` (parser.py:1073-1127, 1323-1377). -/
def collect (A : Alloc ν σ) (cfg : Config) (k : Kind) (emptyMsg : PyStr) (cs : List PTree)
    (sub : BState ν σ → Except Exc (BState ν σ)) (s : BState ν σ) : Except Exc (BState ν σ) := do
  let pos := s.stack.length
  let s ← sub s
  if s.stack.length > pos then do
    let (items, s) ← popDownTo pos s.stack.length [] s
    .ok (pushNew A k items (locOf cfg cs) s)
  else .error (.builder emptyMsg)

/-- `visitQuery` (parser.py:1036-1057). -/
def visitQuery (A : Alloc ν σ) (cfg : Config) (cs : List PTree)
    (sub : BState ν σ → Except Exc (BState ν σ)) (s : BState ν σ) : Except Exc (BState ν σ) := do
  let s ← sub s
  match ruleChild .within_part cs with
  | some _ => do
    let (within, s) ← popNode s
    let (query, s) ← popNode s
    .ok (pushNew A .withWithin [query, within] (locOf cfg cs) s)
  | none => .ok s

/-- `visitQuery_group` (parser.py:1129-1155). -/
def visitQueryGroup (A : Alloc ν σ) (rt : PyRuntime) (cfg : Config) (cs : List PTree)
    (sub : BState ν σ → Except Exc (BState ν σ)) (s : BState ν σ) : Except Exc (BState ν σ) := do
  let s ← sub s
  let (mn, mx) ← repetitionOf rt cs
  let (content, s) ← popNode s
  .ok (pushNew A (.qgroup mn mx) [content] (locOf cfg cs) s)

/-- `visitQuery_simple` (parser.py:1157-1183). -/
def visitQuerySimple (A : Alloc ν σ) (rt : PyRuntime) (cfg : Config) (cs : List PTree)
    (sub : BState ν σ → Except Exc (BState ν σ)) (s : BState ν σ) : Except Exc (BState ν σ) := do
  let s ← sub s
  let (mn, mx) ← repetitionOf rt cs
  let (expression, s) ← popNode s
  .ok (pushNew A (.segment mn mx) [expression] (locOf cfg cs) s)

/-- The five pops and the `Expression` of `visitQuery_implicit` and `visitExpression_basic`
(parser.py:1200-1218, 1263-1281). -/
def popExpression (A : Alloc ν σ) (cfg : Config) (cs : List PTree) (s : BState ν σ) :
    Except Exc (BState ν σ) := do
  let (flags, s) ← popFlags s
  let (regex, s) ← popStr s
  let (qualifier, s) ← popStr s
  let (identifier, s) ← popStr s
  let (operator, s) ← popOp s
  .ok (pushNew A (mkExpressionKind (some qualifier) identifier operator regex (some flags)) []
    (locOf cfg cs) s)

/-- `visitQuery_implicit` (parser.py:1185-1218). -/
def visitQueryImplicit (A : Alloc ν σ) (cfg : Config) (cs : List PTree)
    (sub : BState ν σ → Except Exc (BState ν σ)) (s : BState ν σ) : Except Exc (BState ν σ) := do
  let s := push (.op cfg.defaultOperator) s
  let s := push (.str cfg.defaultIdentifier) s
  let s := push (.str []) s
  let s ← sub s
  popExpression A cfg cs s

/-- `visitQuery_segment` (parser.py:1220-1241). -/
def visitQuerySegment (A : Alloc ν σ) (cfg : Config) (cs : List PTree)
    (sub : BState ν σ → Except Exc (BState ν σ)) (s : BState ν σ) : Except Exc (BState ν σ) :=
  if cs.length = 2 then .ok (pushNew A .wildcard [] (locOf cfg cs) s) else sub s

/-- `visitExpression_basic` (parser.py:1243-1281).  The `else` branch reads `tok_ok.text` of a rule
context (line 1259), which has no such attribute: `AttributeError`. -/
def visitExpressionBasic (A : Alloc ν σ) (cfg : Config) (cs : List PTree)
    (sub : BState ν σ → Except Exc (BState ν σ)) (s : BState ν σ) : Except Exc (BState ν σ) := do
  let s ←
    if hasTokChild .OPERATOR_EQ cs then .ok (push (.op .EQUALS) s)
    else if hasTokChild .OPERATOR_NE cs then .ok (push (.op .NOT_EQUALS) s)
    else .error .other
  let s ← sub s
  popExpression A cfg cs s

/-- `visitExpression_not` / `visitExpression_group` (parser.py:1283-1321). -/
def visitUnary (A : Alloc ν σ) (cfg : Config) (k : Kind) (cs : List PTree)
    (sub : BState ν σ → Except Exc (BState ν σ)) (s : BState ν σ) : Except Exc (BState ν σ) := do
  let s ← sub s
  let (e, s) ← popNode s
  .ok (pushNew A k [e] (locOf cfg cs) s)

/-- `visitAttribute` (parser.py:1379-1398); children are not visited. -/
def visitAttribute (cs : List PTree) (s : BState ν σ) : Except Exc (BState ν σ) :=
  let qualifier := match ruleChild .qualifier cs with
    | some q => q.getText
    | none => []
  match ruleChild .identifier cs with
  | some i => .ok (push (.str qualifier) (push (.str i.getText) s))
  | none => .error .other

/-- `visitRegexp` (parser.py:1400-1467); children are not visited. -/
def visitRegexp (rt : PyRuntime) (cfg : Config) (cs : List PTree) (s : BState ν σ) :
    Except Exc (BState ν σ) :=
  match ruleChild .regexp_pattern cs with
  | none => .error .other
  | some p => do
    let regex ← regexValue rt cfg p.getText
    let s := push (.str regex) s
    match ruleChild .regexp_flag cs with
    | some f => do
      let flags ← regexFlags f.getText
      .ok (push (.flags flags) s)
    | none => .ok (push (.flags FlagSet.empty) s)

/-- The scope table of `visitWithin_part_simple` (parser.py:1482-1495). -/
def scopeOf (val : PyStr) : Except Exc Scope :=
  if val = py!"sentence" ∨ val = py!"s" then .ok .SENTENCE
  else if val = py!"utterance" ∨ val = py!"u" then .ok .UTTERANCE
  else if val = py!"paragraph" ∨ val = py!"p" then .ok .PARAGRAPH
  else if val = py!"turn" ∨ val = py!"t" then .ok .TURN
  else if val = py!"text" then .ok .TEXT
  else if val = py!"session" then .ok .SESSION
  else .error (.builder (py!"invalid scope for simple 'within' clause: " ++ val))

/-- `visitWithin_part_simple` (parser.py:1469-1502). -/
def visitWithinPartSimple (A : Alloc ν σ) (cfg : Config) (cs : List PTree) (s : BState ν σ) :
    Except Exc (BState ν σ) :=
  match cs with
  | [] => .error .other
  | c :: _ => do
    let scope ← scopeOf c.getText
    .ok (pushNew A (.within scope) [] (locOf cfg cs) s)

/-- The visit method of a rule context with children `cs`; `sub` is `super().visitX(ctx)`, i.e.
`visitChildren(ctx)` (FCSParserVisitor.py:11-124).  Rules without an override only visit children. -/
def visitRule (A : Alloc ν σ) (rt : PyRuntime) (cfg : Config) (r : Rule) (cs : List PTree)
    (sub : BState ν σ → Except Exc (BState ν σ)) (s : BState ν σ) : Except Exc (BState ν σ) :=
  match r with
  | .query => visitQuery A cfg cs sub s
  | .main_query => sub s                                   -- parser.py:1059-1071
  | .query_disjunction => collect A cfg .disjunction py!"visitQuery_disjunction is empty" cs sub s
  | .query_sequence => collect A cfg .sequence py!"visitQuery_sequence is empty" cs sub s
  | .query_group => visitQueryGroup A rt cfg cs sub s
  | .query_simple => visitQuerySimple A rt cfg cs sub s
  | .quantifier => sub s
  | .query_implicit => visitQueryImplicit A cfg cs sub s
  | .query_segment => visitQuerySegment A cfg cs sub s
  | .within_part => sub s
  | .within_part_simple => visitWithinPartSimple A cfg cs s
  | .expression => sub s
  | .expression_or => collect A cfg .or py!"visitExpression_or is empty" cs sub s
  | .expression_and => collect A cfg .and py!"visitExpression_and is empty" cs sub s
  | .expression_group => visitUnary A cfg .group cs sub s
  | .expression_not => visitUnary A cfg .not cs sub s
  | .expression_basic => visitExpressionBasic A cfg cs sub s
  | .attribute_ => visitAttribute cs s
  | .qualifier => sub s
  | .identifier => sub s
  | .regexp => visitRegexp rt cfg cs s
  | .regexp_pattern => sub s
  | .regexp_flag => sub s

mutual
/-- `tree.accept(builder)`: terminals do nothing (`visitTerminal`). -/
def visit (A : Alloc ν σ) (rt : PyRuntime) (cfg : Config) :
    PTree → BState ν σ → Except Exc (BState ν σ)
  | .leaf _, s => .ok s
  | .node r cs, s => visitRule A rt cfg r cs (fun s => visitChildren A rt cfg cs s) s
/-- `ParseTreeVisitor.visitChildren` (ANTLR runtime): all children, left to right. -/
def visitChildren (A : Alloc ν σ) (rt : PyRuntime) (cfg : Config) :
    List PTree → BState ν σ → Except Exc (BState ν σ)
  | [], s => .ok s
  | c :: cs, s => do
    let s ← visit A rt cfg c s
    visitChildren A rt cfg cs s
end

/-- `builder = ExpressionTreeBuilder(self); builder.visit(tree); node = builder.stack.pop()`
(parser.py:1736-1738). -/
def buildWith (A : Alloc ν σ) (rt : PyRuntime) (cfg : Config) (h : σ) (t : PTree) :
    Except Exc (ν × σ) := do
  let s ← visit A rt cfg t { heap := h, stack := [] }
  let (n, s) ← popNode s
  .ok (n, s.heap)

end machine

/-- Nodes as pure trees: nothing to allocate. -/
def pureAlloc : Alloc Node Unit := { new := fun k cs l u => (.mk k cs l, u) }

/-- The node built from a parse tree. -/
def build (rt : PyRuntime) (cfg : Config) (t : PTree) : Except Exc Node :=
  (buildWith pureAlloc rt cfg () t).map Prod.fst

end Fcsql
