/-
Specification of node types, blank strings and constructor arguments.
-/
import Verif.Model.Node

set_option autoImplicit false

namespace Fcsql

/-- The node class each node type is documented to stand for (parser.py:57-82). -/
def NodeType.documentedClass : NodeType → Clazz
  | .QUERY_SEGMENT => .QuerySegment
  | .QUERY_GROUP => .QueryGroup
  | .QUERY_SEQUENCE => .QuerySequence
  | .QUERY_DISJUNCTION => .QueryDisjunction
  | .QUERY_WITH_WITHIN => .QueryWithWithin
  | .EXPRESSION => .Expression
  | .EXPRESSION_WILDCARD => .ExpressionWildcard
  | .EXPRESSION_GROUP => .ExpressionGroup
  | .EXPRESSION_OR => .ExpressionOr
  | .EXPRESSION_AND => .ExpressionAnd
  | .EXPRESSION_NOT => .ExpressionNot
  | .SIMPLE_WITHIN => .SimpleWithin

/-- The characters with Unicode property White_Space and the four separators U+001C to U+001F: what Python's
`str.isspace` accepts. -/
def blankChars : List Nat :=
  [0x09, 0x0A, 0x0B, 0x0C, 0x0D, 0x1C, 0x1D, 0x1E, 0x1F, 0x20, 0x85, 0xA0, 0x1680, 0x2000, 0x2001, 0x2002, 0x2003, 0x2004,
   0x2005, 0x2006, 0x2007, 0x2008, 0x2009, 0x200A, 0x2028, 0x2029, 0x202F, 0x205F, 0x3000]

/-- Empty or only whitespace. -/
def Blank (s : PyStr) : Prop := ∀ c ∈ s, c ∈ blankChars

end Fcsql
