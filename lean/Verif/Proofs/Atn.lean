/-
The networks of the generated parser and lexer.
-/
import Verif.Model.ParserAtnData
import Verif.Model.LexerAtnData
import Verif.Proofs.AtnSeg

set_option autoImplicit false

namespace Fcsql

/-- The table is what the deserializer makes of the integers in FCSParser.py. -/
theorem parserAtn_eq : deserialize parserData = some parserAtn := by decide +kernel

/-- The table is what the deserializer makes of the integers in FCSLexer.py. -/
theorem lexerAtn_eq : deserialize lexerData = some lexerAtn := by decide +kernel

/-- The parser's network implements the grammar. -/
theorem parserAtn_implements : Implements parserAtn := Atn.implements_sound (by decide +kernel)

end Fcsql
