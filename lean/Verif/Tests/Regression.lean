/-
The project's regression tests (tests/regression/test_regression.py), run on the model by the kernel.
Generated by tools/gen_regression.py.  These are tests of the model, not proofs of properties.
-/
import Verif.Props.Examples

set_option autoImplicit false

namespace Fcsql

/-- Whether the model of `QueryParser().parse` returns a tree. -/
def accepts (q : PyStr) : Bool := match (parseQuery rt0 defaultConfig q).1 with | .ok _ => true | .error _ => false


-- tests/regression/valid/test.txt
example : accepts py!"[attr='flagged regexp'/l & attr!='unflagged regexp']" = true := by decide +kernel
example : accepts py!"\"a\" | 'b'" = true := by decide +kernel
example : accepts py!"'\"a\" or \\'b\\''" = true := by decide +kernel
example : accepts py!"('a sequence + '{1,5} 'optional\\n\\\\'?)" = true := by decide +kernel

-- tests/regression/valid/test11.txt
example : accepts py!"\"dogs\" []{3,} \"cats\"" = true := by decide +kernel

-- tests/regression/valid/test13.txt
example : accepts py!"[x-xx = \"NOUN\"]" = true := by decide +kernel

-- tests/regression/valid/test14.txt
example : accepts py!"[pos:y = \"ADJ\"]" = true := by decide +kernel

-- tests/regression/valid/test15.txt
example : accepts py!"[z:pos = \"ADJ\"]" = true := by decide +kernel

-- tests/regression/valid/test16.txt
example : accepts py!"[z:pos = \"ADJ\" | q:pos = \"ADJ\"]" = true := by decide +kernel

-- tests/regression/valid/test17.txt
example : accepts py!"[text = 'foo']" = true := by decide +kernel

-- tests/regression/valid/test18.txt
example : accepts py!"[l = 'foo']" = true := by decide +kernel

-- tests/regression/valid/test19.txt
example : accepts py!"\"\\\\\"" = true := by decide +kernel
example : accepts py!"\"\\\"\"" = true := by decide +kernel
example : accepts py!"\"\\'\"" = true := by decide +kernel
example : accepts py!"\"\\n\"" = true := by decide +kernel
example : accepts py!"\"\\t\"" = true := by decide +kernel
example : accepts py!"\"\\u00f6\"" = true := by decide +kernel
example : accepts py!"\"\\u00f6de\"" = true := by decide +kernel
example : accepts py!"\"O\\u00f6de\"" = true := by decide +kernel
example : accepts py!"\"a\\u030c\"" = true := by decide +kernel
example : accepts py!"[foo:text = \"bar\"]" = true := by decide +kernel
example : accepts py!"\"\\x41\"" = true := by decide +kernel
example : accepts py!"\"\\u0041\"" = true := by decide +kernel
example : accepts py!"\"\\U00000041\"" = true := by decide +kernel
example : accepts py!"\"x\\xffx\"" = true := by decide +kernel
example : accepts py!"\"x\\x41x\"" = true := by decide +kernel
example : accepts py!"\"x\\u0041x\"" = true := by decide +kernel
example : accepts py!"\"x\\U00000041x\"" = true := by decide +kernel
example : accepts py!"\"\\.\"" = true := by decide +kernel
example : accepts py!"\"\\^\"" = true := by decide +kernel
example : accepts py!"\"\\$\"" = true := by decide +kernel
example : accepts py!"\"\\*\"" = true := by decide +kernel
example : accepts py!"\"\\+\"" = true := by decide +kernel
example : accepts py!"\"\\?\"" = true := by decide +kernel
example : accepts py!"\"\\(\"" = true := by decide +kernel
example : accepts py!"\"\\)\"" = true := by decide +kernel
example : accepts py!"\"\\{\"" = true := by decide +kernel
example : accepts py!"\"\\[\"" = true := by decide +kernel
example : accepts py!"\"\\|\"" = true := by decide +kernel
example : accepts py!"\"\\.\\^\\$\\*\\+\\?\\(\\)\\{\\[\\|\"" = true := by decide +kernel
example : accepts py!"\".^$*+?(){}[]|\"" = true := by decide +kernel
example : accepts py!"\"a(b|c)\"" = true := by decide +kernel
example : accepts py!"\"a\\(b|c\\)\"" = true := by decide +kernel
example : accepts py!"\"(\\u00f6de|\\\"a\\u030c\\\")\"" = true := by decide +kernel

-- tests/regression/valid/test2.txt
example : accepts py!"\"a\" | 'b'" = true := by decide +kernel

-- tests/regression/valid/test3.txt
example : accepts py!"\"a test of quoted multi-word expr\"" = true := by decide +kernel

-- tests/regression/valid/test4.txt
example : accepts py!"\"Dog\" /i" = true := by decide +kernel

-- tests/regression/valid/test5.txt
example : accepts py!"[word = \"Dog\"/c]" = true := by decide +kernel

-- tests/regression/valid/test6.txt
example : accepts py!"[pos = \"NOUN\"]" = true := by decide +kernel

-- tests/regression/valid/test7.txt
example : accepts py!"[pos != \"NOUN\"]" = true := by decide +kernel

-- tests/regression/valid/test8.txt
example : accepts py!"[lemma = \"walk\"]" = true := by decide +kernel

-- tests/regression/valid/test9.txt
example : accepts py!"\"blaue|grüne\" [pos = \"NOUN\"]" = true := by decide +kernel

-- tests/regression/invalid/test10.txt
example : accepts py!"\"dogs\" []{3,0} \"cats\"" = false := by decide +kernel

-- tests/regression/invalid/test12.txt
example : accepts py!"[-xxx = \"NOUN\"]" = false := by decide +kernel

end Fcsql
