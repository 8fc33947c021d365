#!/usr/bin/env python3
"""Writes lean/Verif/Tests/Regression.lean from /repo/tests/regression (the project's own tests, run on the model)."""
import pathlib
base = pathlib.Path('/repo/tests/regression')
def load(f):
    c = f.read_text(encoding='utf-8').strip()
    return c.split("\n") if "\n" in c else [c]
def lean(s):
    return 'py!"' + s.replace('\\', '\\\\').replace('"', '\\"').replace('\n', '\\n').replace('\t', '\\t') + '"'
out = ['''/-
The project's regression tests (tests/regression/test_regression.py), run on the model by the kernel.
Generated by tools/gen_regression.py.  These are tests of the model, not proofs of properties.
-/
import Verif.Props.Examples

set_option autoImplicit false

namespace Fcsql

/-- Whether the model of `QueryParser().parse` returns a tree. -/
def accepts (q : PyStr) : Bool := match (parseQuery rt0 defaultConfig q).1 with | .ok _ => true | .error _ => false
''']
for kind, val in (('valid', 'true'), ('invalid', 'false')):
    for f in sorted((base / kind).glob('test*.txt')):
        out.append(f'\n-- tests/regression/{kind}/{f.name}')
        for q in load(f):
            out.append(f'example : accepts {lean(q)} = {val} := by decide +kernel')
out.append('\nend Fcsql\n')
p = pathlib.Path('/verif/lean/Verif/Tests'); p.mkdir(exist_ok=True)
(p / 'Regression.lean').write_text('\n'.join(out), encoding='utf-8')
