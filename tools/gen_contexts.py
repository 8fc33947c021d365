#!/usr/bin/env python3
"""Transcribe the context classes of FCSParser.py and the method names of FCSParserListener.py, FCSParserVisitor.py and
`ExpressionTreeBuilder` (parser.py) into Verif/Model/ContextData.lean."""
import ast
SRC='/repo/src/fcsql/'
def cls(path, name):
    t=ast.parse(open(SRC+path).read())
    return next(c for c in t.body if isinstance(c,ast.ClassDef) and c.name==name)
P=cls('FCSParser.py','FCSParser')
consts={}
for s in P.body:
    if isinstance(s,ast.Assign) and isinstance(s.targets[0],ast.Name):
        try: consts[s.targets[0].id]=ast.literal_eval(s.value)
        except Exception: pass
ruleNames=consts['ruleNames']; symbolic=consts['symbolicNames']
ctxs=[c for c in P.body if isinstance(c,ast.ClassDef)]
def lean_rule(n): return 'attribute_' if n=='attribute' else n
rule_of_ctx={c.name:None for c in ctxs}
def only_call(st):  # return self.getX(FCSParser.Y[, i])
    c=st.value
    return c.func.attr, c.args[0].attr, (c.args[1] if len(c.args)>1 else None)
info={}
for c in ctxs:
    fs={f.name:f for f in c.body if isinstance(f,ast.FunctionDef)}
    ri=fs['getRuleIndex'].body[0].value.attr
    rule_of_ctx[c.name]=ruleNames[consts[ri]]
    def hook(n):
        f=fs[n].body[0]
        name=f.test.args[1].value
        called=(f.body[0].value.func.attr)
        assert name==called
        assert ast.unparse(f.body[0].value.args[0])=='self'
        if n=='accept': assert ast.unparse(f.orelse[0])=='return visitor.visitChildren(self)'
        else: assert f.orelse==[]
        return name
    accs=[]
    for n,f in fs.items():
        if n in ('__init__','getRuleIndex','enterRule','exitRule','accept'): continue
        b=f.body
        if isinstance(b[0],ast.Return):
            g,y,i=only_call(b[0]); assert i.value==0 and g in('getToken','getTypedRuleContext'); many=False
        else:
            assert ast.unparse(b[0].test)=='i is None'
            g,y,i=only_call(b[0].body[0]); assert i is None and g in('getTokens','getTypedRuleContexts')
            g2,y2,i2=only_call(b[0].orelse[0]); assert y2==y and i2.id=='i' and g2==g[:-1]; many=True
        accs.append((n,g.startswith('getToken'),y,many))
    info[rule_of_ctx[c.name]]=(c,consts[ri],accs,hook('enterRule'),hook('exitRule'),hook('accept'))
# second pass: accessor targets
out=[]
w=out.append
w('''/-
The context classes of `src/fcsql/FCSParser.py` (accessors, listener and visitor hooks) and the method names of
`FCSParserListener.py`, `FCSParserVisitor.py` and `ExpressionTreeBuilder` (`parser.py`), transcribed by
`tools/gen_contexts.py`.
-/
import Verif.Model.Contexts

set_option autoImplicit false

namespace Fcsql

/-- The context class of each rule (lines of FCSParser.py given per rule). -/
def ctxClass : Rule → CtxClass''')
for r in ruleNames:
    c,ri,accs,en,ex,vi=info[r]
    w(f'  -- FCSParser.py:{c.lineno}-{c.end_lineno}')
    w(f'  | .{lean_rule(r)} =>')
    al=[]
    for n,istok,y,many in accs:
        sym=f'.tok .{y}' if istok else f'.rule .{lean_rule(rule_of_ctx[y])}'
        al.append(f'⟨py!"{n}", {sym}, {"true" if many else "false"}⟩')
    w(f'    {{ name := py!"{c.name}", ruleIndex := {ri}, enter := py!"{en}", exit := py!"{ex}", accept := py!"{vi}"')
    w(f'      accessors := [{(","+chr(10)+"        ").join(al)}] }}')
def methods(path,name,pred=lambda f:True):
    return [f.name for f in cls(path,name).body if isinstance(f,ast.FunctionDef) and pred(f)], cls(path,name)
def wl(doc,nm,l):
    w('')
    w(doc); w(f'def {nm} : List PyStr :=')
    w('  ['+',\n    '.join(', '.join(f'py!"{x}"' for x in l[i:i+3]) for i in range(0,len(l),3))+']')
l,c=methods('FCSParserListener.py','FCSParserListener')
for f in c.body:
    if isinstance(f,ast.FunctionDef): assert ast.unparse(f.body[0])=='pass'
wl(f'/-- The methods `FCSParserListener` defines, all doing nothing (FCSParserListener.py:{c.lineno}-{c.end_lineno}). -/','listenerMethods',l)
l,c=methods('FCSParserVisitor.py','FCSParserVisitor')
for f in c.body:
    if isinstance(f,ast.FunctionDef): assert ast.unparse(f.body[0])=='return self.visitChildren(ctx)'
wl(f'/-- The methods `FCSParserVisitor` defines, all `return self.visitChildren(ctx)` (FCSParserVisitor.py:{c.lineno}-{c.end_lineno}). -/','visitorMethods',l)
l,c=methods('parser.py','ExpressionTreeBuilder',lambda f:f.name.startswith('visit'))
wl(f'/-- The `visit*` methods `ExpressionTreeBuilder` overrides (parser.py:{c.lineno}-{c.end_lineno}). -/','builderMethods',l)
w('\nend Fcsql')
open('/verif/lean/Verif/Model/ContextData.lean','w').write('\n'.join(out)+'\n')
