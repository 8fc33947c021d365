#!/usr/bin/env python3
"""Transcribe the generated ANTLR files of /repo into Lean data.

  Verif/Model/ParserAtnData.lean  the integers of FCSParser.serializedATN()  (FCSParser.py:11-105)
  Verif/Model/LexerAtnData.lean   the integers of FCSLexer.serializedATN()   (FCSLexer.py:11-104)
  Verif/Model/ParserCode.lean     the rule functions of FCSParser.py as statements of `Stmt`

The tables `parserAtn` / `lexerAtn` written next to the integers are *proved* in Lean to be what the
(Lean model of the) deserializer makes of the integers, so this script is not trusted for them.
"""
import ast, re, sys
SRC = '/repo/src/fcsql/'
OUT = '/verif/lean/Verif/Model/'

def ints(path):
    tree = ast.parse(open(path).read())
    for f in tree.body:
        if isinstance(f, ast.FunctionDef) and f.name == 'serializedATN':
            return ast.literal_eval(f.body[0].value), f.lineno, f.end_lineno

def deserialize(d):
    p = 0
    def nx():
        nonlocal p
        p += 1
        return d[p-1]
    assert nx() == 4
    gt, mx = nx(), nx()
    states = []
    for _ in range(nx()):
        t = nx()
        assert t != 0
        r = nx(); e = -1
        if t == 12 or t in (3, 4, 5): e = nx()
        states.append([t, r, []])
    for _ in range(2):
        assert nx() == 0
    rules = []
    for _ in range(nx()):
        s = nx(); rules.append((s, nx() if gt == 0 else 0))
    modes = [nx() for _ in range(nx())]
    sets = []
    for _ in range(nx()):
        n = nx(); eof = nx(); assert eof == 0
        sets.append([(nx(), nx()) for _ in range(n)])
    for _ in range(nx()):
        src, trg, ty, a, b, c = [nx() for _ in range(6)]
        if ty == 1: t = f'.eps {trg}'
        elif ty == 3: t = f'.rule {a} {b} {trg}'
        elif ty == 5: t = f'.atom {"(-1)" if c else a} {trg}'
        elif ty == 6: t = f'.action {b} {trg}'
        elif ty == 7: t = f'.set {sets[a]} {trg}'
        elif ty == 8: t = f'.notSet {sets[a]} {trg}'
        else: raise Exception(ty)
        states[src][2].append(t)
    decs = [nx() for _ in range(nx())]
    acts = []
    if gt == 0:
        acts = [(nx(), nx(), nx()) for _ in range(nx())]
    assert p == len(d)
    return gt, mx, states, rules, modes, decs, acts

def wrap(items, n):
    return ',\n    '.join(', '.join(items[i:i+n]) for i in range(0, len(items), n))

def atn(path, name, fname):
    d, a, b = ints(SRC + path)
    gt, mx, states, rules, modes, decs, acts = deserialize(d)
    o = [f'/-\nThe serialized ATN of `src/fcsql/{path}` (lines {a}-{b}), transcribed by `tools/gen_antlr.py`.\n-/',
         'import Verif.Model.Atn', '', 'set_option autoImplicit false', '', 'namespace Fcsql', '']
    o += [f'/-- The integers returned by `serializedATN()` ({path}:{a}-{b}), verbatim. -/',
          f'def {name}Data : List Int :=\n  [ ' + wrap([str(x) for x in d], 24) + ' ]', '']
    st = ['⟨%d, %s, [%s]⟩' % (t, f'({r})' if r < 0 else r, ', '.join(tr)) for t, r, tr in states]
    o += [f'/-- The network those integers describe ({path}:{a}-{b}); proved to be `deserialize {name}Data` in',
          '`Proofs/Atn.lean`. -/',
          f'def {name}Atn : Atn where',
          f'  grammarType := {gt}', f'  maxToken := {mx}',
          '  states := [\n    ' + wrap(st, 3) + ' ]',
          '  rules := [' + ', '.join(f'({x}, {y})' for x, y in rules) + ']',
          f'  modes := {modes}', f'  decisions := {decs}', f'  actions := {acts}', '', 'end Fcsql', '']
    open(OUT + fname, 'w').write('\n'.join(o))

# ---------------------------------------------------------------- rule functions
class Bad(Exception): pass
u = ast.unparse

def is_state(s):
    return isinstance(s, ast.Assign) and u(s.targets[0]) == 'self.state'
def is_sync(s): return u(s) == 'self._errHandler.sync(self)'
def is_la(s): return re.fullmatch(r'(_la|token) = self\._input\.LA\(1\)', u(s))

def test(e):
    s = u(e)
    m = re.fullmatch(r'_la == (\d+)', s)
    if m: return f'.eq {m[1]}'
    m = re.fullmatch(r'_la == (\d+) or _la == (\d+)', s)
    if m: return f'.or (.eq {m[1]}) (.eq {m[2]})'
    m = re.fullmatch(r'_la & ~63 == 0 and 1 << _la & (\d+) != 0', s)
    if m: return f'.mask {m[1]}'
    raise Bad(s)

def block(ss, tok):
    """a list of Python statements -> list of Lean statement strings"""
    out = []; st = None; la = False; i = 0
    while i < len(ss):
        s = ss[i]; t = u(s)
        if isinstance(s, ast.Pass) or re.fullmatch(r'self\.enterOuterAlt\(localctx, \d+\)', t) or t == 'self._la = 0':
            pass
        elif is_state(s):
            st = s.value.value
        elif is_sync(s):
            out.append(f'.sync {st}')
        elif is_la(s):
            la = True
        elif re.fullmatch(r'self\.match\(FCSParser\.(\w+)\)', t):
            k = re.fullmatch(r'self\.match\(FCSParser\.(\w+)\)', t)[1]
            out.append(f'.matchTok {st} {tok[k]}'); la = False
        elif re.fullmatch(r'self\.(\w+)\(\)', t):
            r = re.fullmatch(r'self\.(\w+)\(\)', t)[1]
            out.append(f'.call {st} .{"attribute_" if r == "attribute" else r}'); la = False
        elif re.fullmatch(r'la_ = self\._interp\.adaptivePredict\(self\._input, (\d+), self\._ctx\)', t):
            d = re.search(r', (\d+),', t)[1]
            i += 1; br = []; s = ss[i]; n = 1
            while True:
                assert isinstance(s, ast.If) and u(s.test) == f'la_ == {n}', u(s)
                br.append(block(s.body, tok)); n += 1
                if not s.orelse: break
                assert len(s.orelse) == 1; s = s.orelse[0]
            out.append(f'.predict {d} {lst(br)}')
        elif isinstance(s, ast.If) and u(s.test).startswith('token in'):
            assert la
            cs = []
            while isinstance(s, ast.If):
                cs.append('(%s, %s)' % (u(s.test.comparators[0]), block(s.body, tok)))
                assert len(s.orelse) == 1; s = s.orelse[0]
            assert u(s) == 'raise NoViableAltException(self)'
            out.append(f'.switchLA {lst(cs)}'); la = False
        elif isinstance(s, ast.If) and isinstance(s.test, ast.UnaryOp) and \
                u(s.body[0]) == 'self._errHandler.recoverInline(self)':
            assert la and [u(x) for x in s.orelse] == ['self._errHandler.reportMatch(self)', 'self.consume()']
            out.append(f'.matchSet {st} ({test(s.test.operand)})'); la = False
        elif isinstance(s, ast.If):
            assert la and not s.orelse
            out.append(f'.ifLA ({test(s.test)}) {block(s.body, tok)}'); la = False
        elif isinstance(s, ast.While) and u(s.test) == 'True':
            b = s.body; e = b[-1]
            assert is_state(b[-4]) and is_sync(b[-3]) and is_la(b[-2])
            assert isinstance(e, ast.If) and isinstance(e.test, ast.UnaryOp) and u(e.body[0]) == 'break' and not e.orelse
            out.append(f'.whileLA {block(b[:-4], tok)} {b[-4].value.value} ({test(e.test.operand)})'); la = False
        elif t == '_alt = 1':
            i += 1; s = ss[i]; b = s.body
            assert u(s.test) == '_alt != 2 and _alt != ATN.INVALID_ALT_NUMBER' and len(b) == 4
            assert u(b[0].test) == '_alt == 1' and u(b[0].orelse[0]) == 'raise NoViableAltException(self)'
            assert is_state(b[1]) and is_sync(b[2])
            d = re.fullmatch(r'_alt = self\._interp\.adaptivePredict\(self\._input, (\d+), self\._ctx\)', u(b[3]))[1]
            out.append(f'.whilePredict {block(b[0].body, tok)} {b[1].value.value} {d}')
        else:
            raise Bad(t)
        i += 1
    return lst(out)

def lst(xs): return '[' + ', '.join(xs) + ']'

def code():
    tree = ast.parse(open(SRC + 'FCSParser.py').read())
    cls = [c for c in tree.body if isinstance(c, ast.ClassDef)][0]
    tok = {}; rules = []
    for s in cls.body:
        if isinstance(s, ast.Assign) and isinstance(s.value, ast.Constant) and isinstance(s.value.value, int):
            n = s.targets[0].id
            (rules.append((n[5:], s.value.value)) if n.startswith('RULE_') else tok.__setitem__(n, s.value.value))
    tok['EOF'] = -1
    tokl = {k: (f'({v})' if v < 0 else str(v)) for k, v in tok.items()}
    fns = {f.name: f for f in cls.body if isinstance(f, ast.FunctionDef)}
    o = ['/-\nThe rule functions of `src/fcsql/FCSParser.py`, transcribed statement by statement by',
         '`tools/gen_antlr.py` (state numbers, decision numbers, token sets and bit masks as in the source).\n-/',
         'import Verif.Model.GenParser', '', 'set_option autoImplicit false', '', 'namespace Fcsql', '',
         '/-- The body of the `try` block of each rule function of FCSParser.py (lines given per rule). -/',
         'def code : Rule → List Stmt']
    for r, n in rules:
        f = fns[r]
        body = f.body
        assert re.fullmatch(r'localctx = FCSParser\.\w+Context\(self, self\._ctx, self\.state\)', u(body[0]))
        assert u(body[0]) == f'localctx = FCSParser.{r[0].upper()+r[1:]}Context(self, self._ctx, self.state)'
        assert u(body[1]) == f'self.enterRule(localctx, {2*n}, self.RULE_{r})'
        tr = [s for s in body if isinstance(s, ast.Try)]
        assert len(tr) == 1
        lines = f'FCSParser.py:{f.lineno}-{f.end_lineno}'
        o.append(f'  -- {lines}')
        o.append(f'  | .{"attribute_" if r == "attribute" else r} =>\n    ' + block(tr[0].body, tokl))
    o += ['', 'end Fcsql', '']
    txt = '\n'.join(o)
    # fold long lines
    res = []
    for l in txt.split('\n'):
        while len(l) > 110:
            k = l.rfind(', ', 0, 108)
            res.append(l[:k+1]); l = '      ' + l[k+2:]
        res.append(l)
    open(OUT + 'ParserCode.lean', 'w').write('\n'.join(res))

atn('FCSParser.py', 'parser', 'ParserAtnData.lean')
atn('FCSLexer.py', 'lexer', 'LexerAtnData.lean')
code()
