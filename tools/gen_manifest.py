#!/usr/bin/env python3
"""Writes MANIFEST.json: theorem names are collected from lean/Verif/Props by their Cxx_ prefix."""
import json, re, glob
thms = {}
for f in sorted(glob.glob('/verif/lean/Verif/Props/*.lean')):
    for m in re.finditer(r'^theorem (C(\d\d\d?)_\w+)', open(f).read(), re.M):
        thms.setdefault('C' + m.group(2), []).append('Fcsql.' + m.group(1))
props = [json.loads(l)['id'] for l in open('/verif/properties.jsonl')]
notes = json.load(open('/verif/tools/notes.json'))
# theorems under another property's prefix that also belong here
extra = {
    'C13': [], 'C20': ['Fcsql.C22_expression_as_written'], 'C17': ['Fcsql.C22_expression_as_written'],
    'C15': ['Fcsql.C16_bounds_as_written'], 'C21': ['Fcsql.C22_expression_as_written'],
    'C23': ['Fcsql.C22_expression_as_written'], 'C04': ['Fcsql.C24_all_or_none'],
}
claims = []
for p in props:
    ts = thms.get(p, []) + extra.get(p, [])
    n = notes.get(p, {})
    if not ts:
        print('no theorems for', p); 
        continue
    status = n.get('status') or ('partial' if any(t.endswith('_partial') or t.endswith('_refuted') for t in ts) else 'proved')
    claims.append({'property': p, 'status': status, 'theorems': ts, 'note': n.get('note', '')})
json.dump({'claims': claims}, open('/verif/MANIFEST.json', 'w'), indent=1, ensure_ascii=False)
