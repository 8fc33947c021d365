#!/usr/bin/env python3
"""Write seeded/LOG.jsonl from the results of the mutation harness (a JSON-lines file given as argument)."""
import json, re, subprocess, sys
TIGHT = {
 'L1': ['C07_outside_tokens', 'C48 family', 'the Laid-based layout specifications (whitespace spelled out instead of the model\'s table)'],
 'N16': ['C28_base_class', 'C28_with_class (independent IsA instead of the model\'s isInstance)'],
 'P2': ['C57 constructors (independent Blank, isPySpace_iff)'],
 'B27': ['C24_default_settings', 'C22_default_settings'],
 'B28': ['C22_default_settings'],
 'Vi1': ['C59_aggregate (new)'],
 'Vi2': ['C59_protocol (new; hooks made effectful in the model, before that the edit was not observable)'],
 'Vi5': ['C59_last_child (new)'],
 'Vi6': ['C31_adapter_methods (new)'],
}
TIGHT.update(json.load(open('/verif/tools/tightened.json')))
# claims as they are numbered in properties.jsonl (some rounds were started with other numbers)
CLAIM = {'R1': 'C33', 'R2': 'C26', 'R3': 'C26', 'R4': 'C26', 'R5': 'C24', 'R6': 'C40', 'R7': 'C40', 'R8': 'C34', 'R9': 'C72', 'R10': 'C38',
 'R11': 'C43', 'R12': 'C43', 'R18': 'C44', 'R35': 'C37', 'R36': 'C37', 'R37': 'C40', 'R38': 'C34', 'R39': 'C34', 'R40': 'C34'}
DECL = re.compile(r'\s*(?:@\[.*?\]\s*)?(?:private\s+)?(theorem|def|abbrev|structure|inductive)\b\s*([\w\.\'?]*)')
def decl(f, old):
    for rev in ['HEAD', '4ed896d', '00267d2', 'c112ecc']:
        s = subprocess.run(['git','-C','/verif','show',f'{rev}:lean/Verif/{f}'],capture_output=True,text=True).stdout
        i = s.find(old)
        if i >= 0:
            # first line of the edit, or the nearest declaration before it
            ls = s[:i + len(old.split('\n')[0])].split('\n')
            for l in reversed(ls):
                m = DECL.match(l)
                if m and not l.startswith('  '): return m.group(2)
    return '?'
seen = {}
for l in open(sys.argv[1]):
    r = json.loads(l)
    if 'error' not in r: seen[r['id']] = r
with open('/verif/seeded/LOG.jsonl', 'w') as o:
    for r in seen.values():
        o.write(json.dumps({
          'id': r['id'],
          'definition': [f"{f}: {decl(f, old)}" for f, old, _ in r['edits']],
          'bug': r.get('what') or r['note'],
          'edit': [{'from': a, 'to': b} for _, a, b in r['edits']],
          'claim_broken': CLAIM.get(r['id'], r['claim']),
          'killed': not r['ok'],
          'theorems_failed': r['failed'],
          'property_modules_no_longer_building': r['blocked_props'],
          'theorems_tightened': TIGHT.get(r['id'], []),
        }, ensure_ascii=False) + '\n')
