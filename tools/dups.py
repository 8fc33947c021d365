"""List names declared in more than one file (all modules share one namespace)."""
import re, os, collections
root = os.path.join(os.path.dirname(os.path.abspath(__file__)), "..", "lean", "Verif")
seen = collections.defaultdict(list)
for d, _, fs in os.walk(root):
    for f in fs:
        if f.endswith(".lean"):
            for m in re.finditer(r"^(?:@\[.*?\] )?(?:private )?(?:theorem|def|abbrev|structure|inductive|lemma) (\S+)", open(os.path.join(d, f)).read(), re.M):
                seen[m.group(1)].append(os.path.relpath(os.path.join(d, f), root))
for k, v in sorted(seen.items()):
    if len(set(v)) > 1: print(k, v)
