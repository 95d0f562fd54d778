#!/usr/bin/env python3
"""Prints, for every theorem of MANIFEST.json, the axioms it depends on (needs a built lean/). Writes AXIOMS.md."""
import json, subprocess, re, collections
m = json.load(open('/verif/MANIFEST.json'))
th = [t for c in m['claims'] for t in c['theorems']]
src = 'import Verif\n' + ''.join(f'#print axioms {t}\n' for t in th)
open('/tmp/ax.lean', 'w').write(src)
r = subprocess.run(['lake', 'env', 'lean', '/tmp/ax.lean'], cwd='/verif/lean', capture_output=True, text=True)
out = re.sub(r'\n\s+', ' ', r.stdout)
d = {}
for l in out.split('\n'):
    a = re.match(r"'(\S+)' depends on axioms: \[(.*)\]", l)
    b = re.match(r"'(\S+)' does not depend on any axioms", l)
    if a: d[a.group(1)] = ', '.join(sorted(x.strip() for x in a.group(2).split(',')))
    if b: d[b.group(1)] = '(none)'
missing = [t for t in th if t not in d]
assert not missing, missing
g = collections.defaultdict(list)
for t in th: g[d[t]].append(t)
with open('/verif/AXIOMS.md', 'w') as f:
    f.write('# Axioms of the property theorems\n\nGenerated by tools/axioms.py from `#print axioms`.\n')
    for k in sorted(g):
        f.write(f'\n## {k} ({len(g[k])} theorems)\n\n' + '\n'.join('* ' + t for t in g[k]) + '\n')
print({k: len(v) for k, v in g.items()})
