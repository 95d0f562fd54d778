#!/usr/bin/env python3
"""Re-collect the theorem names of every entry of manifest.txt from lean/Verif/Props; notes and states stay."""
import re, glob
names = {}
for f in sorted(glob.glob('/verif/lean/Verif/Props/*.lean')):
    n = f.split('/')[-1][:-5]
    s = open(f).read()
    ns = re.search(r'^namespace (\S+)', s, re.M).group(1)
    for t in re.findall(r'^theorem (C\d\d_\w+)', s, re.M):
        names.setdefault(t[:3], []).append(ns + '.' + t)
out = []
used=set()
for l in open('/verif/tools/manifest.txt').read().split('\n'):
    m = re.match(r'(C\d\d) (proved|partial|not_applicable)(.*)$', l)
    if m:
        old = m.group(3).split()
        new = [t for t in old if t in names.get(m.group(1), []) or not t.split('.')[-1].startswith(m.group(1)+'_')]
        new += [t for t in names.get(m.group(1), []) if t not in new]
        gone = [t for t in old if t not in new]
        if gone or len(new) != len(old): print(m.group(1), 'added', len(new)-len(old)+len(gone), 'gone', gone)
        l = f'{m.group(1)} {m.group(2)} ' + ' '.join(new)
    out.append(l)
open('/verif/tools/manifest.txt', 'w').write('\n'.join(out))
