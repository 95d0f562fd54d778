import sys
# usage: addm.py ns file Cxx status "note" ; collects theorems Cxx_ from Props/file
import re
ns,cid,status,note=sys.argv[1:5]
th=[]
for n in ns.split(','):
    s=open(f'/verif/lean/Verif/Props/{n}.lean').read()
    th+=[f'Foxes.Props.{n}.{t}' for t in re.findall(r'^theorem ('+cid+r'_\w+)',s,re.M)]
p='/verif/tools/manifest.txt'
m=open(p).read().rstrip('\n')+'\n'
lines=m.split('\n'); out=[]; skip=False
for l in lines:
    if l.startswith(cid+' '): skip=True; continue
    if skip and l.startswith('  '): continue
    skip=False; out.append(l)
m='\n'.join(out).rstrip('\n')+'\n'
m+=f"{cid} {status} "+" ".join(th)+"\n  "+note+"\n"
open(p,'w').write(m); print(cid,len(th))
