"""usage: design_row.py "<table row>" "<finding line or empty>" : adds a row to section 3 and a finding to section 5 of DESIGN.md"""
import sys
p='/verif/DESIGN.md'
L=open(p).read().split('\n')
i=next(k for k,l in enumerate(L) if l.startswith('## 4.'))
j=max(k for k in range(i) if L[k].startswith('|'))
L.insert(j+1,sys.argv[1])
if len(sys.argv)>2 and sys.argv[2]:
    k=next(k for k,l in enumerate(L) if l.startswith('## 6.'))
    while L[k-1].strip()=='' : k-=1
    L.insert(k,'- '+sys.argv[2])
open(p,'w').write('\n'.join(L))
