#!/usr/bin/env python3
"""Writes MANIFEST.json from tools/manifest.txt.
Format: lines `Cxx status thm thm ...` followed by one or more indented note lines."""
import json, re
claims=[]
for line in open("/verif/tools/manifest.txt"):
    if not line.strip() or line.startswith("#"): continue
    if line[0]=="C":
        w=line.split()
        claims.append({"property":w[0],"status":w[1],"theorems":w[2:],"note":""})
    else:
        claims[-1]["note"]=(claims[-1]["note"]+" "+line.strip()).strip()
claims.sort(key=lambda c:c["property"])
json.dump({"claims":claims},open("/verif/MANIFEST.json","w"),indent=1)
