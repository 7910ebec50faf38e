#!/usr/bin/env python3
"""writes MANIFEST.json from tools/claims.txt: id|status|thm,thm|note"""
import json
claims=[]
for l in open('/verif/tools/claims.txt'):
    l=l.rstrip('\n')
    if not l or l.startswith('#'): continue
    i,st,th,note=l.split('|',3)
    claims.append(dict(property=i,status=st,theorems=[t.strip() for t in th.split(',') if t.strip()],note=note))
json.dump({"claims":claims},open('/verif/MANIFEST.json','w'),indent=1)
