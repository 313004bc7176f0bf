#!/usr/bin/env python3
"""tighten.py Cxx full.theorem.name[,..] [MUT note]: add theorems to a claim and a note to a mutant."""
import json,sys
c,ths=sys.argv[1],[t for t in sys.argv[2].split(',') if t]
p='/verif/tools/claims.json'; d=json.load(open(p))
for t in ths:
    if t not in d[c]['theorems']: d[c]['theorems'].append(t)
json.dump(d,open(p,'w'),indent=1,ensure_ascii=False)
if len(sys.argv)>3:
    p='/verif/tools/mutnotes.json'; d=json.load(open(p))
    d[sys.argv[3]]={"note":sys.argv[4],"tightened":ths}
    json.dump(d,open(p,'w'),indent=1,ensure_ascii=False)
