#!/usr/bin/env python3
"""Writes MANIFEST.json and lean/Verif/Axioms.lean from tools/claims.json."""
import json,os
here=os.path.dirname(os.path.abspath(__file__)); root=os.path.dirname(here)
claims=json.load(open(os.path.join(here,'claims.json')))
props=[json.loads(l)['id'] for l in open(os.path.join(root,'properties.jsonl'))]
out=[]
mods=set()
for pid in props:
    c=claims.get(pid)
    if c is None: continue
    out.append({"property":pid,"status":c["status"],"theorems":c["theorems"],"note":c["note"]})
    mods.add(c["module"]) if "module" in c else None
    for m in c.get("modules",[]): mods.add(m)
json.dump({"claims":out},open(os.path.join(root,'MANIFEST.json'),'w'),indent=1,ensure_ascii=False)
with open(os.path.join(root,'lean/Verif/Axioms.lean'),'w') as f:
    for m in sorted(mods): f.write("import "+m+"\n")
    f.write("\n/-! Axiom audit: generated by tools/mkmanifest.py; prints the axioms of every theorem claimed in MANIFEST.json. -/\n\n")
    seen=set()
    for c in out:
        for t in c["theorems"]:
            if t not in seen:
                seen.add(t); f.write("#print axioms "+t+"\n")
with open(os.path.join(root,'lean/Verif.lean'),'w') as f:
    for m in sorted(mods): f.write("import "+m+"\n")
    f.write("import Verif.Axioms\n")
missing=[p for p in props if p not in claims]
print(len(out),"claims; missing:",missing)
