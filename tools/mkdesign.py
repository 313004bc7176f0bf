#!/usr/bin/env python3
import json,sys
props=[json.loads(l) for l in open('/verif/properties.jsonl')]
plan=json.load(open('/verif/tools/plan.json'))
head=open('/verif/tools/design_head.md').read()
out=[head,"\n## Plan per property\n\n| id | property | model module | what is modelled and how it is proved |\n|---|---|---|---|\n"]
for p in props:
    m,t=plan.get(p['id'],("-","to be decided"))
    out.append(f"| {p['id']} | {p['title']} | {m} | {t} |\n")
out.append(open('/verif/tools/design_notes.md').read())
out.append(open('/verif/tools/coverage.md').read())
open('/verif/DESIGN.md','w').write(''.join(out))
