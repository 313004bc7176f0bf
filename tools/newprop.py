#!/usr/bin/env python3
"""Add a property: JSON list on stdin of {title, statement, quantifier, why, anchors(py expr), plan:[module,text]}; prints ids."""
import json,sys,re
P='/verif/tools/mkprops.py'; PL='/verif/tools/plan.json'
s=open(P).read(); plan=json.load(open(PL))
n=max(int(k[1:]) for k in plan)
for q in json.load(sys.stdin):
    n+=1; cid='C%02d'%n
    t='p(%s,\n  %s,\n  %s,%s,%s)\n'%(json.dumps(q['title']),json.dumps(q['statement']),json.dumps(q['quantifier']),json.dumps(q['why']),q['anchors'])
    s=s.replace('if __name__==',t+'if __name__==',1); plan[cid]=q['plan']; print(cid)
open(P,'w').write(s); json.dump(plan,open(PL,'w'),indent=0,ensure_ascii=False)
