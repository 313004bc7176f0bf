# usage: addclaims.py  < json dict ; merges into claims.json
import json,sys
f='/verif/tools/claims.json'
d=json.load(open(f)); d.update(json.load(sys.stdin))
with open(f,'w') as o:
    o.write("{\n"+",\n".join(json.dumps(k)+":"+json.dumps(d[k]) for k in sorted(d))+"\n}\n")
