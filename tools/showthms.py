#!/usr/bin/env python3
"""Print the statements of the theorems of the given properties."""
import json,sys,re,glob
src={}
for f in glob.glob('/verif/lean/Verif/Props/*.lean')+glob.glob('/verif/lean/Verif/Lemmas/*.lean'): src[f]=open(f).read()
cl={c['property']:c for c in json.load(open('/verif/MANIFEST.json'))['claims']}
pr={json.loads(l)['id']:json.loads(l) for l in open('/verif/properties.jsonl')}
for c in sys.argv[1:]:
    print('=====',c,pr[c]['title'],'|',cl[c]['status'],'\n',pr[c]['statement'])
    for t in cl[c]['theorems']:
        n=t.split('.')[-1]; ns='.'.join(t.split('.')[:-1])
        for f,s in src.items():
            m=re.search(r'((?:/--(?:(?!-/).)*?-/\n)?(?:@\[[^\]]*\] )?theorem '+re.escape(n)+r'\b.*?:= *(?:by|\n|fun|⟨|[A-Za-z]))',s,re.S)
            if m: print('--',f.split('/')[-1]); print(m.group(1)); break
        else: print('?? not found',t)
