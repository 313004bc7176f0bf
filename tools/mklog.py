#!/usr/bin/env python3
"""Write seeded/LOG.jsonl from the mutation harness results in /tmp/mut (m*.json, m*.out.jsonl)."""
import json,glob,os
T={t:c['property'] for c in json.load(open('/verif/MANIFEST.json'))['claims'] for t in c['theorems']}
NOTE=json.load(open('/verif/tools/mutnotes.json'))
SRC=''.join(open(p).read() for p in glob.glob('/tmp/mut/pristine/Verif/Props/*.lean'))
out=[]; seen=set()
old='/verif/seeded/LOG.jsonl'
prev={}
if os.path.exists(old):
    for l in open(old):
        r=json.loads(l); prev[r['id']]=r
for f in sorted(glob.glob('/tmp/mut/m*.json')):
    o=f.replace('.json','.out.jsonl')
    if not os.path.exists(o): continue
    ms={m['id']:m for m in json.load(open(f))}
    suf='-'+f.split('/')[-1][:-5] if f.endswith(('m7.json','m8.json')) else ''
    for l in open(o):
        r=json.loads(l); m=ms[r['id']]
        if 'error' in r: continue
        r['bad']=[b for b in r['bad'] if b.split('.')[-1] in SRC or not f.endswith('m3.json')]
        direct=sorted({d[1] for d in r['direct']})
        bad=sorted(b for b in r['bad'] if T.get(b) in m['breaks'] or b.split('.')[-1] in direct)
        hit={T.get(b) for b in r['bad']}
        n=NOTE.get(r['id']+suf,{})
        e=dict(id=r['id']+suf,definition='SM.'+m.get('def',''),file='lean/Verif/'+m['file'],
          edit=m['edit'],old=m.get('old'),new=m.get('new'),claim_broken=m['breaks'],
          theorems_failed=bad,not_failed=[b for b in m['breaks'] if b not in hit],
          theorems_tightened=n.get('tightened',[]),note=n.get('note',''))
        prev[r['id']+suf]=e
with open(old,'w') as g:
    for k in prev: g.write(json.dumps(prev[k],ensure_ascii=False)+"\n")
print(len(prev),[k for k,v in prev.items() if v['not_failed'] and not v['note']])
