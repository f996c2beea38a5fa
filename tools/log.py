#!/usr/bin/env python3
"""Appends the output of mutate.py to seeded/LOG.jsonl: log.py <out> (replaces older entries of the same name)."""
import sys,json,os
p='/verif/seeded/LOG.jsonl'
old=[json.loads(l) for l in open(p)] if os.path.exists(p) else []
d={o['name']:o for o in old}
for l in open(sys.argv[1]):
    m=json.loads(l)
    if 'error' in m: print('skip',m); continue
    t=d.get(m['name'],{}).get('theorems_tightened',[])
    d[m['name']]=dict(name=m['name'],definition=m['definition'],edit=m['edit'],claim_broken=m['claim_broken'],theorems_failed=m['theorems_failed'],theorems_tightened=m.get('theorems_tightened',t),survived=m['survived'])
with open(p,'w') as f:
    for o in d.values(): f.write(json.dumps(o)+'\n')
