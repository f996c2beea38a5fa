#!/usr/bin/env python3
"""amlog.py AUTOMUT.jsonl: adds the results of tools/automut.py (without edits that do not typecheck) to seeded/LOG.jsonl, once each.
FIX: what was done about survivors (file, definition -> theorems tightened, or reason why the edited program still meets the claims)."""
import sys,json,re
CL={'Detail/Helpers':'C48, C50-C53','Detail/Schwarz':'C28','Mem/Alloc':'C42, C43','Mem/Layout':'C41, C46','Mem/Pool':'C45','Mem/Shadow':'C46, C47','Mem/Traits':'C44','Mem/Valgrind':'C85','Build/CMake':'C84','Build/Jam':'C84',
'Fiber/Model':'C01-C20, C54, C55','Cont/Model':'C21','UFiber/Model':'C22-C26, C56','UCont/Model':'C68-C71, C91','Mem/Record':'C89','UFiber/Records':'C86','Hooks/Asan':'C73','Hooks/Tsan':'C74','Hooks/Winfib':'C75','Hooks/Mask':'C87','Hooks/Split':'C72','Hooks/Proto':'C72-C75','Hooks/Hist':'C72-C75','Hooks/Trace':'C72-C75','Backends/Spec':'C27','Link/Prims':'C80','Link/Machine':'C80'}
FIX=json.load(open('/verif/tools/amfix.json'))
seen=set(); out=[]
for l in open('/verif/seeded/LOG.jsonl'):
    d=json.loads(l); seen.add((d.get('definition'),d.get('edit')))
n=0
with open('/verif/seeded/LOG.jsonl','a') as o:
  for l in open(sys.argv[1]):
    d=json.loads(l); r=d['result']
    if r.startswith('invalid'): continue
    f=d['file'][:-5]; de=f+': '+d['definition']
    if (de,d['edit']) in seen: continue
    s='SURV' in r
    x=FIX.get(f+':'+d['definition'],{}) if s else {}
    if isinstance(x,list): x=next((y for y in x if y['match'] in d['edit']),{})
    if s and not x: print('no entry for survivor',f,d['definition'],d['line'],d['edit'][:150]); continue
    o.write(json.dumps({'name':'automut','definition':de,'edit':d['edit'],'claim_broken':x.get('note') or CL.get(f,'?')+': whichever theorem rests on this definition (systematic mutation)',
      'theorems_failed':[] if s else [r.replace('killed by ','')],'theorems_tightened':x.get('tightened',[]),'survived':s},ensure_ascii=False)+'\n'); n+=1
print('added',n)
