#!/usr/bin/env python3
"""Generates lean/Verif/Build/JamTable.lean from the alternatives of asm_sources in /repo/build/Jamfile.v2."""
import re
t=open('/repo/build/Jamfile.v2').read()
out=['/-!','# The alternatives of `asm_sources` in `build/Jamfile.v2`','','Generated by `tools/jam2lean.py`; the comment gives the lines of the alternative.','-/','','namespace Verif.Build','',
'/-- an alternative of a Jam target: sources and conditions `<feature>value` -/','structure Alt where','  sources : List String','  conds : List (String × String)','  deriving DecidableEq','',
'/-- build/Jamfile.v2, the alternatives of `asm_sources`, in order -/','def asmSources : List Alt := [']
alts=[]
for m in re.finditer(r'^alias asm_sources\s*(.*?)\n\s*;',t,re.S|re.M):
    a=t[:m.start()].count('\n')+1; b=t[:m.end()].count('\n')+1
    parts=[x.split() for x in re.split(r'(?:^|\n)\s*: ',m.group(1)) if x.strip()]
    assert len(parts)==2,parts
    src=parts[0]; con=[re.fullmatch(r'<([^>]+)>(\S+)',c).groups() for c in parts[1]]
    alts.append('  -- lines %d-%d\n  ⟨[%s],\n   [%s]⟩'%(a,b,', '.join('"%s"'%s for s in src),', '.join('("%s", "%s")'%c for c in con)))
out.append(',\n'.join(alts)+']'); out+=['','end Verif.Build','']
open('/verif/lean/Verif/Build/JamTable.lean','w').write('\n'.join(out))
print(len(alts))
