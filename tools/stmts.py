#!/usr/bin/env python3
"""Prints statement (without proof) of every theorem attached to a property: stmts.py <regex of ids> <files...>"""
import re,sys
rx=re.compile(sys.argv[1])
for f in sys.argv[2:]:
    ls=open(f).read().split('\n'); i=0; doc=[]
    while i<len(ls):
        l=ls[i]
        if l.startswith('/--'):
            doc=[l]
            while '-/' not in ls[i]: i+=1; doc.append(ls[i])
        m=re.match(r'theorem (C\d\d_\S+)',l)
        if m and rx.match(m.group(1)):
            out=[]
            while True:
                out.append(ls[i])
                if re.search(r':= by$|:=$|:= ',ls[i]): break
                i+=1
            print('\n'.join(doc)); print('\n'.join(out)); print()
        if not l.startswith('/--'): doc=[] if l.strip() else doc
        i+=1
