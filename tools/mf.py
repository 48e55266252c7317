#!/usr/bin/env python3
# usage: mf.py C01 status thm1,thm2 "note"
import json,sys,os
f='/verif/MANIFEST.json'
d=json.load(open(f)) if os.path.exists(f) else {"claims":[]}
pid=[json.loads(l)['id'] for l in open('/verif/properties.jsonl') if l.strip()]
cl={c['property']:c for c in d['claims']}
for i in pid:
    cl.setdefault(i,{"property":i,"status":"partial","theorems":[],"note":"not yet proved"})
def upd(i,st,th,note):
    cl[i]={"property":i,"status":st,"theorems":th,"note":note}
if len(sys.argv)>1:
    if sys.argv[1]=='-':
        for line in sys.stdin:
            line=line.strip()
            if not line: continue
            i,st,th,note=[x.strip() for x in line.split('|',3)]
            upd(i,st,[t for t in th.split(',') if t],note)
    else:
        upd(sys.argv[1],sys.argv[2],[t for t in sys.argv[3].split(',') if t],sys.argv[4])
json.dump({"claims":[cl[i] for i in pid]},open(f,'w'),indent=1)
