#!/usr/bin/env python3
# stdin: JSON list of properties appended to properties.jsonl (ids must be new)
import json,sys
f='/verif/properties.jsonl'
have={json.loads(l)['id'] for l in open(f) if l.strip()}
with open(f,'a') as o:
    for p in json.load(sys.stdin):
        assert p['id'] not in have and set(p)=={'id','title','statement','quantifier','why_tests_cant','anchors'}, p['id']
        o.write(json.dumps(p,ensure_ascii=False)+'\n')
