#!/usr/bin/env python3
"""amend.py ID field text... : replace a field of a property"""
import json,sys
def amend(pid, **kw):
    p='/verif/properties.jsonl'
    rows=[json.loads(l) for l in open(p)]
    hit=False
    for r in rows:
        if r['id']==pid:
            r.update(kw); hit=True
    if not hit:
        rows.append(dict(id=pid, **kw))
    open(p,'w').write(''.join(json.dumps(r,ensure_ascii=False)+'\n' for r in rows))
def add(pid, extra):
    p='/verif/properties.jsonl'
    for l in list(open(p)):
        r=json.loads(l)
        if r['id']==pid: amend(pid, statement=r['statement']+' '+extra)
