#!/usr/bin/env python3
"""append mutation results (r*.jsonl produced by mutate.py) to seeded/LOG.jsonl"""
import json,sys
for l in open(sys.argv[1]):
    r=json.loads(l)
    open('/verif/seeded/LOG.jsonl','a').write(json.dumps(dict(definition=f"{r['file']}.{r['def']}",edit=r['edit'],old=r['old'],new=r['new'],claim=r['claim'],theorems_failed=r['failed'],modules_failed=r.get('blocked',[]),theorems_tightened=r.get('tightened',[])),ensure_ascii=False)+'\n')
