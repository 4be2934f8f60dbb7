#!/usr/bin/env python3
"""seedlog.py RESULTS.jsonl: append mutation results to seeded/LOG.jsonl."""
import json,sys
FIX={"uint_to_string_eq":["Props.C12_uint_to_string","Props.C12_int_to_string","Props.C14_uint_string","Props.C14_int_string"],
 "int_to_string_eq":["Props.C12_int_to_string","Props.C14_int_string"]}
have=set()
p='/verif/seeded/LOG.jsonl'
for l in open(p):
    j=json.loads(l); have.add((j['definition'],j['edit']))
with open(p,'a') as f:
    for l in open(sys.argv[1]):
        r=json.loads(l)
        if (r['definition'],r['edit']) in have: continue
        t=r['theorems_failed']
        for x in r['failed']: t=t or FIX.get(x.split('.')[-1],[])
        f.write(json.dumps(dict(definition=r['definition'],edit=r['edit'],claim=r['claim'],
          theorems_failed=t or r['failed'], lemmas_failed=r['failed'], theorems_tightened=r.get('tightened',[])))+"\n")
