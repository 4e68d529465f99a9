#!/usr/bin/env python3
"""usage: tolog.py outfile: appends the results of mutate.py to seeded/LOG.jsonl (skips ids already there)."""
import json,sys
L='/verif/seeded/LOG.jsonl'
have={json.loads(l)['id'] for l in open(L)}
n=0
with open(L,'a') as f:
    for l in open(sys.argv[1]):
        j=json.loads(l)
        if j['id'] in have: continue
        f.write(json.dumps({"id":j['id'],"definition":j['definition'],"edit":j['edit'],"claim":j['claim'],"theorems_failed":j.get('theorems_failed',[]),
          "lemmas_failed_directly":j.get('directly_failed',[]),"theorems_tightened":j.get('tightened',[]),"note":j.get('note','')})+"\n"); n+=1
print(n)
