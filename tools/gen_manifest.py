#!/usr/bin/env python3
"""Writes MANIFEST.json from tools/manifest.txt.

manifest.txt: blocks `Cxx status` / indented theorem names / `note: ...` lines.
Every theorem name is checked to occur in some .lean file."""
import json,re,glob,os
root=os.path.dirname(os.path.dirname(os.path.abspath(__file__)))
names=set()
for f in glob.glob(root+'/lean/Verif/**/*.lean',recursive=True):
    stack=[]
    for line in open(f):
        m=re.match(r'namespace\s+(\S+)',line)
        if m: stack.append(('ns',m.group(1)))
        elif re.match(r'(noncomputable )?section\b',line): stack.append(('sec',''))
        elif re.match(r'end\b',line):
            if stack: stack.pop()
        m=re.match(r'(?:private )?theorem\s+(\S+)',line)
        if m: names.add('.'.join([n for k,n in stack if k=='ns']+[m.group(1)]))
claims=[];cur=None
for line in open(root+'/tools/manifest.txt'):
    line=line.rstrip('\n')
    if not line.strip() or line.startswith('#'): continue
    if not line.startswith(' '):
        a=line.split(); cur={"property":a[0],"status":a[1],"theorems":[],"note":""}; claims.append(cur)
    elif line.strip().startswith('note:'): cur["note"]+=(' ' if cur["note"] else '')+line.strip()[5:].strip()
    else:
        for n in line.split():
            full='Mim.'+n
            if full not in names: print("MISSING",full)
            cur["theorems"].append(full)
props=[json.loads(l)["id"] for l in open(root+'/properties.jsonl')]
have={c["property"] for c in claims}
for p in props:
    if p not in have: print("no claim for",p)
used={t for c in claims for t in c["theorems"]}
for n in sorted(names):
    if re.search(r'\bC\d\d+_',n) and n not in used: print("unused",n)
json.dump({"claims":claims},open(root+'/MANIFEST.json','w'),indent=1)
