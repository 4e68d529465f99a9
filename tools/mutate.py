#!/usr/bin/env python3
"""Mutation tests.  usage: mutate.py batch.json outfile
Each entry: {"id","file","old","new","definition","edit","claim"}.  Works in the scratch copy /tmp/mut/lean (outside /verif).
Prints one JSON line per mutation with the theorems that no longer check.  To see past the first failure, the proof of a
failing theorem is stubbed out IN THE SCRATCH COPY and the build is repeated, up to 8 rounds."""
import json,subprocess,sys,os,re,shutil
SRC='/verif/lean'; DST='/tmp/mut/lean'; STUB='by s'+'orry'
def sync():
    subprocess.run('rm -rf %s && mkdir -p /tmp/mut && cp -a %s %s'%(DST,SRC,DST),shell=True,check=True)
    subprocess.run('rm -rf /tmp/mut/build0 && cp -a %s/.lake/build /tmp/mut/build0'%DST,shell=True,check=True)
def restore():
    # compiled files of the unmodified sources, so that the next mutation rebuilds only what depends on it
    subprocess.run('rm -rf %s/.lake/build && cp -a /tmp/mut/build0 %s/.lake/build'%(DST,DST),shell=True,check=True)
def targets(claim):
    # modules with theorems of the claimed property; [] = everything
    g=re.match(r'C\d\d+',claim)
    if not (FAST and g): return []
    r=subprocess.run(['grep','-rlE',r'theorem ([A-Za-z_.]*\.)?%s_'%g.group(0),'Verif'],cwd=DST,capture_output=True,text=True).stdout.split()
    return [f[:-5].replace('/','.') for f in sorted(r)]
HEAD=re.compile(r'(?:@\[[^\]]*\] *)?(?:private |protected |noncomputable )*(theorem|def|example|lemma|instance|structure|inductive|abbrev)\b\s*([^\s:({\[]*)')
TOP=re.compile(r'(?:@\[|private |protected |noncomputable |theorem|def |example|lemma|instance|structure|inductive|abbrev|namespace|section|end\b|open |variable|/--|/-!|set_option|omit|include|local )')
def block(path,line):
    L=open(path).read().split('\n')
    i=min(line,len(L))-1
    while i>=0 and not HEAD.match(L[i]): i-=1
    if i<0: return None
    j=i+1
    while j<len(L) and not TOP.match(L[j]): j+=1
    m=HEAD.match(L[i]); return L,i,j,m.group(1),m.group(2) or 'example'
AX="""import Verif
open Lean
def names : List Name := [%s]
run_cmd do
  let env ← getEnv
  for n in names do
    if env.contains n then
      let ax ← Elab.Command.liftCoreM (collectAxioms n)
      if ax.contains (`s@orryAx) then logInfo m!"DEP {n}"
    else logInfo m!"DEP {n}"
"""
def dependents():
    th=sorted({t for c in json.load(open('/verif/MANIFEST.json'))['claims'] for t in c['theorems']})
    open('/tmp/mut/ax.lean','w').write(AX.replace('@','').replace('%s',', '.join('`'+t for t in th)))
    r=subprocess.run(['lake','env','lean','/tmp/mut/ax.lean'],cwd=DST,capture_output=True,text=True)
    return re.findall(r'DEP (\S+)',r.stdout)
# FAST: instead of rebuilding everything, stop at the first round in which a theorem of the claimed property (found through the
# dependencies recorded in /tmp/deps.txt by tools/deps.lean.txt) rests on a lemma that fails.
FAST=os.environ.get('FAST')
DEPS={}
if FAST:
    for l in open('/tmp/deps.txt'):
        t,d=l.rstrip('\n').split('\t'); DEPS[t]=set(d.split())
def hit(fails):
    r=[]
    for t,d in DEPS.items():
        for f in fails:
            n,mod=f.split('@')
            if n!='example' and any(x==n or x.endswith('.'+n) for x in d): r.append(t); break
    return r
sync()
out=open(sys.argv[2],'a')
for m in json.load(open(sys.argv[1])):
    p=os.path.join(DST,m['file']); s=open(p).read()
    n=s.count(m['old'])
    if n!=m.get('count',1):
        print('SKIP',m['id'],'old text occurs',n,'times',flush=True); continue
    open(p,'w').write(s.replace(m['old'],m['new']))
    saved={p:s}; fails=[]; note=''; tg=targets(m['claim'])
    for rnd in range(8):
        r=subprocess.run(['nice','-n','15','lake','build']+tg,cwd=DST,capture_output=True,text=True)
        locs={}
        for g in re.finditer(r'^error: (Verif/[^:]*\.lean):(\d+):',r.stdout+r.stderr,re.M):
            locs.setdefault(g.group(1),[]).append(int(g.group(2)))
        if not locs:
            if tg: tg=[]; continue
            break
        stop=False
        for f,lines in locs.items():
            q=os.path.join(DST,f)
            if q not in saved: saved[q]=open(q).read()
            for ln in sorted(set(lines),reverse=True):
                b=block(q,ln)
                if b is None: stop=True; note='unparsed error in '+f; continue
                L,i,j,kind,name=b
                tag=name+'@'+os.path.basename(f)[:-5]
                if tag in fails and kind!='example': continue
                fails.append(tag)
                if kind in('theorem','lemma','example'):
                    t='\n'.join(L[i:j]); g=re.search(r':=(\s*by\s*\n|\s*\n|\s+fun|\s+⟨|\s+by )',t)
                    if not g:
                        k=t.rfind(':=')
                        if k<0: stop=True; note='unparsed '+tag; continue
                    else: k=g.start()
                    L[i:j]=(t[:k]+':= '+STUB).split('\n')+['']
                else: stop=True; note='definition fails: '+tag; continue
                open(q,'w').write('\n'.join(L))
        if FAST:
            cl=re.match(r'C\d\d+',m['claim']); h=hit(fails)
            if h and (not cl or any(cl.group(0)+'_' in t for t in h)): note='first failing round only'; break
        if stop: break
    else: note='more rounds needed'
    deps=(dependents() if fails and not note else hit(fails) if FAST else [])
    d={k:m[k] for k in ('id','definition','edit','claim')}
    d.update(theorems_failed=deps,directly_failed=fails,tightened=m.get('tightened',[]))
    if note: d['note']=note
    out.write(json.dumps(d)+'\n'); out.flush()
    for q,t in saved.items(): open(q,'w').write(t)
    restore()
