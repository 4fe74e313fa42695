#!/usr/bin/env python3
"""Apply wrong-program edits to a scratch copy of the model and record which theorems fail.
usage: mutate.py muts.json   (list of {file, definition, old, new, claim})"""
import json, sys, subprocess, os, re, shutil
SRC='/verif/lean'; W=os.environ.get('MUTDIR','/tmp/mut')
muts=json.load(open(sys.argv[1]))
if not os.path.exists(W): shutil.copytree(SRC,W,symlinks=True)
subprocess.run(['rsync','-a','--delete','--exclude','.lake',SRC+'/',W+'/']) if shutil.which('rsync') else subprocess.run(f'cd {W} && rm -rf Verif Verif.lean && cp -a {SRC}/Verif {SRC}/Verif.lean {W}/',shell=True)
subprocess.run(['lake','build'],cwd=W,capture_output=True)
def enclosing(path,line):
    L=open(path).read().split('\n')
    for k in range(line-1,-1,-1):
        m=re.match(r"\s*(?:@\[.*?\]\s*)?(?:private )?(theorem|lemma|example|def|instance|structure|inductive)\b\s*([^\s:({\[]*)",L[k])
        if m: return (m.group(2) or m.group(1)) if m.group(1)!='example' else f'example@{os.path.basename(path)}:{k+1}'
    return '?'
for m in muts:
    p=os.path.join(W,'Verif',m['file'])
    orig=open(os.path.join(SRC,'Verif',m['file'])).read()
    n=orig.count(m['old'])
    nth=m.get('nth',0)
    if n>1 and 'nth' not in m:   # take the occurrence inside the named definition
        d=re.search(r"\bdef (?:\w+\.)*"+re.escape(m['definition'].split('.')[-1])+r"\b",orig)
        if d and orig.find(m['old'],d.start())>=0:
            nth=orig[:orig.find(m['old'],d.start())].count(m['old']); m['nth']=nth
    if n==0 or (n>1 and 'nth' not in m):
        print('SKIP (matches %d)'%n,m['definition'],m['old'][:50]); continue
    idx=-1
    for _ in range(nth+1): idx=orig.index(m['old'],idx+1)
    open(p,'w').write(orig[:idx]+m['new']+orig[idx+len(m['old']):])
    r=subprocess.run(['lake','build']+m.get('targets',[]),cwd=W,capture_output=True,text=True,timeout=3000)
    out=r.stdout+r.stderr
    failed=[]
    deferr=False
    for f,l in re.findall(r"error: (Verif/[\w/]+\.lean):(\d+)",out):
        nm=enclosing(os.path.join(W,f),int(l))
        if f=='Verif/'+m['file'] and 'Model' in f: deferr=True
        if nm not in failed: failed.append(nm)
    open(p,'w').write(orig)
    e={'definition':m['definition'],'edit':f"{m['old']!r} -> {m['new']!r}",'claim_broken':m['claim'],'theorems_failed':failed,'theorems_tightened':m.get('tightened',[])}
    if deferr: e['note']='EDIT DOES NOT COMPILE'
    if r.returncode==0: e['note']='SURVIVED'
    print(json.dumps(e)); sys.stdout.flush()
    if not e.get('note'):
        with open('/verif/seeded/LOG.jsonl','a') as g: g.write(json.dumps(e)+'\n')
    else:
        with open('/tmp/mut_attention.jsonl','a') as g: g.write(json.dumps(e)+'\n')
subprocess.run(['lake','build'],cwd=W,capture_output=True)
