#!/usr/bin/env python3
"""Seeded bugs: apply edits to a scratch copy of the model, rebuild, report which theorems fail.

usage: mutate.py mutants.py   (a file which defines M = [(module path, old, new, broken claim), ...])
Appends to /verif/seeded/LOG.jsonl. Survivors are printed with SURVIVED.
"""
import json, os, re, subprocess, sys
SRC='/verif/lean'; DST='/tmp/scratch/lean'
def sh(c): return subprocess.run(c,shell=True,capture_output=True,text=True)
os.makedirs('/tmp/scratch',exist_ok=True)
sh(f'rsync -a --delete {SRC}/ {DST}/') if sh('which rsync').returncode==0 else sh(f'rm -rf {DST}; cp -a {SRC} {DST}')
ns={}; exec(open(sys.argv[1]).read(),ns)
only=set(map(int,sys.argv[2:]))
def decl_at(lines,n,names=('theorem','def','instance','example','lemma','structure','inductive')):
    for i in range(min(n,len(lines))-1,-1,-1):
        m=re.match(r'\s*(?:@\[[^\]]*\]\s*)?(?:private |protected |noncomputable )*(theorem|def|instance|example|lemma|structure|inductive|abbrev)\b\s*([^\s:({\[]*)',lines[i])
        if m: return m.group(1),(m.group(2) or 'example at line %d'%(i+1))
    return '?','?'
for k,m in enumerate(ns['M']):
    if only and k not in only: continue
    path,old,new,claim=m[:4]; tight=list(m[4]) if len(m)>4 else []
    p=f'{DST}/Verif/{path}'; s=open(p).read()
    if s.count(old)!=1:
        print(k,path,'BAD MUTANT: occurrences',s.count(old),repr(old)[:80]); continue
    pos=s.index(old); line=s[:pos].count('\n')+1
    kind,d=decl_at(s.split('\n'),line+1 if False else line+old.split('\n')[0].count('\n'))
    if 'def ' in old.split('\n')[0]: kind,d=decl_at(old.split('\n'),1)
    open(p,'w').write(s.replace(old,new))
    r=sh(f'cd {DST} && timeout 900 lake build')
    open(p,'w').write(s)
    out=r.stdout+r.stderr
    fails=[]
    modelerr=False
    for mm in re.finditer(r'^error: (Verif/\S+?\.lean):(\d+):\d+',out,re.M):
        f,n=mm.group(1),int(mm.group(2))
        L=open(f'{DST}/{f}').read().split('\n')
        if f=='Verif/'+path:  # file text was mutated: shift is small, use mutated text
            L=s.replace(old,new).split('\n')
        kd,name=decl_at(L,n)
        if kd in('def','abbrev','structure','inductive'): modelerr=True; name='DEF '+name
        q=f[6:-5].replace('/','.')+': '+name
        if q not in fails: fails.append(q)
    st='killed' if fails and not modelerr else ('INVALID' if modelerr else ('SURVIVED' if r.returncode==0 else 'ERROR'))
    print(k,st,path,d,'|',claim,'|',fails[:6],flush=True)
    if st=='INVALID' or st=='ERROR': print(out[-600:]); continue
    if st=='SURVIVED' : continue
    with open('/verif/seeded/LOG.jsonl','a') as f:
        f.write(json.dumps({"definition":f'{path}: {d}',"edit":f'{old.strip()}  ==>  {new.strip()}',"claim_broken":claim,"theorems_failed":fails,"theorems_tightened":tight},ensure_ascii=False)+'\n')
