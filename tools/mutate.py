#!/usr/bin/env python3
"""Runs wrong-program attempts on a scratch copy of /verif/lean (in /tmp/mut) and logs them.
usage: mutate.py attempts.py   where attempts.py calls m(file, definition, old, new, edit, claim [, tightened])."""
import sys, subprocess, re, json, os, shutil
S='/tmp/mut'
def sh(c,**k): return subprocess.run(c,shell=True,capture_output=True,text=True,**k)
os.makedirs(S,exist_ok=True)
sh(f'rm -rf {S}/lean && cp -a /verif/lean {S}/lean')
L=f'{S}/lean'
print(sh('lake build 2>&1 | tail -1',cwd=L).stdout)
def enclosing(path,line):
    name=None
    for i,l in enumerate(open(path),1):
        if i>line: break
        g=re.match(r'\s*(?:@\[.*\]\s*)?(?:private |protected |noncomputable )*(theorem|lemma|def|example|instance)\b\s*(\S*)',l)
        if g: name=g.group(2) if g.group(1) in('theorem','lemma') else f'{g.group(1)} {g.group(2) if g.group(1)!="example" else "(line %d)"%i}'.strip()
    return name
def m(file,definition,old,new,edit,claim,tightened=None):
    p=f'{L}/Verif/{file}'
    src=open(p).read()
    if src.count(old)<1: print('NO MATCH',definition,repr(old)); return
    open(p,'w').write(src.replace(old,new,1))
    out=sh('timeout 1500 lake build 2>&1',cwd=L).stdout
    failed=[]
    for g in re.finditer(r'error: (Verif/\S+\.lean):(\d+):',out):
        n=enclosing(f'{L}/{g.group(1)}',int(g.group(2)))
        e=f'{n} [{g.group(1)[6:-5]}]'
        if e not in failed: failed.append(e)
    ok='Build completed successfully' in out
    open(p,'w').write(src)
    rec={'definition':definition,'file':file,'edit':edit,'claim':claim,'failed':failed if not ok else [],'tightened':tightened or []}
    print(('SURVIVED ' if ok else 'killed   ')+json.dumps(rec,ensure_ascii=False)[:400])
    if ok: rec['note']='survived'
    with open('/verif/seeded/LOG.jsonl','a') as f: f.write(json.dumps(rec,ensure_ascii=False)+'\n')
exec(open(sys.argv[1]).read())
sh('lake build',cwd=L)
